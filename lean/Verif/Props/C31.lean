import Verif.Proofs.TextReader

/-
C31: the text reader yields every line once, whatever the block size and the number of threads.
-/

namespace DeepGNN

open Text

theorem batched_cons {α : Type} {k : Nat} {b : List α} {bs : List (List α)} (h : Spec.Batched k bs) (hb : b ≠ []) (hk : b.length ≤ k)
    (hf : bs ≠ [] → b.length = k) : Spec.Batched k (b :: bs) := by
  refine ⟨?_, ?_⟩
  · cases bs with
    | nil => simp
    | cons c cs =>
      rw [List.dropLast_cons_cons]
      intro x hx
      rcases List.mem_cons.1 hx with rfl | hx
      · exact hf (by simp)
      · exact h.full x hx
  · intro x hx
    rcases List.mem_cons.1 hx with rfl | hx
    · exact ⟨hb, hk⟩
    · exact h.last x hx

/-- Iterating without dropping the last batch: batches of `k` of the lines to come. -/
theorem batches_keep {k : Nat} (hk : 0 < k) : ∀ (n : Nat) (st : Reader), st.done = false → st.rest.length ≤ n →
    ∃ bs, batches k false (n + 2) st = some bs ∧ bs.flatten = st.rest ∧ Spec.Batched k bs := by
  intro n
  induction n using Nat.strongRecOn with
  | _ n ih =>
    intro st hd hn
    have hs := fillLoop_spec (k := k) st.queue [] st.bytes st.lines (by simpa using hk)
    simp only [List.nil_append] at hs
    rw [batches, next, if_neg (by simp [hd])]
    generalize hr : fillLoop k st.queue [] st.bytes st.lines = r at hs
    simp only [Bool.false_eq_true, false_and, or_false]
    have hrest : st.rest = st.lines ++ stream st.queue st.bytes := rfl
    by_cases h0 : r.1.length = 0
    · rw [if_pos h0]
      refine ⟨[], rfl, ?_, ⟨by simp, by simp⟩⟩
      have : r.1 = [] := List.length_eq_zero_iff.1 h0
      cases hd2 : r.2.done with
      | true => rw [hrest, (hs.1 hd2).1, this]; rfl
      | false => have := (hs.2 hd2).1; omega
    · rw [if_neg h0]
      simp only
      cases hd2 : r.2.done with
      | true =>
        refine ⟨[r.1], ?_, ?_, ?_⟩
        · rw [batches]; simp [next]
        · simp [hrest, (hs.1 hd2).1]
        · exact batched_cons ⟨by simp, by simp⟩ (by intro e; simp [e] at h0) (hs.1 hd2).2 (by simp)
      | false =>
        have h2 := hs.2 hd2
        have hlt : r.2.rest.length < n := by
          have := congrArg List.length h2.2
          rw [← hrest] at this
          simp at this; omega
        have hr2 : ({ r.2 with done := false || r.1.length != k } : Reader) = r.2 := by
          rw [show (r.1.length != k) = false by simp [h2.1]]
          cases h : r.2; rw [h] at hd2; simp at hd2; simp [hd2]
        rw [hr2]
        obtain ⟨m, hm⟩ : ∃ m, n = m + 1 := ⟨n - 1, by omega⟩
        obtain ⟨bs, e1, e2, e3⟩ := ih m (by omega) r.2 hd2 (by omega)
        refine ⟨r.1 :: bs, ?_, ?_, ?_⟩
        · rw [hm, e1]; rfl
        · rw [List.flatten_cons, e2, h2.2]; rfl
        · exact batched_cons e3 (by intro e; simp [e] at h0) (by omega) (fun _ => h2.1)

/-- Iterating and dropping an incomplete batch: all batches are full, less than a batch is lost. -/
theorem batches_drop {k : Nat} (hk : 0 < k) : ∀ (n : Nat) (st : Reader), st.done = false → st.rest.length ≤ n →
    ∃ bs lost, batches k true (n + 2) st = some bs ∧ bs.flatten ++ lost = st.rest ∧ (∀ b ∈ bs, b.length = k) ∧ lost.length < k := by
  intro n
  induction n using Nat.strongRecOn with
  | _ n ih =>
    intro st hd hn
    have hs := fillLoop_spec (k := k) st.queue [] st.bytes st.lines (by simpa using hk)
    simp only [List.nil_append] at hs
    rw [batches, next, if_neg (by simp [hd])]
    generalize hr : fillLoop k st.queue [] st.bytes st.lines = r at hs
    simp only [true_and]
    have hrest : st.rest = st.lines ++ stream st.queue st.bytes := rfl
    by_cases h0 : r.1.length < k
    · rw [if_pos (.inr h0)]
      refine ⟨[], r.1, rfl, ?_, by simp, h0⟩
      cases hd2 : r.2.done with
      | true => rw [hrest, (hs.1 hd2).1]; rfl
      | false => have := (hs.2 hd2).1; omega
    · rw [if_neg (by omega)]
      simp only
      cases hd2 : r.2.done with
      | true =>
        refine ⟨[r.1], [], ?_, ?_, ?_, by simpa using hk⟩
        · rw [batches]; simp [next]
        · simp [hrest, (hs.1 hd2).1]
        · have := (hs.1 hd2).2
          simp; omega
      | false =>
        have h2 := hs.2 hd2
        have hlt : r.2.rest.length < n := by
          have := congrArg List.length h2.2
          rw [← hrest] at this
          simp at this; omega
        have hr2 : ({ r.2 with done := false || r.1.length != k } : Reader) = r.2 := by
          rw [show (r.1.length != k) = false by simp [h2.1]]
          cases h : r.2; rw [h] at hd2; simp at hd2; simp [hd2]
        rw [hr2]
        obtain ⟨m, hm⟩ : ∃ m, n = m + 1 := ⟨n - 1, by omega⟩
        obtain ⟨bs, lost, e1, e2, e3, e4⟩ := ih m (by omega) r.2 hd2 (by omega)
        refine ⟨r.1 :: bs, lost, ?_, ?_, ?_, e4⟩
        · rw [hm, e1]; rfl
        · rw [List.flatten_cons, List.append_assoc, e2, h2.2]; rfl
        · intro b hb
          rcases List.mem_cons.1 hb with rfl | hb
          · exact h2.1
          · exact e3 b hb

/-- For all files, block sizes, numbers of threads and batch sizes the iteration ends; the lines that are not empty are
those of the files in order, each once, no empty lines are added (lines with the empty ones are what python's `splitlines` gives), and
the batches have the requested size, only the last may be smaller. -/
theorem C31_lines_partial {len k : Nat} (hl : 0 < len) (hk : 0 < k) (threads : Nat) {files : List Bytes}
    (hf : ∀ f, files.getLast? = some f → Spec.CleanEnd f) :
    ∃ n bs, batches k false n (start len threads files) = some bs ∧
      bs.flatten.filter (· ≠ []) = files.flatMap Spec.textLines ∧ bs.flatten.Sublist (files.flatMap splitlines) ∧ Spec.Batched k bs := by
  obtain ⟨bs, e1, e2, e3⟩ := batches_keep hk _ (start len threads files) rfl (Nat.le_refl _)
  refine ⟨_, bs, e1, ?_, by rw [e2]; exact (stream_items hl threads files hf).2, e3⟩
  rw [e2]
  have := (stream_items hl threads files hf).1
  have e : (start len threads files).rest = stream (items len threads files) [] := rfl
  rw [e, ← this, nonBlank]
  refine List.filter_congr fun x _ => ?_
  cases x <;> simp

/-- With `drop_last` every batch is full and fewer lines than a batch are dropped at the end. -/
theorem C31_drop_last {len k : Nat} (hl : 0 < len) (hk : 0 < k) (threads : Nat) {files : List Bytes}
    (hf : ∀ f, files.getLast? = some f → Spec.CleanEnd f) :
    ∃ n bs lost, batches k true n (start len threads files) = some bs ∧
      (bs.flatten ++ lost).filter (· ≠ []) = files.flatMap Spec.textLines ∧ (bs.flatten ++ lost).Sublist (files.flatMap splitlines) ∧ (∀ b ∈ bs, b.length = k) ∧ lost.length < k := by
  obtain ⟨bs, lost, e1, e2, e3, e4⟩ := batches_drop hk _ (start len threads files) rfl (Nat.le_refl _)
  refine ⟨_, bs, lost, e1, ?_, by rw [e2]; exact (stream_items hl threads files hf).2, e3, e4⟩
  rw [e2]
  have := (stream_items hl threads files hf).1
  have e : (start len threads files).rest = stream (items len threads files) [] := rfl
  rw [e, ← this, nonBlank]
  refine List.filter_congr fun x _ => ?_
  cases x <;> simp

/-- Files without empty lines: exactly their lines are yielded. -/
theorem C31_exact {len k : Nat} (hl : 0 < len) (hk : 0 < k) (threads : Nat) {files : List Bytes}
    (hf : ∀ f, files.getLast? = some f → Spec.CleanEnd f) (hb : ∀ f ∈ files, [] ∉ splitlines f) :
    ∃ n bs, batches k false n (start len threads files) = some bs ∧ bs.flatten = files.flatMap Spec.textLines ∧
      bs.flatten = files.flatMap splitlines ∧ Spec.Batched k bs := by
  obtain ⟨n, bs, h1, h2, h3, h4⟩ := C31_lines_partial hl hk threads hf
  have hne : ∀ x ∈ files.flatMap splitlines, x ≠ [] := by
    intro x hx e
    obtain ⟨f, hf, hx⟩ := List.mem_flatMap.1 hx
    rw [e] at hx
    exact hb f hf hx
  have hall : bs.flatten.filter (· ≠ []) = bs.flatten := List.filter_eq_self.2 fun x hx => by
    simpa using hne x (h3.subset hx)
  have h5 : files.flatMap splitlines = files.flatMap Spec.textLines := by
    have : ∀ l : List Bytes, (∀ x ∈ l, x ≠ []) → nonBlank l = l := fun l hl => List.filter_eq_self.2 fun x hx => by
      have := hl x hx
      cases x
      · exact absurd rfl this
      · rfl
    have key : ∀ fs : List Bytes, (∀ f ∈ fs, [] ∉ splitlines f) → fs.flatMap splitlines = fs.flatMap Spec.textLines := by
      intro fs
      induction fs with
      | nil => intro _; rfl
      | cons f fs ih =>
        intro h
        rw [List.flatMap_cons, List.flatMap_cons, ih (fun g hg => h g (by simp [hg])), Spec.textLines, ← splitlines_runs,
          this _ (fun x hx e => h f (by simp) (by rw [e] at hx; exact hx))]
    exact key files hb
  rw [hall] at h2
  exact ⟨n, bs, h1, h2, by rw [h5]; exact h2, h4⟩

/-- "ab\ncd\n" and "ef\r\ng". -/
def C31_files : List Bytes := [[97, 98, 10, 99, 100, 10], [101, 102, 13, 10, 103]]

/-- The hypotheses hold for the example, read in blocks of three bytes by two threads. -/
example : (∀ f, C31_files.getLast? = some f → Spec.CleanEnd f) ∧ (∀ f ∈ C31_files, [] ∉ splitlines f) ∧
    batches 3 false 5 (start 3 1 C31_files) = some [[[97, 98], [99, 100], [101, 102]], [[103]]] := by
  refine ⟨?_, by decide +kernel, by decide +kernel⟩
  intro f hf
  have : f = [101, 102, 13, 10, 103] := by simpa [C31_files] using hf.symm
  subst this
  intro x y e hy b hb
  match x, e with
  | [], e => simp at e; exact absurd (by rw [← e]; decide) hy
  | [_], e => simp at e; exact absurd (by rw [← e.2]; decide) hy
  | [_, _], e => simp at e; exact absurd (by rw [← e.2.2]; decide) hy
  | [_, _, _], e => simp at e; exact absurd (by rw [← e.2.2.2]; decide) hy
  | [_, _, _, _], e =>
    simp at e
    rw [← e.2.2.2.2] at hb
    have : b = 103 := by simpa using hb
    subst this; decide
  | _ :: _ :: _ :: _ :: _ :: z, e =>
    simp at e
    have : y = [] := e.2.2.2.2.2.2
    rw [this] at hb; simp at hb

/-- An empty line is yielded or not, depending on the size of the blocks: "a\n\n\nb" in blocks of 6 and of 2 bytes. -/
theorem C31_blank_refuted : ∃ file, batches 9 false 3 (start 6 0 [file]) = some [[[97], [], [98]]] ∧
    batches 9 false 3 (start 2 0 [file]) = some [[[97], [98]]] :=
  ⟨[97, 10, 10, 10, 98], by decide +kernel⟩

/-- A last line without a newline is not split at "\r", all others are. -/
theorem C31_last_refuted : batches 9 false 3 (start 9 0 [[97, 13, 98, 10]]) = some [[[97], [98]]] ∧
    batches 9 false 3 (start 9 0 [[97, 13, 98]]) = some [[[97, 13, 98]]] := by
  decide +kernel

end DeepGNN
