import Verif.Proofs.Datasets
import Verif.Props.C31

namespace DeepGNN.Datasets

open Samplers Spec

theorem yields_batches {k : Nat} {drop : Bool} : ∀ {n : Nat} {st : Text.Reader} {bs : List (List Text.Bytes)},
    Text.batches k drop n st = some bs → Yields (Text.next k drop) st bs
  | 0, st, bs, h => by cases h
  | n + 1, st, bs, h => by
    rw [Text.batches] at h
    split at h
    · rename_i e
      injection h with h
      rw [← h]
      exact .stop e
    · rename_i b st' e
      rw [Option.map_eq_some_iff] at h
      obtain ⟨bs', h1, rfl⟩ := h
      exact .more e (yields_batches h1)

/-- Batches of the reader are not empty. -/
theorem next_ne {k : Nat} {drop : Bool} {st st' : Text.Reader} {b : List Text.Bytes} (h : Text.next k drop st = some (b, st')) :
    b ≠ [] := by
  rw [Text.next] at h
  split at h
  · cases h
  · simp only at h
    split at h
    · cases h
    · rename_i h1
      injection h with h
      injection h with h2 h3
      rw [← h2]
      intro e
      exact h1 (.inl (by rw [e]; rfl))

/-- Filling the buffer: lines move from the reader to the buffer; it is full, or the reader is at its end. -/
theorem fillBuffer_spec {k size : Nat} {drop : Bool} : ∀ (fuel : Nat) (st : TextState) (added : Bool)
    (bs : List (List Text.Bytes)), (st.done = false → Yields (Text.next k drop) st.reader bs) → (st.done = true → bs = []) →
    size + 1 ≤ st.buf.length + fuel →
    ∃ bs', (fillBuffer k size drop fuel st added).1.buf ++ bs'.flatten = st.buf ++ bs.flatten ∧
      (fillBuffer k size drop fuel st added).1.calls = st.calls ∧
      ((fillBuffer k size drop fuel st added).1.done = false →
        Yields (Text.next k drop) (fillBuffer k size drop fuel st added).1.reader bs' ∧
        size ≤ (fillBuffer k size drop fuel st added).1.buf.length) ∧
      ((fillBuffer k size drop fuel st added).1.done = true → bs' = []) ∧
      (st.buf ++ bs.flatten ≠ [] → 0 < size → (fillBuffer k size drop fuel st added).1.buf ≠ [])
  | 0, st, added, bs, hy, hd, hf => by
    refine ⟨bs, rfl, rfl, fun h => ⟨hy h, by show size ≤ st.buf.length; omega⟩, hd, fun _ _ => ?_⟩
    intro e
    have : st.buf = [] := e
    rw [this] at hf
    simp at hf
  | fuel + 1, st, added, bs, hy, hd, hf => by
    rw [fillBuffer]
    by_cases hc : st.done = false ∧ st.buf.length < size
    · rw [if_pos hc]
      have hy' := hy hc.1
      cases hy' with
      | stop e =>
        rw [e]
        dsimp only
        refine ⟨[], rfl, rfl, fun h => (by cases h), fun _ => rfl, fun h _ => ?_⟩
        simpa using h
      | @more _ s' x out e hrest =>
        rw [e]
        dsimp only
        have hx : x ≠ [] := next_ne e
        have hxl : 0 < x.length := List.length_pos_iff.2 hx
        obtain ⟨bs', h1, h2, h3, h4, h5⟩ := fillBuffer_spec (k := k) (size := size) (drop := drop) fuel
          { st with buf := st.buf ++ x, reader := s' } true out (fun _ => hrest) (fun h => by
            have h' : st.done = true := h
            rw [hc.1] at h'; cases h') (by
            simp only [List.length_append]; omega)
        refine ⟨bs', ?_, h2, h3, h4, fun _ hs => h5 ?_ hs⟩
        · rw [h1]; simp
        · simp [hx]
    · rw [if_neg hc]
      refine ⟨bs, rfl, rfl, fun h => ⟨hy h, ?_⟩, hd, fun h hs => ?_⟩
      · have h : st.done = false := h
        show size ≤ st.buf.length
        rcases Nat.lt_or_ge st.buf.length size with h' | h'
        · exact absurd ⟨h, h'⟩ hc
        · exact h'
      · show st.buf ≠ []
        cases hdd : st.done with
        | true => rw [hd hdd] at h; simpa using h
        | false =>
          intro e
          apply hc
          refine ⟨hdd, ?_⟩
          rw [e]; exact hs

theorem yields_text {k size : Nat} (hk : 0 < k) (hsize : k * 3 ≤ size) {drop shuffle : Bool} {shuf : Nat → List Text.Bytes → List Text.Bytes}
    (hshuf : ∀ c l, (shuf c l).Perm l) : ∀ (m : Nat) (st : TextState) (bs : List (List Text.Bytes)),
    (st.done = false → Yields (Text.next k drop) st.reader bs) → (st.done = true → bs = []) →
    (st.buf ++ bs.flatten).length ≤ m → (st.done = true ∨ st.buf ++ bs.flatten ≠ []) →
    ∃ outs p, Yields (textNext k size drop shuffle shuf) st outs ∧ (∀ b ∈ outs, b.length = k) ∧ p < k ∧
      outs.flatten.Perm (st.buf ++ bs.flatten ++ List.replicate p [])
  | m, st, bs, hy, hd, hm, hne => by
    by_cases hend : st.done ∧ st.buf.length = 0
    · refine ⟨[], 0, .stop (by rw [textNext, if_pos hend]), by simp, hk, ?_⟩
      rw [hd hend.1, List.length_eq_zero_iff.1 hend.2]
      simp
    · have hpos : st.buf ++ bs.flatten ≠ [] := by
        rcases hne with h | h
        · rw [hd h]
          intro e
          apply hend
          refine ⟨h, ?_⟩
          have : st.buf = [] := by simpa using e
          rw [this]; rfl
        · exact h
      obtain ⟨bs', h1, h2, h3, h4, h5⟩ := fillBuffer_spec (k := k) (size := size) (drop := drop) (size + 1) st false bs hy hd (by omega)
      have hb := h5 hpos (by omega)
      -- after filling and shuffling
      have hst : ∃ st' : TextState, st'.buf.Perm (fillBuffer k size drop (size + 1) st false).1.buf ∧
          st'.reader = (fillBuffer k size drop (size + 1) st false).1.reader ∧
          st'.done = (fillBuffer k size drop (size + 1) st false).1.done ∧
          textNext k size drop shuffle shuf st = some (st'.buf.take k ++ List.replicate (k - (st'.buf.take k).length) [],
            { st' with buf := st'.buf.drop k }) := by
        rw [textNext, if_neg hend]
        by_cases hs : shuffle ∧ (fillBuffer k size drop (size + 1) st false).2
        · exact ⟨{ (fillBuffer k size drop (size + 1) st false).1 with
              buf := shuf (fillBuffer k size drop (size + 1) st false).1.calls (fillBuffer k size drop (size + 1) st false).1.buf
              calls := (fillBuffer k size drop (size + 1) st false).1.calls + 1 }, hshuf _ _, rfl, rfl, by simp only [if_pos hs]⟩
        · exact ⟨_, .refl _, rfl, rfl, by simp only [if_neg hs]⟩
      obtain ⟨st', p1, p2, p3, p4⟩ := hst
      have hlen : st'.buf ≠ [] := fun e => hb (by rw [e] at p1; exact List.Perm.eq_nil p1.symm)
      have hlpos := List.length_pos_iff.2 hlen
      by_cases hfull : k ≤ st'.buf.length
      · -- a full batch
        have htot : (st'.buf ++ bs'.flatten).Perm (st.buf ++ bs.flatten) := by
          rw [← h1]; exact p1.append_right _
        obtain ⟨outs, p, q1, q2, q3, q4⟩ := yields_text hk hsize hshuf (shuffle := shuffle) (drop := drop) (m - 1) { st' with buf := st'.buf.drop k } bs'
          (fun h => by
            have h : st'.done = false := h
            rw [p2]; rw [p3] at h; exact (h3 h).1)
          (fun h => by
            have h : st'.done = true := h
            rw [p3] at h; exact h4 h)
          (by
            have := htot.length_eq
            simp only [List.length_append, List.length_drop] at this hm ⊢
            omega)
          (by
            by_cases hdd : st'.done = true
            · exact .inl hdd
            · refine .inr ?_
              have hdd : st'.done = false := by simpa using hdd
              rw [p3] at hdd
              have := (h3 hdd).2
              rw [← p1.length_eq] at this
              intro e
              have e : st'.buf.drop k ++ bs'.flatten = [] := e
              have e := (List.append_eq_nil_iff.1 e).1
              have e := congrArg List.length e
              rw [List.length_drop] at e
              simp at e
              omega)
        refine ⟨_, p, .more p4 q1, ?_, q3, ?_⟩
        · intro b hbm
          rcases List.mem_cons.1 hbm with rfl | hbm
          · simp only [List.length_append, List.length_take, List.length_replicate]; omega
          · exact q2 b hbm
        · rw [List.flatten_cons]
          have hz : k - (st'.buf.take k).length = 0 := by rw [List.length_take]; omega
          rw [hz, List.replicate_zero, List.append_nil]
          refine (List.Perm.append_left _ q4).trans ?_
          rw [← List.append_assoc]
          refine List.Perm.append_right _ ?_
          rw [← List.append_assoc]
          show ((st'.buf.take k ++ st'.buf.drop k) ++ bs'.flatten).Perm _
          rw [List.take_append_drop]
          exact htot
      · -- the last batch
        have hdone : st'.done = true := by
          cases hdd : st'.done with
          | true => rfl
          | false =>
            rw [p3] at hdd
            have := (h3 hdd).2
            rw [← p1.length_eq] at this
            omega
        have hbs : bs' = [] := h4 (by rw [← p3]; exact hdone)
        have hdrop : st'.buf.drop k = [] := List.drop_eq_nil_of_le (by omega)
        have htake : st'.buf.take k = st'.buf := List.take_of_length_le (by omega)
        refine ⟨_, k - st'.buf.length, .more p4 (.stop ?_), ?_, by omega, ?_⟩
        · rw [textNext, if_pos]
          exact ⟨hdone, by simp only [hdrop]; rfl⟩
        · intro b hbm
          rw [List.mem_singleton] at hbm
          rw [hbm, htake]
          simp only [List.length_append, List.length_replicate]; omega
        · rw [htake]
          simp only [List.flatten_cons, List.flatten_nil, List.append_nil]
          refine List.Perm.append_right _ ?_
          rw [← h1, hbs]
          simpa using p1
termination_by m => m
decreasing_by
  have := List.length_pos_iff.2 hpos
  omega

theorem flatMap_grid {α : Type} (f : Nat → List α) (N : Nat) : ∀ W : Nat,
    ((List.range W).flatMap fun w => (List.range N).flatMap fun i => f (w * N + i)) = (List.range (W * N)).flatMap f
  | 0 => by simp
  | W + 1 => by
    rw [List.range_succ, List.flatMap_append, flatMap_grid f N W, Nat.succ_mul, List.range_add, List.flatMap_append]
    simp [List.flatMap_map]

theorem flatMap_replicate_grid {α : Type} (x : α) (k : Nat → Nat → Nat) {b N : Nat} : ∀ W : Nat, (∀ w < W, ∀ i < N, k w i ≤ b) →
    ∃ m, m ≤ W * N * b ∧
      (List.range W).flatMap (fun w => (List.range N).flatMap fun i => List.replicate (k w i) x) = List.replicate m x
  | 0, _ => ⟨0, by simp, by simp⟩
  | W + 1, h => by
    obtain ⟨m, h1, h2⟩ := flatMap_replicate_grid x k W fun w hw => h w (by omega)
    obtain ⟨m', h3, h4⟩ := flatMap_replicate_sum x (k W) N fun i hi => h W (by omega) i hi
    refine ⟨m + m', by rw [Nat.succ_mul, Nat.add_mul]; omega, ?_⟩
    rw [List.range_succ, List.flatMap_append, h2, List.flatMap_cons, List.flatMap_nil, List.append_nil, h4]
    simp [List.replicate_append_replicate]

theorem flatMap_length_grid {α : Type} (f : Nat → Nat → List α) {b N : Nat} : ∀ W : Nat, (∀ w < W, ∀ i < N, (f w i).length ≤ b) →
    ((List.range W).flatMap fun w => (List.range N).flatMap fun i => f w i).length ≤ W * N * b
  | 0, _ => by simp
  | W + 1, h => by
    have h1 := flatMap_length_grid f W fun w hw => h w (by omega)
    have h2 := flatMap_length_le (fun i => f W i) N fun i hi => h W (by omega) i hi
    rw [List.range_succ, List.flatMap_append, List.length_append, List.flatMap_cons, List.flatMap_nil, List.append_nil,
      Nat.succ_mul, Nat.add_mul]
    omega

theorem perm_epochs {ι α : Type} {order : Nat → List ι} {fs : List ι} (h : ∀ e, (order e).Perm fs) (f : ι → List α) : ∀ E : Nat,
    (((List.range E).flatMap order).flatMap f).Perm (List.replicate E (fs.flatMap f)).flatten
  | 0 => by simp
  | E + 1 => by
    rw [List.range_succ, List.flatMap_append, List.flatMap_append, List.replicate_succ', List.flatten_append]
    refine (perm_epochs h f E).append ?_
    simpa using (h E).flatMap_right f

/-- What a reader over `files` yields, with what `drop_last` drops. -/
theorem reader_yields {len k : Nat} (hl : 0 < len) (hk : 0 < k) (threads : Nat) {files : List Text.Bytes}
    (hf : ∀ f ∈ files, CleanEnd f) (hb : ∀ f ∈ files, [] ∉ Text.splitlines f) (dl : Bool) :
    ∃ (bs : List (List Text.Bytes)) (lost : List Text.Bytes), Yields (Text.next k dl) (Text.start len threads files) bs ∧
      bs.flatten ++ lost = files.flatMap textLines ∧ (dl = false → lost = []) ∧
      (dl = true → lost.length < k ∧ ∀ b ∈ bs, b.length = k) := by
  have hlast : ∀ f, files.getLast? = some f → CleanEnd f := fun f h => hf f (List.mem_of_getLast? h)
  cases dl with
  | false =>
    obtain ⟨n, bs, h1, h2, -, -⟩ := C31_exact hl hk threads hlast hb
    exact ⟨bs, [], yields_batches h1, by simpa using h2, fun _ => rfl, fun h => by cases h⟩
  | true =>
    obtain ⟨n, bs, lost, h1, h2, h3, h4, h5⟩ := C31_drop_last hl hk threads hlast
    refine ⟨bs, lost, yields_batches h1, ?_, (fun h => by cases h), fun _ => ⟨h5, h4⟩⟩
    rw [← h2]
    symm
    rw [List.filter_eq_self]
    intro x hx
    have := h3.subset hx
    obtain ⟨f, hfm, hxm⟩ := List.mem_flatMap.1 this
    have : x ≠ [] := fun e => hb f hfm (e ▸ hxm)
    simpa using this

theorem flatten_length_of {α : Type} {k : Nat} : ∀ {bs : List (List α)}, (∀ b ∈ bs, b.length = k) → bs.flatten.length = bs.length * k
  | [], _ => by simp
  | b :: bs, h => by
    rw [List.flatten_cons, List.length_append, flatten_length_of fun x hx => h x (by simp [hx]), h b (by simp), List.length_cons,
      Nat.succ_mul]
    omega

/-- What a sampler over text files yields. -/
theorem text_loader {len k size : Nat} (hl : 0 < len) (hk : 0 < k) (hsize : k * 3 ≤ size) (threads : Nat) {files : List Text.Bytes}
    (hf : ∀ f ∈ files, CleanEnd f) (hb : ∀ f ∈ files, [] ∉ Text.splitlines f) (dl shuffle : Bool)
    {shuf : Nat → List Text.Bytes → List Text.Bytes} (hshuf : ∀ c l, (shuf c l).Perm l)
    (hlong : files.flatMap textLines ≠ []) (hdrop : dl = true → k ≤ (files.flatMap textLines).length) :
    ∃ outs p lost, Yields (textNext k size dl shuffle shuf) ⟨[], false, Text.start len threads files, 0⟩ outs ∧
      (∀ b ∈ outs, b.length = k) ∧ p < k ∧ lost.length < k ∧
      (outs.flatten ++ lost).Perm (files.flatMap textLines ++ List.replicate p []) ∧ (dl = false → lost = []) ∧
      (dl = true → p = 0) := by
  obtain ⟨bs, lost, h1, h2, h3, h4⟩ := reader_yields hl hk threads hf hb dl
  have hlost : lost.length < k := by
    cases dl with
    | false => rw [h3 rfl]; exact hk
    | true => exact (h4 rfl).1
  have hne : bs.flatten ≠ [] := by
    intro e
    rw [e, List.nil_append] at h2
    cases dl with
    | false => rw [h3 rfl] at h2; exact hlong h2.symm
    | true => have := hdrop rfl; rw [← h2] at this; omega
  obtain ⟨outs, p, q1, q2, q3, q4⟩ := yields_text hk hsize hshuf (drop := dl) (shuffle := shuffle) _
    ⟨[], false, Text.start len threads files, 0⟩ bs (fun _ => h1) (fun h => by cases h) (Nat.le_refl _) (.inr (by simpa using hne))
  refine ⟨outs, p, lost, q1, q2, q3, hlost, ?_, h3, fun hd => ?_⟩
  · rw [← h2]
    refine (q4.append_right lost).trans ?_
    simp only [List.nil_append, List.append_assoc]
    exact List.Perm.append_left _ List.perm_append_comm
  · have e1 := flatten_length_of q2
    have e2 := flatten_length_of (h4 hd).2
    have e3 := q4.length_eq
    simp only [List.nil_append, List.length_append, List.length_replicate] at e3
    rw [e1, e2] at e3
    rcases Nat.lt_or_ge bs.length outs.length with h | h
    · have := Nat.mul_le_mul_right k (Nat.succ_le_of_lt h)
      rw [Nat.succ_mul] at this
      omega
    · have := Nat.mul_le_mul_right k h
      omega

end DeepGNN.Datasets
