import Verif.Spec.Tokenize

/-! Lemmas about tokenization. -/

namespace DeepGNN.Tokenize

open DeepGNN.Spec

theorem kept_eq (t : Text) : (t.map lower).filter valid = kept t := by
  induction t with
  | nil => rfl
  | cons c t ih =>
    simp only [List.map_cons, kept, List.filterMap_cons]
    rw [List.filter_cons]
    unfold kept at ih
    by_cases h1 : 65 ≤ c ∧ c ≤ 90
    · have hv : valid (lower c) = true := by
        simp only [lower, if_pos h1, valid, Bool.or_eq_true, Bool.and_eq_true, decide_eq_true_eq, beq_iff_eq]
        omega
      rw [if_pos hv, if_pos h1, ih]
      simp [lower, if_pos h1]
    · rw [if_neg h1]
      have hl : lower c = c := by simp [lower, if_neg h1]
      by_cases h2 : (97 ≤ c ∧ c ≤ 122) ∨ (48 ≤ c ∧ c ≤ 57) ∨ c = 32
      · have hv : valid (lower c) = true := by
          rw [hl]
          simp only [valid, Bool.or_eq_true, Bool.and_eq_true, decide_eq_true_eq, beq_iff_eq]
          omega
        rw [if_pos hv, if_pos h2, ih, hl]
      · have hv : ¬ valid (lower c) = true := by
          rw [hl]
          simp only [valid, Bool.or_eq_true, Bool.and_eq_true, decide_eq_true_eq, beq_iff_eq]
          omega
        rw [if_neg hv, if_neg h2, ih]

/-! Words -/

/-- The words that are not empty. -/
def full (ws : List Text) : List Text := ws.filter fun w => w ≠ []

theorem splitSpace_cons {c : Nat} (hc : c ≠ 32) (cs : Text) :
    ∃ w ws, splitSpace cs = w :: ws ∧ splitSpace (c :: cs) = (c :: w) :: ws := by
  have hne : splitSpace cs ≠ [] := by
    cases cs with
    | nil => simp [splitSpace]
    | cons d ds =>
      unfold splitSpace
      split
      · simp
      · split <;> simp
  cases h : splitSpace cs with
  | nil => exact absurd h hne
  | cons w ws =>
    refine ⟨w, ws, rfl, ?_⟩
    rw [splitSpace, if_neg hc, h]

theorem splitSpace_space (cs : Text) : splitSpace (32 :: cs) = [] :: splitSpace cs := by
  rw [splitSpace, if_pos rfl]

theorem splitSpace_word {w : Text} (hw : 32 ∉ w) : splitSpace w = [w] := by
  induction w with
  | nil => rfl
  | cons c w ih =>
    simp only [List.mem_cons, not_or] at hw
    obtain ⟨v, vs, h1, h2⟩ := splitSpace_cons (Ne.symm hw.1) w
    rw [ih hw.2] at h1
    cases h1
    exact h2

theorem splitSpace_append {w s : Text} (hw : 32 ∉ w) :
    splitSpace (w ++ 32 :: s) = w :: splitSpace s := by
  induction w with
  | nil => exact splitSpace_space s
  | cons c w ih =>
    simp only [List.mem_cons, not_or] at hw
    obtain ⟨v, vs, h1, h2⟩ := splitSpace_cons (Ne.symm hw.1) (w ++ 32 :: s)
    rw [ih hw.2] at h1
    cases h1
    exact h2

theorem full_of_isWords {s : Text} {ws : List Text} (h : IsWords s ws) : full (splitSpace s) = ws := by
  induction h with
  | none => rfl
  | space _ ih => rw [splitSpace_space]; simpa [full] using ih
  | last h1 h2 => rw [splitSpace_word h2]; simp [full, h1]
  | word h1 h2 _ ih =>
    rw [splitSpace_append h2]
    unfold full at ih ⊢
    rw [List.filter_cons, if_pos (by simpa using h1), ih]

theorem isWords_exists : ∀ (n : Nat) (s : Text), s.length = n → ∃ ws, IsWords s ws := by
  intro n
  induction n using Nat.strongRecOn with
  | _ n ih =>
    intro s hs
    by_cases hm : 32 ∈ s
    · obtain ⟨a, b, rfl, ha⟩ := List.eq_append_cons_of_mem hm
      obtain ⟨ws, hws⟩ := ih b.length (by rw [← hs]; simp; omega) b rfl
      cases a with
      | nil => exact ⟨ws, .space hws⟩
      | cons x a => exact ⟨_, .word (by simp) ha hws⟩
    · cases s with
      | nil => exact ⟨[], .none⟩
      | cons x s => exact ⟨_, .last (by simp) hm⟩

theorem full_space (s : Text) : full (splitSpace (32 :: s)) = full (splitSpace s) := by
  rw [splitSpace_space]; rfl

/-- Runs of spaces do not matter. -/
theorem full_collapse : ∀ (s : Text),
    full (splitSpace (collapse false s)) = full (splitSpace s) ∧
    full (splitSpace (collapse true s)) = full (splitSpace s) ∧
    (splitSpace (collapse false s)).head? = (splitSpace s).head?
  | [] => ⟨rfl, rfl, rfl⟩
  | c :: s => by
    obtain ⟨i1, i2, i3⟩ := full_collapse s
    by_cases hc : c = 32
    · subst hc
      refine ⟨?_, ?_, ?_⟩
      · simp only [collapse, if_true, Bool.false_eq_true, if_false, full_space, i2]
      · simp only [collapse, if_true, full_space, i2]
      · simp only [collapse, if_true, Bool.false_eq_true, if_false, splitSpace_space]; rfl
    · have key : full (splitSpace (c :: collapse false s)) = full (splitSpace (c :: s)) ∧
          (splitSpace (c :: collapse false s)).head? = (splitSpace (c :: s)).head? := by
        obtain ⟨w, ws, h1, h2⟩ := splitSpace_cons hc s
        obtain ⟨v, vs, h3, h4⟩ := splitSpace_cons hc (collapse false s)
        rw [h1, h3] at i3
        simp only [List.head?_cons, Option.some.injEq] at i3
        subst i3
        rw [h1, h3] at i1
        rw [h2, h4]
        refine ⟨?_, rfl⟩
        have e : full vs = full ws := by
          unfold full at i1 ⊢
          rw [List.filter_cons, List.filter_cons] at i1
          split at i1
          · injection i1
          · exact i1
        unfold full at e ⊢
        rw [List.filter_cons, List.filter_cons, e]
      refine ⟨?_, ?_, ?_⟩
      · simp only [collapse, if_neg hc]; exact key.1
      · simp only [collapse, if_neg hc]; exact key.1
      · simp only [collapse, if_neg hc]; exact key.2

theorem full_append_space : ∀ (s : Text), full (splitSpace (s ++ [32])) = full (splitSpace s) ∧
    (splitSpace (s ++ [32])).head? = (splitSpace s).head?
  | [] => ⟨rfl, rfl⟩
  | c :: s => by
    obtain ⟨i1, i2⟩ := full_append_space s
    by_cases hc : c = 32
    · subst hc
      rw [List.cons_append, full_space, full_space, i1, splitSpace_space, splitSpace_space]
      exact ⟨rfl, rfl⟩
    · obtain ⟨w, ws, h1, h2⟩ := splitSpace_cons hc s
      obtain ⟨v, vs, h3, h4⟩ := splitSpace_cons hc (s ++ [32])
      rw [h1, h3] at i1 i2
      simp only [List.head?_cons, Option.some.injEq] at i2
      subst i2
      rw [List.cons_append, h2, h4]
      refine ⟨?_, rfl⟩
      have e : full vs = full ws := by
        unfold full at i1 ⊢
        rw [List.filter_cons, List.filter_cons] at i1
        split at i1
        · injection i1
        · exact i1
      unfold full at e ⊢
      rw [List.filter_cons, List.filter_cons, e]

theorem full_dropWhile (s : Text) :
    full (splitSpace (s.dropWhile (· == 32))) = full (splitSpace s) := by
  induction s with
  | nil => rfl
  | cons c s ih =>
    rw [List.dropWhile_cons]
    split
    · rename_i h
      have : c = 32 := by simpa using h
      subst this
      rw [ih, full_space]
    · rfl

theorem full_dropWhile_reverse (s : Text) :
    full (splitSpace ((s.dropWhile (· == 32)).reverse)) = full (splitSpace s.reverse) := by
  induction s with
  | nil => rfl
  | cons c s ih =>
    rw [List.dropWhile_cons]
    split
    · rename_i h
      have : c = 32 := by simpa using h
      subst this
      rw [ih, List.reverse_cons, (full_append_space _).1]
    · rfl

theorem full_strip (s : Text) : full (splitSpace (stripBy (· == 32) s)) = full (splitSpace s) := by
  unfold stripBy
  rw [full_dropWhile_reverse, List.reverse_reverse, full_dropWhile]

/-- An empty word that is not the first comes from two spaces or a space at the end. -/
theorem empty_word : ∀ {s : Text}, [] ∈ (splitSpace s).tail →
    (∃ a, s = a ++ [32]) ∨ ∃ a b, s = a ++ 32 :: 32 :: b
  | [], h => by simp [splitSpace] at h
  | c :: s, h => by
    have lift : (∃ a, s = a ++ [32]) ∨ (∃ a b, s = a ++ 32 :: 32 :: b) →
        (∃ a, c :: s = a ++ [32]) ∨ ∃ a b, c :: s = a ++ 32 :: 32 :: b := by
      rintro (⟨a, e⟩ | ⟨a, b, e⟩)
      · exact Or.inl ⟨c :: a, by rw [e]; rfl⟩
      · exact Or.inr ⟨c :: a, b, by rw [e]; rfl⟩
    by_cases hc : c = 32
    · subst hc
      rw [splitSpace_space, List.tail_cons] at h
      cases s with
      | nil => exact Or.inl ⟨[], rfl⟩
      | cons d s =>
        by_cases hd : d = 32
        · subst hd; exact Or.inr ⟨[], s, rfl⟩
        · refine lift (empty_word ?_)
          obtain ⟨w, ws, _, h2⟩ := splitSpace_cons hd s
          rw [h2] at h ⊢
          rcases List.mem_cons.1 h with e | e
          · cases e
          · exact e
    · refine lift (empty_word ?_)
      obtain ⟨w, ws, h1, h2⟩ := splitSpace_cons hc s
      rw [h2] at h
      rw [h1]
      exact h

theorem collapse_head : ∀ (s : Text) (x : Nat) (t : Text), collapse true s = x :: t → x ≠ 32
  | [], x, t, h => by cases h
  | c :: s, x, t, h => by
    simp only [collapse] at h
    split at h
    · exact collapse_head s x t (by simpa using h)
    · rename_i hc; cases h; exact hc

theorem collapse_noDouble : ∀ (s : Text) (f : Bool) (a b : Text), collapse f s ≠ a ++ 32 :: 32 :: b
  | [], f, a, b, h => by
    have := congrArg List.length h
    simp [collapse] at this
  | c :: s, f, a, b, h => by
    simp only [collapse] at h
    split at h
    · split at h
      · exact collapse_noDouble s true a b h
      · cases a with
        | nil =>
          simp only [List.nil_append, List.cons.injEq, true_and] at h
          exact collapse_head s _ _ h rfl
        | cons x a =>
          injection h with _ h
          exact collapse_noDouble s true a b h
    · rename_i hc
      cases a with
      | nil =>
        injection h with h1 h
        exact hc h1
      | cons x a =>
        injection h with _ h
        exact collapse_noDouble s false a b h

theorem dropWhile_suffix (p : Nat → Bool) (s : Text) : ∃ a, s = a ++ s.dropWhile p := by
  exact ⟨s.takeWhile p, (List.takeWhile_append_dropWhile).symm⟩

theorem dropWhile_head (s : Text) (t : Text) : s.dropWhile (· == 32) ≠ 32 :: t := by
  induction s with
  | nil => simp
  | cons c s ih =>
    rw [List.dropWhile_cons]
    split
    · exact ih
    · rename_i h
      intro e
      injection e with e _
      exact h (by simp [e])

theorem strip_noDouble {s : Text} (h : ∀ a b, s ≠ a ++ 32 :: 32 :: b) (a b : Text) :
    stripBy (· == 32) s ≠ a ++ 32 :: 32 :: b := by
  intro e
  unfold stripBy at e
  obtain ⟨x, hx⟩ := dropWhile_suffix (· == 32) s
  obtain ⟨y, hy⟩ := dropWhile_suffix (· == 32) (s.dropWhile (· == 32)).reverse
  have hy' := congrArg List.reverse hy
  rw [List.reverse_append, List.reverse_reverse, e] at hy'
  rw [hy'] at hx
  exact h (x ++ a) (b ++ y.reverse) (by rw [hx]; simp)

theorem strip_end (s a : Text) : stripBy (· == 32) s ≠ a ++ [32] := by
  intro e
  unfold stripBy at e
  have := congrArg List.reverse e
  rw [List.reverse_reverse, List.reverse_append] at this
  exact dropWhile_head _ _ this

theorem strip_start (s t : Text) : stripBy (· == 32) s ≠ 32 :: t := by
  intro e
  unfold stripBy at e
  obtain ⟨y, hy⟩ := dropWhile_suffix (· == 32) (s.dropWhile (· == 32)).reverse
  have hy' := congrArg List.reverse hy
  rw [List.reverse_append, List.reverse_reverse, e] at hy'
  exact dropWhile_head s _ hy'

/-- The words that the tokenizer sees. -/
theorem textWords_eq {t : Text} {ws : List Text} (h : IsWords (kept t) ws) :
    textWords t = if ws = [] then [[]] else ws := by
  unfold textWords
  rw [kept_eq]
  have hf : full (splitSpace (stripBy (· == 32) (collapse false (kept t)))) = ws := by
    rw [full_strip, (full_collapse _).1, full_of_isWords h]
  generalize hu : stripBy (· == 32) (collapse false (kept t)) = u at hf
  have h1 : ∀ a b, u ≠ a ++ 32 :: 32 :: b := by
    rw [← hu]; exact strip_noDouble (collapse_noDouble _ _)
  have h2 : ∀ a, u ≠ a ++ [32] := by rw [← hu]; exact strip_end _
  have h3 : ∀ t, u ≠ 32 :: t := by rw [← hu]; exact strip_start _
  cases u with
  | nil =>
    have : ws = [] := by rw [← hf]; rfl
    rw [if_pos this]
    rfl
  | cons c u =>
    have hc : c ≠ 32 := fun e => h3 u (by rw [e])
    obtain ⟨w, vs, _, e2⟩ := splitSpace_cons hc u
    have hall : full (splitSpace (c :: u)) = splitSpace (c :: u) := by
      unfold full
      rw [List.filter_eq_self]
      intro v hv
      rw [e2] at hv
      rcases List.mem_cons.1 hv with e | e
      · subst e; simp
      · simp only [ne_eq, decide_not, Bool.not_eq_eq_eq_not, Bool.not_true, decide_eq_false_iff_not]
        intro he
        subst he
        rcases empty_word (s := c :: u) (by rw [e2]; exact e) with ⟨a, x⟩ | ⟨a, b, x⟩
        · exact h2 a x
        · exact h1 a b x
    rw [hall] at hf
    rw [hf, if_neg]
    rw [← hf, e2]
    simp

/-! Arrays -/

theorem store_length (ws : List (Nat × Nat)) : ∀ arr, (store ws arr).length = arr.length := by
  induction ws with
  | nil => intro arr; rfl
  | cons p ws ih => intro arr; rw [store, List.foldl_cons, ← store, ih, List.length_set]

theorem store_get_none {ws : List (Nat × Nat)} {k : Nat} : ∀ {arr : List Nat},
    (∀ p ∈ ws, p.1 ≠ k) → (store ws arr)[k]? = arr[k]? := by
  induction ws with
  | nil => intro arr _; rfl
  | cons p ws ih =>
    intro arr h
    rw [store, List.foldl_cons, ← store, ih fun q hq => h q (List.mem_cons_of_mem _ hq)]
    exact List.getElem?_set_ne (h p List.mem_cons_self)

theorem store_get {ws : List (Nat × Nat)} {k v : Nat} : ∀ {arr : List Nat}, k < arr.length →
    (∃ p ∈ ws, p.1 = k) → (∀ p ∈ ws, p.1 = k → p.2 = v) → (store ws arr)[k]? = some v := by
  induction ws with
  | nil => rintro arr _ ⟨p, hp, _⟩; cases hp
  | cons p ws ih =>
    intro arr hk hex hall
    rw [store, List.foldl_cons, ← store]
    by_cases h : ∃ q ∈ ws, q.1 = k
    · exact ih (by rw [List.length_set]; exact hk) h fun q hq => hall q (List.mem_cons_of_mem _ hq)
    · have hp : p.1 = k := by
        obtain ⟨q, hq, e⟩ := hex
        rcases List.mem_cons.1 hq with e' | hq'
        · rw [← e', e]
        · exact absurd ⟨q, hq', e⟩ h
      rw [store_get_none fun q hq e => h ⟨q, hq, e⟩, hall p List.mem_cons_self hp, hp]
      rw [List.getElem?_set_self hk]

theorem index_inj {N i j i' j' : Nat} (hj : j < N) (hj' : j' < N) (h : i * N + j = i' * N + j') :
    i = i' ∧ j = j' := by
  have hN : 0 < N := by omega
  have h1 : (i * N + j) / N = i := by
    rw [Nat.mul_comm, Nat.mul_add_div hN, Nat.div_eq_of_lt hj, Nat.add_zero]
  have h2 : (i' * N + j') / N = i' := by
    rw [Nat.mul_comm, Nat.mul_add_div hN, Nat.div_eq_of_lt hj', Nat.add_zero]
  have : i = i' := by rw [← h1, ← h2, h]
  subst this
  exact ⟨rfl, by omega⟩

theorem mem_writes {d : List (Text × Nat)} {words : List Text} {L N : Nat} {p : Nat × Nat} :
    p ∈ writes d words L N ↔ ∃ i j v, i < words.length ∧ i < L ∧ j < N ∧
      j < (if words.getD i [] = [] then [hash] else words.getD i []).length ∧
      idOf d (((hash :: (if words.getD i [] = [] then [hash] else words.getD i []) ++ [hash]).drop j).take 3) = some v ∧
      p = (i * N + j, v) := by
  unfold writes
  simp only [List.mem_flatMap, List.mem_range, List.mem_filterMap, Option.map_eq_some_iff,
    List.length_append, List.length_cons, List.length_nil]
  constructor
  · rintro ⟨i, hi, j, hj, v, hv, e⟩
    exact ⟨i, j, v, by omega, by omega, by omega, by omega, hv, e.symm⟩
  · rintro ⟨i, j, v, h1, h2, h3, h4, hv, e⟩
    exact ⟨i, by omega, j, by omega, v, hv, e.symm⟩

theorem ids_get {d : List (Text × Nat)} {words : List Text} {L N i j : Nat} (hi : i < L) (hj : j < N) :
    (wordsToIds d words L N).1[i * N + j]? = some (if i < words.length then
      groupId (idOf d) (if words.getD i [] = [] then [hash] else words.getD i []) j else 0) := by
  have hlt : i * N + j < (List.replicate (L * N) 0).length := by
    rw [List.length_replicate]
    calc i * N + j < i * N + N := by omega
      _ = (i + 1) * N := by rw [Nat.add_mul, Nat.one_mul]
      _ ≤ L * N := Nat.mul_le_mul_right _ hi
  have hzero : (List.replicate (L * N) 0)[i * N + j]? = some 0 := by
    rw [List.length_replicate] at hlt
    rw [List.getElem?_replicate, if_pos hlt]
  show (store _ _)[_]? = _
  by_cases hex : ∃ p ∈ writes d words L N, p.1 = i * N + j
  · refine store_get hlt hex ?_
    intro p hp hpk
    obtain ⟨i', j', v, h1, h2, h3, h4, hv, e⟩ := mem_writes.1 hp
    subst e
    obtain ⟨e1, e2⟩ := index_inj h3 hj hpk
    subst e1 e2
    rw [if_pos h1]
    unfold groupId
    rw [if_pos h4]
    have e3 : ([35] ++ (if words.getD i' [] = [] then [hash] else words.getD i' []) ++ [35] : Text) =
      hash :: (if words.getD i' [] = [] then [hash] else words.getD i' []) ++ [hash] := rfl
    rw [e3, hv]
    rfl
  · rw [store_get_none fun p hp e => hex ⟨p, hp, e⟩, hzero]
    congr 1
    split
    · rename_i hw
      unfold groupId
      by_cases hjl : j < (if words.getD i [] = [] then [hash] else words.getD i []).length
      · rw [if_pos hjl]
        have e3 : ([35] ++ (if words.getD i [] = [] then [hash] else words.getD i []) ++ [35] : Text) =
          hash :: (if words.getD i [] = [] then [hash] else words.getD i []) ++ [hash] := rfl
        rw [e3]
        cases hv : idOf d (((hash :: (if words.getD i [] = [] then [hash] else words.getD i []) ++ [hash]).drop j).take 3) with
        | none => rfl
        | some v => exact absurd ⟨_, mem_writes.2 ⟨i, j, v, hw, hi, hj, hjl, hv, rfl⟩, rfl⟩ hex
      · rw [if_neg hjl]
    · rfl

theorem mask_get {d : List (Text × Nat)} {words : List Text} {L N i : Nat} (hi : i < L) :
    (wordsToIds d words L N).2[i]? = some (if i < words.length then 1 else 0) := by
  show (store _ _)[_]? = _
  by_cases h : i < words.length
  · rw [if_pos h]
    refine store_get (by rw [List.length_replicate]; exact hi) ⟨(i, 1), ?_, rfl⟩ ?_
    · exact List.mem_map.2 ⟨i, List.mem_range.2 (by omega), rfl⟩
    · intro p hp _
      obtain ⟨k, _, e⟩ := List.mem_map.1 hp
      rw [← e]
  · rw [if_neg h, store_get_none, List.getElem?_replicate, if_pos hi]
    intro p hp e
    obtain ⟨k, hk, e'⟩ := List.mem_map.1 hp
    rw [List.mem_range] at hk
    rw [← e'] at e
    simp only at e
    omega

/-! The vocabulary -/

def vocabStep (d : List (Text × Nat)) (p : Text × Nat) : List (Text × Nat) :=
  let token := stripBy (fun c => c == 13 || c == 10) p.1
  if token.length = 0 then d else (token, p.2 + 1) :: d

theorem loadVocab_snoc (lines : List Text) (l : Text) :
    loadVocab (lines ++ [l]) = vocabStep (loadVocab lines) (l, lines.length) := by
  unfold loadVocab
  rw [List.zipIdx_append, List.foldl_append]
  simp only [Nat.zero_add, List.zipIdx_cons, List.zipIdx_nil, List.foldl_cons, List.foldl_nil]
  rfl

theorem lookup_loadVocab : ∀ (n : Nat) (lines : List Text), lines.length = n → ∀ (t : Text) (k : Nat),
    (loadVocab lines).lookup t = some k → IsLineOf lines t k
  | 0, lines, hn, t, k, h => by
    have : lines = [] := List.eq_nil_of_length_eq_zero hn
    subst this
    cases h
  | n + 1, lines, hn, t, k, h => by
    have hne : lines ≠ [] := by intro e; rw [e] at hn; cases hn
    obtain ⟨init, l, rfl⟩ : ∃ init l, lines = init ++ [l] :=
      ⟨lines.dropLast, lines.getLast hne, (List.dropLast_concat_getLast hne).symm⟩
    have hi : init.length = n := by simpa using hn
    rw [loadVocab_snoc] at h
    unfold vocabStep at h
    simp only at h
    have old : (loadVocab init).lookup t = some k → lineToken l ≠ t → IsLineOf (init ++ [l]) t k := by
      intro h' hl
      obtain ⟨h1, h2, h3, h4⟩ := lookup_loadVocab n init hi t k h'
      have hk : k - 1 < init.length := by
        rcases Nat.lt_or_ge (k - 1) init.length with h | h
        · exact h
        · rw [List.getElem?_eq_none h] at h3; cases h3
      refine ⟨h1, h2, ?_, ?_⟩
      · rw [List.getElem?_append_left hk]; exact h3
      · intro j hj
        rcases Nat.lt_trichotomy j init.length with h | h | h
        · rw [List.getElem?_append_left h]; exact h4 j hj
        · rw [List.getElem?_append_right (by omega), h]
          simpa using hl
        · rw [List.getElem?_eq_none (by simp; omega)]
          simp
    split at h
    · rename_i hz
      refine old h ?_
      intro e
      have h0 : lineToken l = [] := List.eq_nil_of_length_eq_zero hz
      have := (lookup_loadVocab n init hi t k h).1
      rw [← e] at this
      exact this h0
    · rename_i hz
      rw [List.lookup_cons] at h
      split at h
      · rename_i hb
        cases h
        have ht : t = lineToken l := eq_of_beq hb
        subst ht
        refine ⟨fun e => hz (by show (lineToken l).length = 0; rw [e]; rfl), by omega, ?_, ?_⟩
        · rw [List.getElem?_append_right (by simp)]
          simp
        · intro j hj
          rw [List.getElem?_eq_none (by simp; omega)]
          simp
      · rename_i hb
        refine old h ?_
        intro e
        have : (t == lineToken l) = true := by simp [e]
        have hb' : (t == lineToken l) = false := hb
        rw [this] at hb'
        cases hb'

theorem lookup_some_of_line : ∀ (n : Nat) (lines : List Text), lines.length = n → ∀ (t : Text),
    t ≠ [] → (∃ l ∈ lines, lineToken l = t) → ∃ k, (loadVocab lines).lookup t = some k
  | 0, lines, hn, t, _, h => by
    have : lines = [] := List.eq_nil_of_length_eq_zero hn
    subst this
    obtain ⟨l, hl, _⟩ := h
    cases hl
  | n + 1, lines, hn, t, ht, h => by
    have hne : lines ≠ [] := by intro e; rw [e] at hn; cases hn
    obtain ⟨init, l, rfl⟩ : ∃ init l, lines = init ++ [l] :=
      ⟨lines.dropLast, lines.getLast hne, (List.dropLast_concat_getLast hne).symm⟩
    have hi : init.length = n := by simpa using hn
    rw [loadVocab_snoc]
    unfold vocabStep
    simp only
    by_cases hl : lineToken l = t
    · rw [if_neg (by intro e; exact ht (by rw [← hl]; exact List.eq_nil_of_length_eq_zero e)), List.lookup_cons]
      have : (t == stripBy (fun c => c == 13 || c == 10) l) = true := by
        have : stripBy (fun c => c == 13 || c == 10) l = t := hl
        simp [this]
      rw [this]
      exact ⟨_, rfl⟩
    · have h' : ∃ l ∈ init, lineToken l = t := by
        obtain ⟨v, hv, e⟩ := h
        rcases List.mem_append.1 hv with hv | hv
        · exact ⟨v, hv, e⟩
        · have hvl : v = l := by simpa using hv
          subst hvl
          exact absurd e hl
      obtain ⟨k, hk⟩ := lookup_some_of_line n init hi t ht h'
      split
      · exact ⟨k, hk⟩
      · rw [List.lookup_cons]
        split
        · exact ⟨_, rfl⟩
        · exact ⟨k, hk⟩

/-! UTF-8 and padding -/

theorem decodeFrom_zeros (k : Nat) : decodeFrom 0 0 0 0 (List.replicate k 0) = some (List.replicate k 0) := by
  induction k with
  | zero => rfl
  | succ k ih =>
    rw [List.replicate_succ, decodeFrom, if_pos rfl, if_pos (by omega), ih]
    rfl

theorem decodeFrom_append (k : Nat) : ∀ (bs : List Nat) (need acc lo hi : Nat), (need ≠ 0 → 0 < lo) →
    (need = 0 → acc = 0 ∧ lo = 0 ∧ hi = 0) →
    decodeFrom need acc lo hi (bs ++ List.replicate k 0) =
      (decodeFrom need acc lo hi bs).map (· ++ List.replicate k 0)
  | [], need, acc, lo, hi, h, h0 => by
    by_cases hn : need = 0
    · obtain ⟨e1, e2, e3⟩ := h0 hn
      subst hn e1 e2 e3
      rw [List.nil_append, decodeFrom_zeros]
      rfl
    · have hd : decodeFrom need acc lo hi [] = none := by rw [decodeFrom, if_neg hn]
      rw [hd]
      cases k with
      | zero => simp only [List.replicate_zero, List.nil_append, hd]; rfl
      | succ k =>
        rw [List.replicate_succ, List.nil_append, decodeFrom, if_neg hn, if_neg]
        · rfl
        · have := h hn
          omega
  | b :: bs, need, acc, lo, hi, h, h0 => by
    have ih0 := decodeFrom_append k bs 0 0 0 0 (by simp) (by simp)
    have ih : ∀ need acc lo hi, need ≠ 0 → 0 < lo → decodeFrom need acc lo hi (bs ++ List.replicate k 0) =
        (decodeFrom need acc lo hi bs).map (· ++ List.replicate k 0) := fun need acc lo hi h1 h2 =>
      decodeFrom_append k bs need acc lo hi (fun _ => h2) (fun e => absurd e h1)
    rw [List.cons_append, decodeFrom, decodeFrom]
    by_cases hn : need = 0
    · rw [if_pos hn, if_pos hn]
      repeat' split
      · rw [ih0]; cases decodeFrom 0 0 0 0 bs <;> rfl
      all_goals first
        | rfl
        | exact ih _ _ _ _ (by omega) (by omega)
    · rw [if_neg hn, if_neg hn]
      split
      · simp only
        split
        · rw [ih0]; cases decodeFrom 0 0 0 0 bs <;> rfl
        · exact ih _ _ _ _ (by omega) (by omega)
      · rfl

theorem dropWhile_replicate_append (p : Nat → Bool) (hp : p 0 = true) (k : Nat) (s : Text) :
    (List.replicate k 0 ++ s).dropWhile p = s.dropWhile p := by
  induction k with
  | zero => rfl
  | succ k ih => rw [List.replicate_succ, List.cons_append, List.dropWhile_cons, if_pos hp, ih]

theorem dropWhile_append_zeros (p : Nat → Bool) (hp : p 0 = true) (k : Nat) (s : Text) :
    ((s ++ List.replicate k 0).dropWhile p).reverse.dropWhile p = (s.dropWhile p).reverse.dropWhile p := by
  induction s with
  | nil =>
    have := dropWhile_replicate_append p hp k []
    rw [List.append_nil] at this
    rw [List.nil_append, this]
  | cons c s ih =>
    rw [List.cons_append, List.dropWhile_cons, List.dropWhile_cons]
    split
    · exact ih
    · rw [← List.cons_append, List.reverse_append, List.reverse_replicate, dropWhile_replicate_append p hp]

theorem sentenceText_padding (bs : List Nat) (k : Nat) :
    sentenceText (bs ++ List.replicate k 0) = sentenceText bs := by
  unfold sentenceText
  rw [decodeFrom_append k bs 0 0 0 0 (by simp) (by simp), Option.map_map]
  refine congrArg (fun f => Option.map f (decodeFrom 0 0 0 0 bs)) ?_
  funext t
  unfold stripBy
  simp only [Function.comp]
  rw [dropWhile_append_zeros _ rfl]

/-! Arrays of sentences -/

theorem size_append (xs ys : List Nat) : size (xs ++ ys) = size xs * size ys := by
  induction xs with
  | nil => simp [size]
  | cons x xs ih => simp [size, ih, Nat.mul_assoc]

theorem flatten_row {W : Nat} : ∀ (rows : List (List Nat)), (∀ r ∈ rows, r.length = W) →
    rows.flatten.length = rows.length * W ∧
    ∀ (k : Nat) (r : List Nat), rows[k]? = some r → (rows.flatten.drop (k * W)).take W = r
  | [], _ => ⟨by simp, by intro k r h; simp at h⟩
  | x :: rows, h => by
    obtain ⟨i1, i2⟩ := flatten_row rows fun r hr => h r (List.mem_cons_of_mem _ hr)
    have hx := h x List.mem_cons_self
    refine ⟨by simp only [List.flatten_cons, List.length_append, i1, hx, List.length_cons, Nat.add_mul, Nat.one_mul]; omega, ?_⟩
    intro k r hk
    cases k with
    | zero =>
      simp only [List.getElem?_cons_zero, Option.some.injEq] at hk
      subst hk
      simp only [Nat.zero_mul, List.drop_zero, List.flatten_cons]
      rw [List.take_append_of_le_length (by omega), List.take_of_length_le (by omega)]
    | succ k =>
      have := i2 k r (by simpa using hk)
      rw [← this, List.flatten_cons, Nat.add_mul, Nat.one_mul, Nat.add_comm, ← List.drop_drop]
      rw [← hx, List.drop_left]

theorem asarray_shape {W : Nat} {rows : List (List Nat)} (hne : rows ≠ []) (hw : ∀ r ∈ rows, r.length = W) :
    (asarray rows).shape = [rows.length, W] ∧ (asarray rows).data = rows.flatten := by
  cases rows with
  | nil => exact absurd rfl hne
  | cons r rows => exact ⟨by simp [asarray, hw r List.mem_cons_self], rfl⟩

theorem mapM_some_get {α β : Type} {f : α → Option β} : ∀ (xs : List α), (∀ x ∈ xs, (f x).isSome) →
    ∃ ys, xs.mapM f = some ys ∧ ys.length = xs.length ∧
      ∀ (k : Nat) (x : α), xs[k]? = some x → ∃ y, ys[k]? = some y ∧ f x = some y
  | [], _ => ⟨[], rfl, rfl, by intro k x h; simp at h⟩
  | x :: xs, h => by
    obtain ⟨ys, h1, h2, h3⟩ := mapM_some_get xs fun z hz => h z (List.mem_cons_of_mem _ hz)
    obtain ⟨y, hy⟩ := Option.isSome_iff_exists.1 (h x List.mem_cons_self)
    refine ⟨y :: ys, by simp [List.mapM_cons, hy, h1], by simp [h2], ?_⟩
    intro k z hk
    cases k with
    | zero =>
      simp only [List.getElem?_cons_zero, Option.some.injEq] at hk
      subst hk
      exact ⟨y, rfl, hy⟩
    | succ k => exact h3 k z (by simpa using hk)

/-- What `tokenizeArr` does once the sentences are tokenized. -/
theorem finish_arr {W L : Nat} {outer : List Nat} {rows : List (List Nat × List Nat)}
    (hpos : 0 < size outer) (hlen : rows.length = size outer)
    (hw : ∀ r ∈ rows, r.1.length = W ∧ r.2.length = L) :
    ∃ s m, ((reshape (asarray (rows.map (·.1))) (outer ++ (asarray (rows.map (·.1))).shape.drop 1)).bind fun s =>
        (reshape (asarray (rows.map (·.2))) (outer ++ (asarray (rows.map (·.2))).shape.drop 1)).map fun m => (s, m)) = some (s, m) ∧
      s.shape = outer ++ [W] ∧ m.shape = outer ++ [L] ∧
      ∀ (k : Nat) (r : List Nat × List Nat), rows[k]? = some r → arrRow W k s = r.1 ∧ arrRow L k m = r.2 := by
  have hne : rows ≠ [] := by intro e; rw [e] at hlen; simp at hlen; omega
  have w1 : ∀ r ∈ rows.map (·.1), r.length = W := by
    intro r hr
    obtain ⟨q, hq, e⟩ := List.mem_map.1 hr
    rw [← e]; exact (hw q hq).1
  have w2 : ∀ r ∈ rows.map (·.2), r.length = L := by
    intro r hr
    obtain ⟨q, hq, e⟩ := List.mem_map.1 hr
    rw [← e]; exact (hw q hq).2
  obtain ⟨a1, a2⟩ := asarray_shape (by simpa using hne) w1
  obtain ⟨b1, b2⟩ := asarray_shape (by simpa using hne) w2
  obtain ⟨f1, f2⟩ := flatten_row _ w1
  obtain ⟨g1, g2⟩ := flatten_row _ w2
  refine ⟨⟨outer ++ [W], (rows.map (·.1)).flatten⟩, ⟨outer ++ [L], (rows.map (·.2)).flatten⟩, ?_, rfl, rfl, ?_⟩
  · unfold reshape
    rw [a1, a2, b1, b2]
    simp only [List.drop_succ_cons, List.drop_zero, size_append, size, f1, g1, List.length_map, hlen, Nat.mul_one,
      if_true, Option.bind_some, Option.map_some]
  · intro k r hk
    exact ⟨f2 k r.1 (by rw [List.getElem?_map, hk]; rfl), g2 k r.2 (by rw [List.getElem?_map, hk]; rfl)⟩

theorem lookup_transformItems (tok : Text → List Nat × List Nat) : ∀ (items items' : List (String × Ctx)),
    transformItems tok items = some items' → ∀ (k : String) (v : Ctx), items.lookup k = some v →
      ∃ v', items'.lookup k = some v' ∧ transform tok v = some v'
  | [], items', h, k, v, hk => by cases hk
  | (k0, v0) :: rest, items', h, k, v, hk => by
    simp only [transformItems] at h
    cases h1 : transform tok v0 with
    | none => rw [h1] at h; cases h
    | some v1 =>
      rw [h1] at h
      simp only [Option.bind_some] at h
      cases h2 : transformItems tok rest with
      | none => rw [h2] at h; cases h
      | some rest' =>
        rw [h2] at h
        cases h
        rw [List.lookup_cons] at hk ⊢
        cases hb : (k == k0) with
        | true =>
          rw [hb] at hk
          cases hk
          exact ⟨v1, rfl, h1⟩
        | false =>
          rw [hb] at hk
          exact lookup_transformItems tok rest rest' h2 k v hk

theorem transform_at (tok : Text → List Nat × List Nat) : ∀ (path : List String) (v v' u : Ctx),
    transform tok v = some v' → ctxAt path v = some u → ∃ u', ctxAt path v' = some u' ∧ transform tok u = some u'
  | [], v, v', u, h, hu => by cases hu; exact ⟨v', rfl, h⟩
  | k :: ks, v, v', u, h, hu => by
    cases v with
    | dict items =>
      simp only [transform] at h
      cases h1 : transformItems tok items with
      | none => rw [h1] at h; cases h
      | some items' =>
        rw [h1] at h
        cases h
        simp only [ctxAt] at hu ⊢
        cases h2 : items.lookup k with
        | none => rw [h2] at hu; cases hu
        | some w =>
          rw [h2] at hu
          obtain ⟨w', e1, e2⟩ := lookup_transformItems tok items items' h1 k w h2
          rw [e1]
          exact transform_at tok ks w w' u e2 hu
    | bytes a => cases hu
    | tokens s m => cases hu
    | other a => cases hu

end DeepGNN.Tokenize
