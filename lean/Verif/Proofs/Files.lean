import Verif.Spec.Files

namespace DeepGNN.Files

theorem le_refl : ∀ a, le a a = true
  | [] => rfl
  | a :: as => by simp [le, le_refl as]

theorem le_total : ∀ a b, (le a b || le b a) = true
  | [], b => by simp [le]
  | a :: as, [] => by simp [le]
  | a :: as, b :: bs => by
    have := le_total as bs
    simp only [le, Bool.or_eq_true, Bool.and_eq_true, decide_eq_true_eq, beq_iff_eq] at *
    rcases Nat.lt_trichotomy a b with h | h | h
    · exact .inl (.inl h)
    · rcases this with t | t
      · exact .inl (.inr ⟨h, t⟩)
      · exact .inr (.inr ⟨h.symm, t⟩)
    · exact .inr (.inl h)

theorem le_antisymm : ∀ a b, le a b = true → le b a = true → a = b
  | [], [], _, _ => rfl
  | [], b :: bs, _, h => by simp [le] at h
  | a :: as, [], h, _ => by simp [le] at h
  | a :: as, b :: bs, h1, h2 => by
    simp only [le, Bool.or_eq_true, Bool.and_eq_true, decide_eq_true_eq, beq_iff_eq] at h1 h2
    have e : a = b := by omega
    rw [e, le_antisymm as bs (by rcases h1 with h | h; omega; exact h.2) (by rcases h2 with h | h; omega; exact h.2)]

theorem le_trans : ∀ a b c, le a b = true → le b c = true → le a c = true
  | [], b, c, _, _ => by simp [le]
  | a :: as, [], c, h, _ => by simp [le] at h
  | a :: as, b :: bs, [], _, h => by simp [le] at h
  | a :: as, b :: bs, c :: cs, h1, h2 => by
    simp only [le, Bool.or_eq_true, Bool.and_eq_true, decide_eq_true_eq, beq_iff_eq] at *
    rcases h1 with h1 | ⟨e1, h1⟩
    · left; omega
    · rcases h2 with h2 | ⟨e2, h2⟩
      · left; omega
      · right; exact ⟨by omega, le_trans as bs cs h1 h2⟩

theorem insert_perm (x : Name) : ∀ l, (insert x l).Perm (x :: l)
  | [] => .refl _
  | y :: l => by
    rw [insert]
    split
    · exact .refl _
    · exact ((insert_perm x l).cons y).trans (.swap x y l)

theorem sort_perm : ∀ l : List Name, (sort l).Perm l
  | [] => .refl _
  | x :: l => by
    rw [sort, List.foldr_cons, ← sort]
    exact (insert_perm x _).trans ((sort_perm l).cons x)

theorem insert_sorted (x : Name) : ∀ {l}, l.Pairwise (fun a b => le a b = true) →
    (insert x l).Pairwise (fun a b => le a b = true)
  | [], _ => by simp [insert]
  | y :: l, h => by
    rw [insert]
    rw [List.pairwise_cons] at h
    split
    · rename_i hxy
      refine List.pairwise_cons.2 ⟨?_, List.pairwise_cons.2 h⟩
      intro z hz
      rcases List.mem_cons.1 hz with rfl | hz
      · exact hxy
      · exact le_trans x y z hxy (h.1 z hz)
    · rename_i hxy
      refine List.pairwise_cons.2 ⟨?_, insert_sorted x h.2⟩
      intro z hz
      rcases List.mem_cons.1 ((insert_perm x l).mem_iff.1 hz) with rfl | hz
      · have := le_total z y
        rw [Bool.or_eq_true] at this
        exact this.resolve_left hxy
      · exact h.1 z hz

theorem sort_sorted : ∀ l : List Name, (sort l).Pairwise (fun a b => le a b = true)
  | [] => .nil
  | x :: l => by
    rw [sort, List.foldr_cons, ← sort]
    exact insert_sorted x (sort_sorted l)

/-- Sorting does not depend on the order in which the names are listed. -/
theorem sort_eq {a b : List Name} (h : a.Perm b) : sort a = sort b :=
  List.Perm.eq_of_pairwise (le := fun x y => le x y = true) (fun x y _ _ => le_antisymm x y)
    (sort_sorted a) (sort_sorted b) ((sort_perm a).trans (h.trans (sort_perm b).symm))

theorem pyRange_cons {start stop step : Nat} (h : start < stop) (hs : 0 < step) :
    pyRange start stop step = start :: pyRange (start + step) stop step := by
  have : (stop - start + (step - 1)) / step = (stop - (start + step) + (step - 1)) / step + 1 := by
    by_cases h2 : start + step ≤ stop
    · rw [show stop - start + (step - 1) = stop - (start + step) + (step - 1) + step by omega,
        Nat.add_div_right _ hs]
    · have h3 : stop - (start + step) = 0 := by omega
      rw [h3, Nat.zero_add, Nat.div_eq_of_lt (by omega : step - 1 < step)]
      have : stop - start + (step - 1) = (stop - start - 1) + step := by omega
      rw [this, Nat.add_div_right _ hs, Nat.div_eq_of_lt (by omega)]
  rw [pyRange, this, List.range_succ_eq_map, List.map_cons, List.map_map, pyRange]
  refine congr (congrArg _ (by omega)) (List.map_congr_left fun i _ => ?_)
  simp only [Function.comp_apply, Nat.succ_mul]
  omega

theorem pyRange_nil {start stop step : Nat} (h : stop ≤ start) (hs : 0 < step) : pyRange start stop step = [] := by
  rw [pyRange, Nat.div_eq_of_lt (by omega)]; rfl

theorem mem_pyRange {start stop step i : Nat} (hs : 0 < step) :
    i ∈ pyRange start stop step ↔ start ≤ i ∧ i < stop ∧ (i - start) % step = 0 := by
  simp only [pyRange, List.mem_map, List.mem_range]
  constructor
  · rintro ⟨k, hk, rfl⟩
    rw [Nat.lt_div_iff_mul_lt hs] at hk
    refine ⟨by omega, by omega, ?_⟩
    rw [Nat.add_sub_cancel_left]; exact Nat.mul_mod_left k step
  · rintro ⟨h1, h2, h3⟩
    refine ⟨(i - start) / step, ?_, ?_⟩
    · rw [Nat.lt_div_iff_mul_lt hs]
      have := Nat.div_mul_le_self (i - start) step
      omega
    · have := Nat.div_add_mod (i - start) step
      rw [Nat.mul_comm] at this
      omega

theorem nodup_pyRange (start stop step : Nat) (hs : 0 < step) : (pyRange start stop step).Nodup := by
  rw [pyRange, List.Nodup, List.pairwise_map]
  refine List.Pairwise.imp ?_ List.nodup_range
  intro a b h e
  have : a * step = b * step := by omega
  exact h (Nat.eq_of_mul_eq_mul_right hs this)

theorem everyNth_eq {α : Type} (step : Nat) (hs : 0 < step) : ∀ (fuel start : Nat) (l : List α), l.length ≤ start + fuel →
    (pyRange start l.length step).mapM (fun i => l[i]?) = some (everyNth step fuel (l.drop start))
  | 0, start, l, h => by rw [pyRange_nil (by omega) hs]; rfl
  | fuel + 1, start, l, h => by
    by_cases h1 : start < l.length
    · rw [pyRange_cons h1 hs, List.mapM_cons, List.getElem?_eq_getElem h1]
      have := everyNth_eq step hs fuel (start + step) l (by omega)
      rw [this]
      rw [List.drop_eq_getElem_cons h1]
      simp only [everyNth, List.drop_drop]
      rw [show start + 1 + (step - 1) = start + step by omega]
      rfl
    · rw [pyRange_nil (by omega) hs, List.drop_eq_nil_of_le (by omega)]
      rfl

/-- Both ways to assign files give the same files. -/
theorem getFiles_eq (listing : List Name) (worker workers : Nat) :
    getFiles listing worker workers = getWorkerFiles listing worker workers := by
  simp only [getFiles, getWorkerFiles]
  split
  · rfl
  · have hl : (sort listing).length = listing.length := (sort_perm listing).length_eq
    have := everyNth_eq workers (by omega) listing.length worker (sort listing) (by omega)
    rw [hl] at this
    rw [this]

theorem nodup_index {α : Type} {l : List α} (hl : l.Nodup) {i j : Nat} {x : α} (hi : l[i]? = some x) (hj : l[j]? = some x) :
    i = j := by
  obtain ⟨hi', ei⟩ := List.getElem?_eq_some_iff.1 hi
  obtain ⟨hj', ej⟩ := List.getElem?_eq_some_iff.1 hj
  rw [List.Nodup, List.pairwise_iff_getElem] at hl
  rcases Nat.lt_trichotomy i j with h | h | h
  · exact absurd (ei.trans ej.symm) (hl i j hi' hj' h)
  · exact h
  · exact absurd (ej.trans ei.symm) (hl j i hj' hi' h)

theorem mapM_getElem {α : Type} : ∀ (is : List Nat) (l : List α) (_ : ∀ i ∈ is, i < l.length),
    ∃ out, is.mapM (fun i => l[i]?) = some out ∧ (∀ x, x ∈ out ↔ ∃ i ∈ is, l[i]? = some x) ∧
      (is.Nodup → l.Nodup → out.Nodup)
  | [], l, _ => ⟨[], rfl, by simp, by simp⟩
  | i :: is, l, h => by
    obtain ⟨out, h1, h2, h3⟩ := mapM_getElem is l (fun j hj => h j (by simp [hj]))
    have hi := h i (by simp)
    refine ⟨l[i] :: out, by rw [List.mapM_cons, List.getElem?_eq_getElem hi, h1]; rfl, ?_, ?_⟩
    · intro x
      rw [List.mem_cons, h2]
      constructor
      · rintro (rfl | ⟨j, hj, e⟩)
        · exact ⟨i, by simp, List.getElem?_eq_getElem hi⟩
        · exact ⟨j, by simp [hj], e⟩
      · rintro ⟨j, hj, e⟩
        rcases List.mem_cons.1 hj with rfl | hj
        · left; rw [List.getElem?_eq_getElem hi] at e; injection e with e; exact e.symm
        · right; exact ⟨j, hj, e⟩
    · intro hn hl
      rw [List.nodup_cons] at hn ⊢
      refine ⟨?_, h3 hn.2 hl⟩
      rw [h2]
      rintro ⟨j, hj, e⟩
      exact hn.1 (nodup_index hl e (List.getElem?_eq_getElem hi) ▸ hj)

end DeepGNN.Files
