import Verif.Model.HetEval
import Verif.Spec.HetEval
import Verif.Proofs.SageExample

namespace DeepGNN.HetEval
open DeepGNN.Spec

theorem mem_pairsOf (l : List Int) (a b : Int) :
    (a, b) ∈ pairsOf l ↔ ∃ j k : Nat, j < k ∧ l[j]? = some a ∧ l[k]? = some b := by
  induction l with
  | nil => simp [pairsOf]
  | cons x l ih =>
    simp only [pairsOf, List.mem_append, List.mem_map, Prod.mk.injEq, ih]
    constructor
    · rintro (⟨y, hy, rfl, rfl⟩ | ⟨j, k, hjk, h1, h2⟩)
      · obtain ⟨k, hk⟩ := List.getElem?_of_mem hy
        exact ⟨0, k + 1, by omega, rfl, by simpa using hk⟩
      · exact ⟨j + 1, k + 1, by omega, by simpa using h1, by simpa using h2⟩
    · rintro ⟨j, k, hjk, h1, h2⟩
      cases k with
      | zero => omega
      | succ k =>
        rw [List.getElem?_cons_succ] at h2
        cases j with
        | zero => simp at h1; exact Or.inl ⟨b, List.mem_of_getElem? h2, h1, rfl⟩
        | succ j => rw [List.getElem?_cons_succ] at h1; exact Or.inr ⟨j, k, by omega, h1, h2⟩

theorem mem_pairs (papers : List (List Int)) (a b : Int) :
    ((a, b) ∈ papers.flatMap pairsOf ∨ (b, a) ∈ papers.flatMap pairsOf) ↔ Coauthors papers a b := by
  simp only [List.mem_flatMap, mem_pairsOf]
  constructor
  · rintro (⟨p, hp, j, k, hjk, h1, h2⟩ | ⟨p, hp, j, k, hjk, h1, h2⟩)
    · exact ⟨p, hp, j, k, by omega, h1, h2⟩
    · exact ⟨p, hp, k, j, by omega, h2, h1⟩
  · rintro ⟨p, hp, j, k, hjk, h1, h2⟩
    by_cases h : j < k
    · exact Or.inl ⟨p, hp, j, k, h, h1, h2⟩
    · exact Or.inr ⟨p, hp, k, j, by omega, h2, h1⟩

theorem mem_update (f : Int → List Int) (a b x y : Int) : y ∈ update f a b x ↔ y ∈ f x ∨ (x = a ∧ y = b) := by
  unfold update
  by_cases h : x = a
  · rw [if_pos h, List.mem_append, List.mem_singleton]; simp [h]
  · rw [if_neg h]; simp [h]

theorem mem_trainFold (ps : List (Int × Int)) : ∀ (f : Int → List Int) (a b : Int),
    b ∈ ps.foldl (fun f p => update (update f p.1 p.2) p.2 p.1) f a ↔ b ∈ f a ∨ (a, b) ∈ ps ∨ (b, a) ∈ ps := by
  induction ps with
  | nil => intro f a b; simp
  | cons p ps ih =>
    intro f a b
    obtain ⟨x, y⟩ := p
    rw [List.foldl_cons, ih, mem_update, mem_update]
    simp only [List.mem_cons, Prod.mk.injEq]
    grind

theorem mem_train (papers : List (List Int)) (a b : Int) : b ∈ trainLists papers a ↔ Coauthors papers a b := by
  unfold trainLists
  rw [mem_trainFold, ← mem_pairs]
  simp

theorem coauthors_symm {papers : List (List Int)} {a b : Int} (h : Coauthors papers a b) : Coauthors papers b a := by
  obtain ⟨p, hp, j, k, hjk, h1, h2⟩ := h
  exact ⟨p, hp, k, j, fun e => hjk e.symm, h2, h1⟩

theorem mem_testPair {train : Int → List Int} (hsym : ∀ a b, b ∈ train a ↔ a ∈ train b) (f : Int → List Int) (p : Int × Int) (a b : Int) :
    b ∈ testPair train f p a ↔ b ∈ f a ∨ (((a, b) = p ∨ (b, a) = p) ∧ train a ≠ [] ∧ train b ≠ [] ∧ b ∉ train a) := by
  obtain ⟨x, y⟩ := p
  unfold testPair
  simp only
  by_cases h : train x ≠ [] ∧ train y ≠ []
  · rw [if_pos h]
    have hs := hsym x y
    have hs2 := hsym a b
    by_cases hy : y ∈ train x
    · have hx : x ∈ train y := hs.mp hy
      simp only [hy, hx, not_true_eq_false, if_false, Prod.mk.injEq]
      grind
    · have hx : x ∉ train y := fun h => hy (hs.mpr h)
      simp only [hy, hx, not_false_eq_true, if_true, mem_update, Prod.mk.injEq]
      grind
  · rw [if_neg h]
    simp only [Prod.mk.injEq]
    grind

theorem mem_testFold {train : Int → List Int} (hsym : ∀ a b, b ∈ train a ↔ a ∈ train b) (ps : List (Int × Int)) :
    ∀ (f : Int → List Int) (a b : Int), b ∈ ps.foldl (testPair train) f a ↔
      b ∈ f a ∨ (((a, b) ∈ ps ∨ (b, a) ∈ ps) ∧ train a ≠ [] ∧ train b ≠ [] ∧ b ∉ train a) := by
  induction ps with
  | nil => intro f a b; simp
  | cons p ps ih =>
    intro f a b
    rw [List.foldl_cons, ih, mem_testPair hsym]
    simp only [List.mem_cons]
    grind

theorem train_symm (papers : List (List Int)) (a b : Int) : b ∈ trainLists papers a ↔ a ∈ trainLists papers b := by
  rw [mem_train, mem_train]
  exact ⟨coauthors_symm, coauthors_symm⟩

theorem train_ne (papers : List (List Int)) (a : Int) : trainLists papers a ≠ [] ↔ ∃ c, Coauthors papers a c := by
  constructor
  · intro h
    obtain ⟨c, hc⟩ := List.exists_mem_of_ne_nil _ h
    exact ⟨c, (mem_train papers a c).mp hc⟩
  · rintro ⟨c, hc⟩ h
    have := (mem_train papers a c).mpr hc
    rw [h] at this
    simp at this

theorem mem_test (train test : List (List Int)) (a b : Int) :
    b ∈ testLists (trainLists train) test a ↔ NewCoauthors train test a b := by
  unfold testLists
  rw [mem_testFold (train_symm train), mem_pairs, train_ne, train_ne, mem_train]
  simp only [List.not_mem_nil, false_or, NewCoauthors]
  grind

/-! The files -/

theorem negative_ok {bad : Int → Bool} : ∀ {ds : List Int} {r : Int × List Int}, negative bad ds = some r → bad r.1 = false := by
  intro ds
  induction ds with
  | nil => intro r h; simp [negative] at h
  | cons d ds ih =>
    intro r h
    unfold negative at h
    by_cases hb : bad d
    · rw [if_pos hb] at h; exact ih h
    · rw [if_neg hb] at h
      simp only [Option.some.injEq] at h
      subst h
      simpa using hb

theorem linesOf_ok {i : Int} {bad : Int → Bool} : ∀ {bs ds : List Int} {r : List (Int × Int × Int) × List Int},
    linesOf i bad bs ds = some r →
    (r.1.filter fun x => x.2.2 = 1) = bs.map (fun b => (i, b, 1)) ∧
    (∀ x ∈ r.1, x.2.2 = 1 ∨ (x.1 = i ∧ x.2.2 = 0 ∧ bad x.2.1 = false)) ∧
    (r.1.filter fun x => x.2.2 = 0).length = bs.length := by
  intro bs
  induction bs with
  | nil => intro ds r h; simp only [linesOf, Option.some.injEq] at h; subst h; simp
  | cons b bs ih =>
    intro ds r h
    unfold linesOf at h
    rw [Option.bind_eq_some_iff] at h
    obtain ⟨d, hd, h⟩ := h
    rw [Option.map_eq_some_iff] at h
    obtain ⟨q, hq, rfl⟩ := h
    obtain ⟨h1, h2, h3⟩ := ih hq
    refine ⟨by simp [h1], ?_, by simp [h3]⟩
    intro x hx
    simp only [List.mem_cons] at hx
    rcases hx with rfl | rfl | hx
    · exact Or.inl rfl
    · exact Or.inr ⟨rfl, rfl, negative_ok hd⟩
    · exact h2 x hx

theorem fileOf_ok {bad : Int → Int → Bool} {lists : Int → List Int} : ∀ {is ds : List Int} {r : List (Int × Int × Int) × List Int},
    fileOf bad lists is ds = some r →
    (r.1.filter fun x => x.2.2 = 1) = is.flatMap (fun i => (sortUnique (lists i)).map fun b => (i, b, 1)) ∧
    (∀ x ∈ r.1, x.2.2 = 1 ∨ (x.2.2 = 0 ∧ bad x.1 x.2.1 = false)) ∧
    (r.1.filter fun x => x.2.2 = 0).length = (r.1.filter fun x => x.2.2 = 1).length := by
  intro is
  induction is with
  | nil => intro ds r h; simp only [fileOf, Option.some.injEq] at h; subst h; simp
  | cons i is ih =>
    intro ds r h
    unfold fileOf at h
    rw [Option.bind_eq_some_iff] at h
    obtain ⟨d, hd, h⟩ := h
    rw [Option.map_eq_some_iff] at h
    obtain ⟨q, hq, rfl⟩ := h
    obtain ⟨h1, h2, h3⟩ := ih hq
    obtain ⟨g1, g2, g3⟩ := linesOf_ok hd
    refine ⟨by simp [h1, g1], ?_, ?_⟩
    · intro x hx
      rcases List.mem_append.mp hx with hx | hx
      · rcases g2 x hx with h | ⟨e, h, hb⟩
        · exact Or.inl h
        · exact Or.inr ⟨h, by rw [e]; exact hb⟩
      · exact h2 x hx
    · rw [List.filter_append, List.filter_append, List.length_append, List.length_append, g3, h3, g1, List.length_map]

theorem mem_positives {bad : Int → Int → Bool} {lists : Int → List Int} {n : Nat} {ds : List Int}
    {r : List (Int × Int × Int) × List Int} (h : fileOf bad lists ((List.range n).map Int.ofNat) ds = some r) (a b : Int) :
    (a, b, 1) ∈ r.1 ↔ (0 ≤ a ∧ a < n) ∧ b ∈ lists a := by
  have h1 := (fileOf_ok h).1
  have : (a, b, (1 : Int)) ∈ r.1 ↔ (a, b, (1 : Int)) ∈ r.1.filter fun x => x.2.2 = 1 := by simp
  rw [this, h1]
  simp only [List.mem_flatMap, List.mem_map, List.mem_range, Prod.mk.injEq, and_true, Int.ofNat_eq_natCast]
  constructor
  · rintro ⟨_, ⟨k, hk, rfl⟩, y, hy, rfl, rfl⟩
    exact ⟨⟨by omega, by omega⟩, (sortUnique_mem _ _).mp hy⟩
  · rintro ⟨ha, hb⟩
    exact ⟨a, ⟨a.toNat, by omega, by omega⟩, b, (sortUnique_mem _ _).mpr hb, rfl, rfl⟩

theorem positives_nodup {bad : Int → Int → Bool} {lists : Int → List Int} {n : Nat} {ds : List Int}
    {r : List (Int × Int × Int) × List Int} (h : fileOf bad lists ((List.range n).map Int.ofNat) ds = some r) :
    (r.1.filter fun x => x.2.2 = 1).Nodup := by
  rw [(fileOf_ok h).1]
  unfold List.Nodup
  rw [List.pairwise_flatMap]
  constructor
  · intro i _
    rw [List.pairwise_map]
    exact (SageExample.sortUnique_nodup (lists i)).imp (fun hne e => hne (by simpa using e))
  · rw [List.pairwise_map]
    apply (List.nodup_range (n := n)).imp
    intro x y hne u hu v hv e
    obtain ⟨_, _, rfl⟩ := List.mem_map.mp hu
    obtain ⟨_, _, rfl⟩ := List.mem_map.mp hv
    simp only [Prod.mk.injEq, Int.ofNat_eq_natCast] at e
    exact hne (by omega)

/-! Scores -/

theorem counts_fold (xs : List (Int × Int)) : ∀ c : Nat × Nat × Nat,
    xs.foldl (fun c x => (c.1 + (if x.1 = 1 ∧ x.2 = 1 then 1 else 0), c.2.1 + (if x.1 = 1 ∧ x.2 = 0 then 1 else 0),
      c.2.2 + (if x.1 = 0 ∧ x.2 = 1 then 1 else 0))) c =
    (c.1 + xs.count (1, 1), c.2.1 + xs.count (1, 0), c.2.2 + xs.count (0, 1)) := by
  induction xs with
  | nil => intro c; simp
  | cons x xs ih =>
    intro c
    obtain ⟨p, t⟩ := x
    rw [List.foldl_cons, ih]
    simp only [List.count_cons, Prod.mk.injEq, beq_iff_eq]
    refine ⟨by omega, by omega, by omega⟩

theorem counts_eq (xs : List (Int × Int)) : counts xs = (xs.count (1, 1), xs.count (1, 0), xs.count (0, 1)) := by
  unfold counts
  rw [counts_fold]
  simp

theorem f1_eq {xs : List (Int × Int)} (h : 0 < xs.count (1, 1)) :
    f1 xs = some ((2 * xs.count (1, 1) : Nat) / ((2 * xs.count (1, 1) + xs.count (1, 0) + xs.count (0, 1) : Nat) : Rat)) := by
  unfold f1
  simp only [counts_eq]
  generalize xs.count (1, 1) = a at h
  generalize xs.count (1, 0) = b
  generalize xs.count (0, 1) = c
  have ha : (0 : Rat) < (a : Rat) := by exact_mod_cast h
  have hb : (0 : Rat) ≤ (b : Rat) := by exact_mod_cast Nat.zero_le b
  have hc : (0 : Rat) ≤ (c : Rat) := by exact_mod_cast Nat.zero_le c
  have e1 : ((a + b : Nat) : Rat) = (a : Rat) + b := Rat.natCast_add a b
  have e2 : ((a + c : Nat) : Rat) = (a : Rat) + c := Rat.natCast_add a c
  have n1 : (a : Rat) + b ≠ 0 := by grind
  have n2 : (a : Rat) + c ≠ 0 := by grind
  unfold fdiv
  rw [e1, e2, if_neg n1, if_neg n2]
  simp only [Option.bind_some]
  have n3 : (a : Rat) / (a + b) + a / (a + c) ≠ 0 := by
    have p1 : (0 : Rat) < (a : Rat) / (a + b) := by
      rw [Rat.div_def]; exact Rat.mul_pos ha (Rat.inv_pos.mpr (by grind))
    have p2 : (0 : Rat) < (a : Rat) / (a + c) := by
      rw [Rat.div_def]; exact Rat.mul_pos ha (Rat.inv_pos.mpr (by grind))
    grind
  rw [if_neg n3]
  congr 1
  have e3 : ((2 * a : Nat) : Rat) = 2 * (a : Rat) := by rw [Rat.natCast_mul]; rfl
  have e4 : ((2 * a + b + c : Nat) : Rat) = 2 * (a : Rat) + b + c := by rw [Rat.natCast_add, Rat.natCast_add, e3]
  rw [e3, e4]
  have n4 : 2 * (a : Rat) + b + c ≠ 0 := by grind
  have n5 : (a : Rat) ≠ 0 := by grind
  grind

/-! Classes -/

theorem maxIndex_ok {l : List Nat} (h : l ≠ []) :
    ∃ m, l[maxIndex l]? = some m ∧ (∀ x ∈ l, x ≤ m) ∧ ∀ (k : Nat) x, k < maxIndex l → l[k]? = some x → x < m := by
  have hmax : ∀ (l : List Nat) (a : Nat), (a = l.foldl max a ∨ l.foldl max a ∈ l) ∧ a ≤ l.foldl max a ∧ ∀ x ∈ l, x ≤ l.foldl max a := by
    intro l
    induction l with
    | nil => intro a; simp
    | cons y l ih =>
      intro a
      have ⟨h1, h2, h3⟩ := ih (max a y)
      rw [List.foldl_cons]
      refine ⟨?_, by omega, ?_⟩
      · rcases h1 with h1 | h1
        · by_cases e : a ≤ y
          · right; rw [← h1]; simp; left; omega
          · left; omega
        · right; simp [h1]
      · intro x hx
        rcases List.mem_cons.mp hx with rfl | hx
        · omega
        · exact h3 x hx
  have ⟨h1, _, h3⟩ := hmax l 0
  have hmem : l.foldl max 0 ∈ l := by
    rcases h1 with h1 | h1
    · obtain ⟨x, hx⟩ := List.exists_mem_of_ne_nil _ h
      have := h3 x hx
      rw [← h1] at this ⊢
      have : x = 0 := by omega
      rw [← this]; exact hx
    · exact h1
  have hlt := List.idxOf_lt_length_of_mem hmem
  refine ⟨l.foldl max 0, ?_, h3, ?_⟩
  · unfold maxIndex
    rw [List.getElem?_eq_getElem hlt, List.getElem_idxOf hlt]
  · intro k x hk hx
    have hle := h3 x (List.mem_of_getElem? hx)
    rcases Nat.lt_or_eq_of_le hle with h | h
    · exact h
    · exfalso
      have hkl := (List.getElem?_eq_some_iff.mp hx).1
      have hkx : l[k] = l.foldl max 0 := by rw [(List.getElem?_eq_some_iff.mp hx).2, h]
      unfold maxIndex at hk
      have := List.not_of_lt_findIdx hk
      simp [hkx] at this

theorem classOf_lt {v c : Nat} (h : classOf v = some c) : c < 4 := by
  unfold classOf at h
  split at h
  · simp at h; omega
  · split at h
    · simp at h; omega
    · split at h
      · simp at h; omega
      · split at h
        · simp at h; omega
        · simp at h

/-- The class of author `i`. -/
def authorClass (V : Nat) (venues : List (Nat × Nat)) (papers : Nat → List Nat) (i : Nat) : Option Nat :=
  if papers i = [] then none else classOf (maxIndex (venueCounts V ((papers i).map (venueOf venues))))

theorem classStep_none {V : Nat} {venues : List (Nat × Nat)} {papers : Nat → List Nat} {i : Nat}
    (h : authorClass V venues papers i = none) (ls : List (List Nat)) : classStep V venues papers ls i = ls := by
  unfold authorClass at h
  unfold classStep
  by_cases hp : papers i = []
  · rw [if_pos hp]
  · rw [if_neg hp] at h ⊢
    rw [h]

theorem classStep_some {V : Nat} {venues : List (Nat × Nat)} {papers : Nat → List Nat} {i d : Nat}
    (h : authorClass V venues papers i = some d) (ls : List (List Nat)) : classStep V venues papers ls i = ls.modify d (· ++ [i]) := by
  unfold authorClass at h
  unfold classStep
  by_cases hp : papers i = []
  · rw [if_pos hp] at h; simp at h
  · rw [if_neg hp] at h ⊢
    rw [h]

theorem classFold (V : Nat) (venues : List (Nat × Nat)) (papers : Nat → List Nat) (is : List Nat) : ∀ ls : List (List Nat),
    ls.length = 4 → (is.foldl (classStep V venues papers) ls).length = 4 ∧ ∀ (c : Nat) l, ls[c]? = some l →
      (is.foldl (classStep V venues papers) ls)[c]? = some (l ++ is.filter fun i => authorClass V venues papers i = some c) := by
  induction is with
  | nil => intro ls h; exact ⟨h, fun c l hl => by simpa using hl⟩
  | cons i is ih =>
    intro ls h
    simp only [List.foldl_cons]
    cases hc : authorClass V venues papers i with
    | none =>
      rw [classStep_none hc]
      have := ih ls h
      refine ⟨this.1, fun c l hl => ?_⟩
      rw [this.2 c l hl, List.filter_cons, hc]
      simp
    | some d =>
      rw [classStep_some hc]
      have := ih (ls.modify d (· ++ [i])) (by rw [List.length_modify]; exact h)
      refine ⟨this.1, fun c l hl => ?_⟩
      by_cases e : d = c
      · subst e
        rw [this.2 d (l ++ [i]) (by rw [List.getElem?_modify, hl]; simp), List.filter_cons, hc]
        simp
      · rw [this.2 c l (by rw [List.getElem?_modify, hl]; simp [e]), List.filter_cons, hc]
        simp [e]

theorem classLists_eq (A V : Nat) (venues : List (Nat × Nat)) (papers : Nat → List Nat) :
    classLists A V venues papers = (List.range 4).map fun c => (List.range A).filter fun i => authorClass V venues papers i = some c := by
  have ⟨h1, h2⟩ := classFold V venues papers (List.range A) (List.replicate 4 []) (by simp)
  apply List.ext_getElem?
  intro c
  by_cases hc : c < 4
  · have := h2 c [] (by rw [List.getElem?_replicate, if_pos hc])
    unfold classLists
    rw [this]
    simp [hc]
  · rw [List.getElem?_eq_none (by unfold classLists; omega), List.getElem?_eq_none (by simp; omega)]

theorem allClasses_eq (A V : Nat) (venues : List (Nat × Nat)) (papers : Nat → List Nat) :
    ((classLists A V venues papers).zipIdx.flatMap fun l => l.1.map fun i => (i, l.2)) =
      (List.range 4).flatMap fun c => ((List.range A).filter fun i => authorClass V venues papers i = some c).map fun i => (i, c) := by
  rw [classLists_eq]
  rfl

theorem split_perm {α : Type} (p : α → Bool) (l : List α) : (l.filter p ++ l.filter fun x => !p x).Perm l := by
  induction l with
  | nil => exact List.Perm.refl _
  | cons x l ih =>
    by_cases h : p x
    · simp only [List.filter_cons, h, if_true, Bool.not_true, Bool.false_eq_true, if_false, List.cons_append]
      exact ih.cons x
    · simp only [List.filter_cons, h, Bool.false_eq_true, if_false]
      exact List.perm_middle.trans (ih.cons x)

theorem classSplit_perm (coin : Nat → Bool) (lists : List (List Nat)) :
    ((classSplit coin lists).1 ++ (classSplit coin lists).2).Perm (lists.zipIdx.flatMap fun l => l.1.map fun i => (i, l.2)) := by
  unfold classSplit
  simp only
  rw [← List.map_append]
  have := (split_perm (fun x => coin x.2) (lists.zipIdx.flatMap fun l => l.1.map fun i => (i, l.2)).zipIdx).map (·.1)
  rw [List.zipIdx_map_fst] at this
  exact this

theorem allClasses_nodup (A V : Nat) (venues : List (Nat × Nat)) (papers : Nat → List Nat) :
    ((classLists A V venues papers).zipIdx.flatMap fun l => l.1.map fun i => (i, l.2)).Nodup := by
  rw [allClasses_eq]
  unfold List.Nodup
  rw [List.pairwise_flatMap]
  constructor
  · intro c _
    rw [List.pairwise_map]
    exact ((List.nodup_range (n := A)).filter _).imp (fun hne e => hne (by simpa using e))
  · apply (List.nodup_range (n := 4)).imp
    intro x y hne u hu v hv e
    obtain ⟨_, _, rfl⟩ := List.mem_map.mp hu
    obtain ⟨_, _, rfl⟩ := List.mem_map.mp hv
    simp only [Prod.mk.injEq] at e
    exact hne e.2

end DeepGNN.HetEval
