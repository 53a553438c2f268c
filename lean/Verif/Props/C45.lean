import Verif.Model.Metrics
import Verif.Spec.Metrics

/-
C45: the MRR metric.
-/

namespace DeepGNN

open Metrics

namespace Metrics

theorem map_getElem_range {α : Type} (l : List α) (d : α) : (List.range l.length).map (fun i => l.getD i d) = l := by
  refine List.ext_getElem (by simp) fun i h1 h2 => ?_
  simp [List.getD_eq_getElem?_getD, List.getElem?_eq_getElem h2]

/-- The second `topk` inverts the first. -/
theorem ranks_inverse {topk : List Int → List Nat} (ht : TopK topk) (row : List Int) :
    (ranks topk row).map (fun p => (topk row).getD p 0) = List.range row.length := by
  have h1 := (ht row).1
  have hlen : (topk row).length = row.length := by rw [h1.length_eq, List.length_range]
  have h2 := ht ((topk row).map fun (i : Nat) => -(i : Int))
  rw [List.length_map, hlen] at h2
  have p1 : ((ranks topk row).map (fun p => (topk row).getD p 0)).Perm (List.range row.length) := by
    have := List.Perm.map (fun p => (topk row).getD p 0) h2.1
    rw [← hlen, map_getElem_range] at this
    exact this.trans (hlen ▸ h1)
  refine List.Perm.eq_of_pairwise (le := fun a b => a ≤ b) ?_ ?_ ?_ p1
  · intro a b _ _ h3 h4; exact Nat.le_antisymm h3 h4
  · rw [List.pairwise_map]
    refine List.Pairwise.imp_of_mem ?_ h2.2
    intro i j hi hj h
    have hi' := h2.1.mem_iff.1 hi
    have hj' := h2.1.mem_iff.1 hj
    rw [List.mem_range, ← hlen] at hi' hj'
    simp only [List.getD_eq_getElem?_getD, List.getElem?_map, List.getElem?_eq_getElem hi', List.getElem?_eq_getElem hj',
      Option.map_some, Option.getD_some] at h ⊢
    omega
  · exact List.pairwise_le_range

/-- Position of an item in a strictly sorted list: the number of items above it. -/
theorem countP_before {f : Nat → Int} : ∀ (idx : List Nat), idx.Pairwise (fun i j => f j < f i) → ∀ (p : Nat) (h : p < idx.length),
    idx.countP (fun i => decide (f i > f idx[p])) = p
  | [], _, p, h => absurd h (Nat.not_lt_zero _)
  | a :: idx, hs, 0, h => by
    rw [List.countP_eq_zero]
    intro i hi
    rw [List.getElem_cons_zero]
    rcases List.mem_cons.1 hi with rfl | hi
    · simp
    · have := (List.pairwise_cons.1 hs).1 i hi
      simp; omega
  | a :: idx, hs, p + 1, h => by
    have hp : p < idx.length := by simpa using h
    have h2 := (List.pairwise_cons.1 hs).1 _ (List.getElem_mem hp)
    rw [List.countP_cons_of_pos, List.getElem_cons_succ, countP_before idx (List.pairwise_cons.1 hs).2 p hp]
    rw [List.getElem_cons_succ]
    simp; omega

/-- With distinct scores the rank computed for item `c` is the number of items scored above it. -/
theorem ranks_getD {topk : List Int → List Nat} (ht : TopK topk) {row : List Int} (hd : row.Nodup) {c : Nat}
    (hc : c < row.length) : 1 + (ranks topk row).getD c 0 = Spec.rank row c := by
  have hinv := ranks_inverse ht row
  have h1 := (ht row).1
  have hlen : (topk row).length = row.length := by rw [h1.length_eq, List.length_range]
  have h2 := ht ((topk row).map fun (i : Nat) => -(i : Int))
  rw [List.length_map, hlen] at h2
  have hrl : (ranks topk row).length = row.length := by
    have := h2.1.length_eq
    rw [List.length_range] at this
    exact this
  have hc' : c < (ranks topk row).length := by omega
  have hp : (ranks topk row)[c] < row.length := List.mem_range.1 (h2.1.mem_iff.1 (List.getElem_mem hc'))
  have hp' : (ranks topk row)[c] < (topk row).length := by omega
  have e : (topk row)[(ranks topk row)[c]] = c := by
    have := congrArg (fun l => l[c]?) hinv
    simp only [List.getElem?_map, List.getElem?_eq_getElem hc', Option.map_some, List.getElem?_range hc,
      List.getD_eq_getElem?_getD, List.getElem?_eq_getElem hp', Option.getD_some] at this
    exact Option.some.inj this
  rw [List.getD_eq_getElem?_getD, List.getElem?_eq_getElem hc', Option.getD_some, Spec.rank]
  congr 1
  have hs : (topk row).Pairwise (fun i j => row.getD j 0 < row.getD i 0) := by
    have hnd : (topk row).Nodup := h1.nodup_iff.2 List.nodup_range
    refine List.Pairwise.imp_of_mem ?_ (List.Pairwise.and (ht row).2 hnd)
    intro i j hi hj h
    have hi' := List.mem_range.1 (h1.mem_iff.1 hi)
    have hj' := List.mem_range.1 (h1.mem_iff.1 hj)
    have hne : row.getD j 0 ≠ row.getD i 0 := by
      intro heq
      simp only [List.getD_eq_getElem?_getD, List.getElem?_eq_getElem hi', List.getElem?_eq_getElem hj', Option.getD_some] at heq
      have hpw := List.pairwise_iff_getElem.1 hd
      rcases Nat.lt_trichotomy i j with hlt | rfl | hgt
      · exact hpw i j hi' hj' hlt heq.symm
      · exact h.2 rfl
      · exact hpw j i hj' hi' hgt heq
    have := h.1
    omega
  have hcount := countP_before (topk row) hs _ hp'
  rw [e] at hcount
  rw [← hcount, h1.countP_eq]
  conv => rhs; rw [← map_getElem_range row 0]
  rw [List.countP_map]
  simp only [map_getElem_range row 0]
  rfl

theorem dot_zero (a : List Nat) : ∀ (b : List Int), (∀ y, y ∈ b → y = 0) → dot a b = 0 := by
  induction a with
  | nil => intro b _; rfl
  | cons x a ih =>
    intro b h
    cases b with
    | nil => rfl
    | cons y b =>
      have := ih b (fun z hz => h z (List.mem_cons_of_mem _ hz))
      rw [dot] at this
      rw [dot, List.zipWith_cons_cons, List.sum_cons, this, h y List.mem_cons_self]
      simp

theorem dot_oneHot (a : List Nat) (c : Nat) (hc : c < a.length) : dot a (Spec.oneHot a.length c) = a.getD c 0 := by
  have key : ∀ (a : List Nat) (s c : Nat), s ≤ c → c < s + a.length →
      dot a ((List.range' s a.length).map fun k => if k = c then 1 else 0) = a.getD (c - s) 0 := by
    intro a
    induction a with
    | nil => intro s c h1 h2; simp at h2; omega
    | cons x a ih =>
      intro s c h1 h2
      simp only [List.length_cons] at h2
      rw [List.length_cons, List.range'_succ, List.map_cons, dot, List.zipWith_cons_cons, List.sum_cons]
      by_cases e : s = c
      · have := dot_zero a ((List.range' (s + 1) a.length).map fun k => if k = c then 1 else 0) (by
          intro y hy
          rw [List.mem_map] at hy
          obtain ⟨k, hk, rfl⟩ := hy
          rw [List.mem_range'_1] at hk
          rw [if_neg (by omega)])
        rw [dot] at this
        rw [this, if_pos e, e, Nat.sub_self]
        simp
      · have := ih (s + 1) c (by omega) (by omega)
        rw [dot] at this
        rw [this, if_neg e, show c - s = (c - (s + 1)) + 1 by omega, List.getD_cons_succ]
        simp
  have := key a 0 c (Nat.zero_le _) (by omega)
  rw [Spec.oneHot, List.range_eq_range', this, Nat.sub_zero]

theorem ranks_length {topk : List Int → List Nat} (ht : TopK topk) (row : List Int) : (ranks topk row).length = row.length := by
  have h1 := (ht row).1.length_eq
  have h2 := (ht ((topk row).map fun (i : Nat) => -(i : Int))).1.length_eq
  rw [List.length_range] at h1
  rw [List.length_map, h1, List.length_range] at h2
  exact h2

end Metrics

/-- What `MRR.compute` returns: the average over all pairs of a row of scores and a row of labels of the same matrix, of
the reciprocal rank which the item labelled in the second has in the first. -/
theorem C45_actual {topk : List Int → List Nat} (ht : TopK topk) {n : Nat}
    (batch : List (List (List Int) × List Nat))
    (hs : ∀ m, m ∈ batch → ∀ row, row ∈ m.1 → row.length = n ∧ row.Nodup)
    (hc : ∀ m, m ∈ batch → ∀ c, c ∈ m.2 → c < n) :
    mrr topk false (batch.map fun m => (m.1, m.2.map (Spec.oneHot n))) =
      Spec.average (batch.flatMap fun m => m.1.flatMap fun row => m.2.map fun c => 1 / (Spec.rank row c : Rat)) := by
  rw [mrr, mean, Spec.average]
  have e : ((batch.map fun m => (m.1, m.2.map (Spec.oneHot n))).flatMap fun m =>
      (matmulT ((if false = true then m.1.map fun row => row.map fun x => -1 * x else m.1).map (ranks topk)) m.2).flatten.map
        fun (x : Int) => 1 / ((x : Rat) + 1)) =
      batch.flatMap fun m => m.1.flatMap fun row => m.2.map fun c => 1 / (Spec.rank row c : Rat) := by
    rw [List.flatMap_map]
    have cm : ∀ {l : List (List (List Int) × List Nat)} {f g : List (List Int) × List Nat → List Rat},
        (∀ a, a ∈ l → f a = g a) → l.flatMap f = l.flatMap g := by
      intro l f g h
      rw [List.flatMap_def, List.flatMap_def, List.map_congr_left h]
    refine cm fun m hm => ?_
    simp only [Bool.false_eq_true, if_false, matmulT, List.map_map, List.map_flatten]
    rw [List.flatMap_def]
    congr 1
    refine List.map_congr_left fun row hrow => ?_
    have hr := hs m hm row hrow
    simp only [Function.comp_apply, List.map_map]
    refine List.map_congr_left fun c hcm => ?_
    have hc' := hc m hm c hcm
    have hl := ranks_length ht row
    simp only [Function.comp_apply]
    have hd := dot_oneHot (ranks topk row) c (by omega)
    rw [hl, hr.1] at hd
    rw [hd, ← ranks_getD ht hr.2 (by omega)]
    rw [Rat.intCast_natCast, Rat.natCast_add, Rat.add_comm]
    rfl
  exact congrArg (fun l : List Rat => l.sum / l.length) e

/-- One row per matrix (scores of shape (1, n) or (batch, 1, n)): `MRR.compute` is the average of the reciprocal ranks
of the labelled items, for any order `topk` gives to equal values. -/
theorem C45_mrr_partial {topk : List Int → List Nat} (ht : TopK topk) {n : Nat} (examples : List (List Int × Nat))
    (hs : ∀ x, x ∈ examples → x.1.length = n ∧ x.1.Nodup ∧ x.2 < n) :
    mrr topk false (examples.map fun x => ([x.1], [Spec.oneHot n x.2])) =
      Spec.average (examples.map fun x => 1 / (Spec.rank x.1 x.2 : Rat)) := by
  have := C45_actual ht (n := n) (examples.map fun x => ([x.1], [x.2])) (by
      intro m hm row hrow
      rw [List.mem_map] at hm
      obtain ⟨x, hx, rfl⟩ := hm
      rw [List.mem_singleton] at hrow
      subst hrow
      exact ⟨(hs x hx).1, (hs x hx).2.1⟩) (by
      intro m hm c hcm
      rw [List.mem_map] at hm
      obtain ⟨x, hx, rfl⟩ := hm
      rw [List.mem_singleton] at hcm
      subst hcm
      exact (hs x hx).2.2)
  rw [List.map_map] at this
  refine this.trans ?_
  congr 1
  rw [List.flatMap_map, List.map_eq_flatMap]
  rfl

/-- The same with `rank_in_ascending_order`. -/
theorem C45_ascending_partial {topk : List Int → List Nat} (ht : TopK topk) {n : Nat} (examples : List (List Int × Nat))
    (hs : ∀ x, x ∈ examples → x.1.length = n ∧ x.1.Nodup ∧ x.2 < n) :
    mrr topk true (examples.map fun x => ([x.1], [Spec.oneHot n x.2])) =
      Spec.average (examples.map fun x => 1 / (Spec.rankAscending x.1 x.2 : Rat)) := by
  have h := C45_mrr_partial ht (n := n) (examples.map fun x => (x.1.map fun y => -1 * y, x.2)) (by
    intro x hx
    rw [List.mem_map] at hx
    obtain ⟨y, hy, rfl⟩ := hx
    have := hs y hy
    refine ⟨by simpa using this.1, ?_, this.2.2⟩
    rw [List.Nodup, List.pairwise_map]
    exact List.Pairwise.imp (fun {a b} hab e => hab (by omega)) this.2.1)
  rw [List.map_map, List.map_map] at h
  have e1 : mrr topk true (examples.map fun x => ([x.1], [Spec.oneHot n x.2])) =
      mrr topk false (examples.map ((fun x => ([x.1], [Spec.oneHot n x.2])) ∘ fun x => (x.1.map fun y => -1 * y, x.2))) := by
    rw [mrr, mrr, List.flatMap_map, List.flatMap_map]
    rfl
  rw [e1, h]
  congr 1
  refine List.map_congr_left fun x hx => ?_
  have hx' := hs x hx
  simp only [Function.comp_apply]
  congr 2
  rw [Spec.rank, Spec.rankAscending, List.countP_map]
  congr 1
  refine List.countP_congr fun s _ => ?_
  have hl : x.2 < x.1.length := by omega
  simp only [List.getD_eq_getElem?_getD, List.getElem?_map, List.getElem?_eq_getElem hl, Option.map_some, Option.getD_some,
    Function.comp_apply, decide_eq_true_eq]
  omega

namespace Metrics

/-- A concrete `topk`: equal values by position. -/
def insertDesc (row : List Int) (i : Nat) : List Nat → List Nat
  | [] => [i]
  | j :: l => if row.getD j 0 ≤ row.getD i 0 then i :: j :: l else j :: insertDesc row i l

def sortDesc (row : List Int) : List Nat := (List.range row.length).foldr (insertDesc row) []

theorem insertDesc_perm (row : List Int) (i : Nat) (l : List Nat) : (insertDesc row i l).Perm (i :: l) := by
  induction l with
  | nil => exact .refl _
  | cons j l ih =>
    rw [insertDesc]
    split
    · exact .refl _
    · exact (ih.cons j).trans (.swap _ _ _)

theorem insertDesc_sorted (row : List Int) (i : Nat) (l : List Nat) (h : l.Pairwise fun a b => row.getD b 0 ≤ row.getD a 0) :
    (insertDesc row i l).Pairwise fun a b => row.getD b 0 ≤ row.getD a 0 := by
  induction l with
  | nil => simp [insertDesc]
  | cons j l ih =>
    rw [List.pairwise_cons] at h
    rw [insertDesc]
    split
    · rename_i hj
      rw [List.pairwise_cons]
      refine ⟨fun b hb => ?_, List.pairwise_cons.2 h⟩
      rcases List.mem_cons.1 hb with rfl | hb
      · exact hj
      · have := h.1 b hb; omega
    · rename_i hj
      rw [List.pairwise_cons]
      refine ⟨fun b hb => ?_, ih h.2⟩
      rcases List.mem_cons.1 ((insertDesc_perm row i l).mem_iff.1 hb) with rfl | hb
      · omega
      · exact h.1 b hb

theorem sortDesc_topK : TopK sortDesc := by
  intro row
  have : ∀ l : List Nat, (l.foldr (insertDesc row) []).Perm l ∧
      (l.foldr (insertDesc row) []).Pairwise fun i j => row.getD j 0 ≤ row.getD i 0 := by
    intro l
    induction l with
    | nil => exact ⟨.refl _, .nil⟩
    | cons a l ih =>
      rw [List.foldr_cons]
      exact ⟨(insertDesc_perm row a _).trans (ih.1.cons a), insertDesc_sorted row a _ ih.2⟩
  exact this _

end Metrics

/-- Two examples of shape (2, 1, 3): ranks 1 and 3, hence 2/3; the contract of `topk` can be met. -/
example : TopK sortDesc ∧
    mrr sortDesc false [([[9, 4, 5]], [[1, 0, 0]]), ([[7, 1, 3]], [[0, 1, 0]])] = 2 / 3 ∧
    Spec.rank [9, 4, 5] 0 = 1 ∧ Spec.rank [7, 1, 3] 1 = 3 ∧ Spec.oneHot 3 1 = [0, 1, 0] ∧
    mrr sortDesc true [([[9, 4, 5]], [[1, 0, 0]]), ([[7, 1, 3]], [[0, 1, 0]])] = 2 / 3 :=
  ⟨sortDesc_topK, by decide +kernel⟩

/-- Scores of shape (2, 2): both labelled items have rank 1, the mean reciprocal rank is 1, but the metric returns 3/4,
because each label is also looked up in the other row. -/
theorem C45_rows_refuted :
    mrr sortDesc false [([[9, 4], [1, 5]], [[1, 0], [0, 1]])] = 3 / 4 ∧
    Spec.average [1 / (Spec.rank [9, 4] 0 : Rat), 1 / (Spec.rank [1, 5] 1 : Rat)] = 1 := by
  decide +kernel

end DeepGNN
