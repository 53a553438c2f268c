import Verif.Proofs.DenseAdj
import Verif.Props.C81

/-
C82: sparse and dense adjacency matrices.
-/

namespace DeepGNN

open Sage Gat Arith Analysis

variable {α : Type} [Analysis α]

/-- **C82_gcn_partial.** For a matrix of zeros and ones, normalising it and applying a GCN layer gives the same with the dense and the
sparse representation.  (Missing: other matrices, for which the claim is false.) -/
theorem C82_gcn_partial (z : Spec.ZeroOne α) {n w : Nat} {edges : List (Nat × Nat)} (he : Spec.EdgesOf n edges)
    {ws feat : Mat α} (hws : ∀ col ∈ ws, col.length = w) (hn : feat.length = n) (hw : ∀ r ∈ feat, r.length = w) :
    ∃ out, ((gcnNormAdj n (edges.map fun e => (e, one))).bind fun adj => gcnConv ws n adj feat) = some out ∧
      ((gcnNormAdjDense n (Spec.zeroOne n edges)).bind fun adj => gcnConvDense ws n adj feat) = some out := by
  rw [gcnNormAdj_eq he.2, gcnNormAdjDense_eq z he]
  simp only [Option.bind_some]
  refine ⟨_, gcnConv_eq (c := fun e => mul (rowFactor edges e.1) (rowFactor edges e.2)) hws hn hw he.2, ?_⟩
  unfold gcnConvDense
  rw [mapM_map (g := Spec.linear ws) (fun r hr' => dense_eq fun col hc => by rw [hws col hc, hw r hr'])]
  simp only [Option.bind_some]
  rw [if_pos ⟨by simp [hn], isSquare_range n _⟩]
  congr 1
  unfold denseMatmul Spec.weightedSum
  rw [List.map_map]
  apply List.map_congr_left
  intro i _
  simp only [Function.comp_apply]
  apply List.map_congr_left
  intro q _
  rw [total_filter z (fun j => decide ((i, j) ∈ edges)), cols_filter he, List.map_map, zipWith_map_same]
  · congr 1
    apply List.map_congr_left
    intro j hj
    have hjn := cols_lt he.2 hj
    rw [getD_range _ hjn, if_pos (mem_cols.1 hj), getD_map' _ _ (by omega) _ []]
    rfl
  · intro j hj hp
    rw [getD_range _ (by simpa using hj), if_neg (of_decide_eq_false hp), z.zero_mul]

/-- **C82_gat_partial.** For a matrix of zeros and ones in which every node has a neighbour, a GAT layer gives the same with the dense
and the sparse representation, if the number that masks entries swamps the logits.  (Missing: other matrices and nodes without
neighbours, for which the claim is false.) -/
theorem C82_gat_partial {big : α} {small : α → Prop} (z : Spec.ZeroOne α) (sw : Spec.Swamps big small) {w d : Nat} {heads : List (Head α)}
    (hf : ∀ h ∈ heads, Spec.HeadFits w d h) {n : Nat} {edges : List (Nat × Nat)} {feat : Mat α} (he : Spec.EdgesOf n edges)
    (hn : feat.length = n) (hw : ∀ r ∈ feat, r.length = w) (hsm : ∀ h ∈ heads, Spec.SmallLogits small h feat)
    (hne : ∀ i < n, ∃ j, (i, j) ∈ edges) (join : Join) :
    gatConvDense big join heads n (Spec.zeroOne n edges) feat = gatConv join heads n edges feat := by
  have h1 := mapM_map (l := heads) (f := fun h => head h n edges feat) (fun h hh => head_eq (hf h hh) hn hw he.2)
  have h2 := mapM_map (l := heads) (f := fun h => headDense big h n (Spec.zeroOne n edges) feat) (fun h hh => by
    rw [headDense_eq z sw (hf h hh) he hn hw (hsm h hh) hne]
    exact head_eq (hf h hh) hn hw he.2)
  unfold gatConvDense gatConv
  rw [h1, h2]

theorem Gat.int_zeroOne : Spec.ZeroOne Int where
  add_zero := fun x => Int.add_zero x
  zero_add := fun x => Int.zero_add x
  mul_zero := fun x => Int.mul_zero x
  zero_mul := fun x => Int.zero_mul x
  mul_one := fun x => Int.mul_one x
  zero_div := fun x => show 1000 * 0 / x = 0 by simp
  one_sub_one := rfl
  one_sub_zero := rfl

theorem Gat.int_swamps : Spec.Swamps (-100 : Int) (fun x => -20 ≤ x ∧ x ≤ 20) where
  small_max := by
    intro x y hx hy
    show _ ≤ (if x ≤ y then y else x) ∧ (if x ≤ y then y else x) ≤ _
    split <;> omega
  choice := by
    intro x y
    show (if x + -100 ≤ y + -100 then y + -100 else x + -100) = x + -100 ∨ (if x + -100 ≤ y + -100 then y + -100 else x + -100) = y + -100
    split <;> simp
  above := by
    intro x y hx hy
    show (if x + -100 ≤ y then y else x + -100) = y ∧ (if y ≤ x + -100 then x + -100 else y) = y
    rw [if_pos (by omega), if_neg (by omega)]
    exact ⟨rfl, rfl⟩
  vanishes := by
    intro x y hx hy
    show (1024 : Int) / 2 ^ (-(x + -100 - y)).toNat = 0
    apply Int.ediv_eq_zero_of_lt (by decide)
    have h : (2 : Nat) ^ 11 ≤ 2 ^ (-(x + -100 - y)).toNat := Nat.pow_le_pow_right (by decide) (by omega)
    have h' : ((2 ^ 11 : Nat) : Int) ≤ ((2 ^ (-(x + -100 - y)).toNat : Nat) : Int) := Int.ofNat_le.2 h
    rw [Int.natCast_pow (m := 2) (n := (-(x + -100 - y)).toNat)] at h'
    exact Int.lt_of_lt_of_le (by decide : (1024 : Int) < ((2 ^ 11 : Nat) : Int)) h'

/-- A graph on three nodes. -/
def C82_edges : List (Nat × Nat) := [(0, 0), (0, 1), (1, 0), (1, 1), (1, 2), (2, 1), (2, 2)]

/-- The hypotheses of C82_gcn_partial and C82_gat_partial, met. -/
example : Spec.EdgesOf 3 C82_edges ∧ (∀ i < 3, ∃ j, (i, j) ∈ C82_edges) ∧ Spec.HeadFits 1 1 C81_head ∧
    Spec.SmallLogits (fun x : Int => -20 ≤ x ∧ x ≤ 20) C81_head [[1], [2], [3]] ∧
    gatConv .concat [C81_head] 3 C82_edges [[1], [2], [3]] = gatConvDense (-100) .concat [C81_head] 3 (Spec.zeroOne 3 C82_edges) [[1], [2], [3]] ∧
    gatConv .concat [C81_head] 3 C82_edges [[1], [2], [3]] = some [[1665], [2425], [2664]] := by
  refine ⟨⟨by decide, by decide⟩, ?_, by simp [Spec.HeadFits, C81_head], by simp [Spec.SmallLogits]; decide +kernel, ?_, by decide +kernel⟩
  · intro i hi
    exact ⟨i, (by decide : ∀ i < 3, (i, i) ∈ C82_edges) i hi⟩
  · decide +kernel

/-- **C82_isolated_refuted.** A node without neighbours attends to no node in the sparse and to all nodes in the dense layer. -/
theorem C82_isolated_refuted :
    gatConv .concat [C81_head] 2 [(0, 0), (0, 1)] [[1], [1]] = some [[1000], [0]] ∧
    gatConvDense (-100) .concat [C81_head] 2 (Spec.zeroOne 2 [(0, 0), (0, 1)]) [[1], [1]] = some [[1000], [1000]] := by
  decide +kernel

/-- **C82_gat_values_refuted.** The sparse layer ignores the values of the matrix; in the dense one they add to the logits.  A matrix
with 2 on the diagonal is what `sub_graph` returns for nodes with edges to themselves. -/
theorem C82_gat_values_refuted :
    gatConv .concat [C81_head] 2 [(0, 0), (0, 1), (1, 0), (1, 1)] [[1], [3]] = some [[2600], [2600]] ∧
    gatConvDense (-100) .concat [C81_head] 2 [[2, 1], [1, 2]] [[1], [3]] = some [[1000], [3000]] := by
  decide +kernel

/-- **C82_gcn_values_refuted.** The sparse normalisation uses the values for the degrees only, the dense one keeps them. -/
theorem C82_gcn_values_refuted :
    gcnNormAdj 2 [((0, 0), (1 : Int)), ((0, 1), 3), ((1, 0), 3), ((1, 1), 1)] =
      some [((0, 0), 250000), ((0, 1), 250000), ((1, 0), 250000), ((1, 1), 250000)] ∧
    gcnNormAdjDense 2 [[(1 : Int), 3], [3, 1]] = some [[250000, 750000], [750000, 250000]] := by
  decide +kernel

end DeepGNN
