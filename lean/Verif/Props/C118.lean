import Verif.Proofs.FocalLoss

/-
C118 The focal loss weights every example by the weight of its class.
-/

namespace DeepGNN
open Focal Focal.Spec

/-- With the weights in a column: the entries are the documented losses of the examples, one each.  Missing: weights in a
tensor of one dimension, as documented (false, `C118_flat_refuted`). -/
theorem C118_column_partial (w : List Int) (pow log : Int → Int) (batch : List (List Int × Nat)) (h : InRange w.length batch) :
    Focal.forward (.column w) pow log (batch.map (·.1)) (batch.map (·.2)) =
      some (total (batch.map (documented w pow log)), batch.length) := by
  rw [forward_eq (alpha := .column w) h, column_eq, List.length_map]

/-- Without weights: the sum of the documented losses without weight. -/
theorem C118_default (classes : Nat) (pow log : Int → Int) (batch : List (List Int × Nat)) (h : InRange classes batch) :
    Focal.forward (defaultAlpha classes) pow log (batch.map (·.1)) (batch.map (·.2)) =
      some (total (batch.map (bare pow log)), batch.length) := by
  rw [defaultAlpha, C118_column_partial _ pow log batch (by simpa using h)]
  refine congrArg (fun l => some (total l, batch.length)) (List.map_congr_left fun e he => ?_)
  have := (h e he).2
  rw [documented]
  simp [List.getD_eq_getElem?_getD, List.getElem?_replicate, this]

/-- With weights in a tensor of one dimension every example is combined with the weight of every other: the sum is the sum of the
weights times the sum of the losses without weight, and the mean divides by the square of the number of examples. -/
theorem C118_flat_refuted (w : List Int) (pow log : Int → Int) (batch : List (List Int × Nat)) (h : InRange w.length batch) :
    Focal.forward (.flat w) pow log (batch.map (·.1)) (batch.map (·.2)) =
      some (total (batch.map fun e => w.getD e.2 0) * total (batch.map (bare pow log)), batch.length * batch.length) := by
  rw [forward_eq (alpha := .flat w) h]
  obtain ⟨h1, h2⟩ := flat_total w pow log (batch.map (·.2)) batch
  rw [h1, h2, List.map_map, List.length_map]
  rfl

/-- So the mean of two examples is the documented one only if their weights or their losses agree. -/
theorem C118_two_refuted (w : List Int) (pow log : Int → Int) (a b : List Int × Nat) (h : InRange w.length [a, b])
    (hw : w.getD a.2 0 ≠ w.getD b.2 0) (hl : bare pow log a ≠ bare pow log b) :
    ∃ s n, Focal.forward (.flat w) pow log [a.1, b.1] [a.2, b.2] = some (s, n) ∧
      s * 2 ≠ (documented w pow log a + documented w pow log b) * n := by
  refine ⟨_, _, C118_flat_refuted w pow log [a, b] h, ?_⟩
  simp only [List.map_cons, List.map_nil, total, List.length_cons, List.length_nil, documented, Int.add_zero]
  generalize w.getD a.2 0 = x at hw ⊢
  generalize w.getD b.2 0 = y at hw ⊢
  generalize bare pow log a = p at hl ⊢
  generalize bare pow log b = q at hl ⊢
  intro he
  have h0 : (x - y) * (p - q) = 0 := by
    simp only [Int.add_mul, Int.mul_add, Int.sub_mul, Int.mul_sub] at he ⊢
    omega
  rcases Int.mul_eq_zero.1 h0 with h1 | h1
  · exact hw (by omega)
  · exact hl (by omega)

/-- And the sum, with all weights one, is the documented one times the number of examples. -/
theorem C118_sum_refuted (classes : Nat) (pow log : Int → Int) (batch : List (List Int × Nat)) (h : InRange classes batch)
    (h2 : 2 ≤ batch.length) (hl : total (batch.map (bare pow log)) ≠ 0) :
    ∃ s n, Focal.forward (.flat (List.replicate classes 1)) pow log (batch.map (·.1)) (batch.map (·.2)) = some (s, n) ∧
      s = batch.length * total (batch.map (bare pow log)) ∧ s ≠ total (batch.map (bare pow log)) := by
  have ht : total (batch.map fun e => (List.replicate classes (1 : Int)).getD e.2 0) = batch.length := by
    have : (batch.map fun e => (List.replicate classes (1 : Int)).getD e.2 0) = batch.map fun _ => 1 :=
      List.map_congr_left fun e he => by
        have := (h e he).2
        simp [List.getD_eq_getElem?_getD, List.getElem?_replicate, this]
    rw [this]
    clear this h h2 hl
    induction batch with
    | nil => rfl
    | cons e batch ih => rw [List.map_cons, total, ih, List.length_cons]; omega
  refine ⟨_, _, C118_flat_refuted _ pow log batch (by simpa using h), by rw [ht], ?_⟩
  rw [ht]
  intro he
  have h3 : ((batch.length : Int) - 1) * total (batch.map (bare pow log)) = 0 := by rw [Int.sub_mul, he]; omega
  rcases Int.mul_eq_zero.1 h3 with h4 | h4
  · omega
  · exact hl h4

/-- Two examples of two classes. -/
def focalBatch : List (List Int × Nat) := [([7, 3], 0), ([4, 6], 1)]

example : InRange 2 focalBatch := by unfold InRange; decide
example : Focal.forward (.column [5, 2]) (10 - ·) (· - 10) (focalBatch.map (·.1)) (focalBatch.map (·.2)) = some (77, 2) := by
  decide
example : Focal.forward (.flat [5, 2]) (10 - ·) (· - 10) (focalBatch.map (·.1)) (focalBatch.map (·.2)) = some (175, 4) := by
  decide
example : Focal.forward (.column [5, 2]) (10 - ·) (· - 10) [[7, 3]] [2] = none := by decide
example : total (focalBatch.map (bare (10 - ·) (· - 10))) = 25 ∧ 2 ≤ focalBatch.length := by decide
example : ([5, 2] : List Int).getD 0 0 ≠ ([5, 2] : List Int).getD 1 0 ∧
    bare (10 - ·) (· - 10) ([7, 3], 0) ≠ bare (10 - ·) (· - 10) ([4, 6], 1) := by decide

end DeepGNN
