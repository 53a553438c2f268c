import Verif.Model.FocalLoss

/-
Specification of the focal loss.
-/

namespace DeepGNN.Focal.Spec

/-- The sum of a list. -/
def total : List Int → Int
  | [] => 0
  | x :: xs => x + total xs

/-- Rows of probabilities with targets, all targets among the classes. -/
def InRange (classes : Nat) (batch : List (List Int × Nat)) : Prop := ∀ e ∈ batch, e.1.length = classes ∧ e.2 < classes

/-- The documented loss without the weight, - (1 - p) ^ gamma log p for the probability p of the target. -/
def bare (pow log : Int → Int) (e : List Int × Nat) : Int := -(pow (e.1.getD e.2 0) * log (e.1.getD e.2 0))

/-- The documented loss of an example: its weight is that of its target. -/
def documented (w : List Int) (pow log : Int → Int) (e : List Int × Nat) : Int := w.getD e.2 0 * bare pow log e

end DeepGNN.Focal.Spec
