import Verif.Spec.Weighted
import Verif.Spec.RemoteSampling

/-
Finite grids of random numbers for the merge of weighted samples.
-/

namespace DeepGNN.Spec

/-- Random numbers in the middle of `Q` equal intervals of `[0, 1)`; the `i`-th one is in interval `cs[i]`. -/
def midDraws (Q : Nat) (cs : List Nat) : WDraws :=
  { coin := fun _ => 0, real := fun i => (2 * cs.getD i 0 + 1, 2 * Q) }

/-- Total weight of the answers with sample `y` in place `i`. -/
def sampleWeight (answers : List (Int × List Nbr)) (i : Nat) (y : Nbr) : Int :=
  totalWeight (answers.filter fun a => a.2[i]? = some y)

end DeepGNN.Spec
