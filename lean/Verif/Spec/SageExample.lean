import Verif.Model.SageExample

/-! What a batch of the PyTorch GraphSAGE example should be. -/

namespace DeepGNN.Spec

/-- `out` has `f` entries for each node, in order; `related v u` holds for each entry `u` of node `v`. -/
def SampledFor (related : Int → Int → Prop) (f : Nat) (nodes out : List Int) : Prop :=
  out.length = nodes.length * f ∧
    ∀ (i j : Nat) (v u : Int), nodes[i]? = some v → j < f → out[i * f + j]? = some u → related v u

/-- Node `u` is a neighbor of `v`, or stands for a missing neighbor. -/
def NbrOr (filler : Int) (nbrs : Int → List Int) (v u : Int) : Prop := u ∈ nbrs v ∨ u = filler

end DeepGNN.Spec
