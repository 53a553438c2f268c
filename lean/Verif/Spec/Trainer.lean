/-
What training should do: a plain loop without interruptions.
-/

namespace DeepGNN.Spec

/-- The batches of one epoch: at most `maxSteps` if this is positive. -/
def epochBatches {D : Type} (maxSteps : Int) (batches : List D) : List D :=
  if 0 < maxSteps then batches.take maxSteps.toNat else batches

/-- Parameters after `n` epochs over `batches`. -/
def trained {P D : Type} (update : P → D → P) (params : P) (n : Nat) (batches : List D) : P :=
  (List.replicate n batches).flatten.foldl update params

end DeepGNN.Spec
