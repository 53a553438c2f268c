import Verif.Model.WeightedToss
import Verif.Spec.Stream

namespace DeepGNN.Spec

/-- Total weight of the edges of type `t` that leave `n`. -/
def typeWeight (parts : List (List (List Rec))) (n t : Int) : Int :=
  (((edgeRecords parts).filter fun r => r.src = n ∧ r.typ = t).map (·.weight)).sum

/-- Number of edges of type `t` that leave `n`. -/
def typeDegree (parts : List (List (List Rec))) (n t : Int) : Nat :=
  ((edgeRecords parts).filter fun r => r.src = n ∧ r.typ = t).length

/-- The first sums of the weights, each rounded to single precision. -/
def runningSums (weights : List Int) : List Int := (List.range weights.length).map fun i => fsum 0 (weights.take (i + 1))

/-- How many of the 2^64 numbers of the generator select neighbour `i`. -/
def weightedHits (weights : List Int) (i : Nat) : Nat :=
  (List.range (2 ^ 64)).countP fun x => Toss.weighted (runningSums weights) x == some i

/-- A node of type 0 without features and its edges of type `t`, given by destination and weight, as one input file. -/
def star (n t : Int) (edges : List (Int × Int)) : List (List (List Rec)) :=
  [[⟨n, -1, 0, 1, none, none, []⟩ :: edges.map fun e => ⟨n, e.1, t, e.2, none, none, []⟩]]

end DeepGNN.Spec
