import Verif.Model.UniformRate
import Verif.Spec.Stream

namespace DeepGNN.Spec

/-- How many of all draws for a slot leave element `x` in it. -/
def slotHits {α} [BEq α] (blocks : List (List α)) (x : α) : Nat :=
  (Toss.drawsFor 0 blocks).countP fun d => Toss.slotAfter none blocks d == some x

/-- How many of the 2^64 numbers of the generator lead to a replacement. -/
def replacingNumbers (w seen : Nat) : Nat :=
  (List.range (2 ^ 64)).countP fun x => (Toss.toss x).any (Toss.replaces w seen)

/-- A node of type 0 without features and its edges, given by destination and type, as one input file. -/
def fan (n : Int) (edges : List (Int × Int)) : List (List (List Rec)) :=
  [[⟨n, -1, 0, 1, none, none, []⟩ :: edges.map fun e => ⟨n, e.1, e.2, 1, none, none, []⟩]]

end DeepGNN.Spec
