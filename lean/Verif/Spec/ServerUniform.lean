import Verif.Model.ServerRate
import Verif.Spec.Uniform

namespace DeepGNN.Spec

/-- All ways to choose one element of every list. -/
def choices {δ : Type} : List (List δ) → List (List δ)
  | [] => [[]]
  | l :: ls => l.flatMap fun d => (choices ls).map (d :: ·)

/-- All draws of the servers for their `count` slots. -/
def serverDraws {α} (count : Nat) (servers : List (List (List α))) : List (List (List (Nat × Nat))) :=
  choices (servers.flatMap fun blocks => List.replicate count (Toss.drawsFor 0 blocks))

/-- How many of all draws of client and servers leave `x` in an output slot. -/
def mergedHits {α} [BEq α] (count : Nat) (servers : List (List (List α))) (x : α) : Nat :=
  ((Toss.drawsFor 0 (Toss.offsets servers)).map fun e => (serverDraws count servers).countP fun D => Toss.mergedSlot count servers e D == some x).sum

end DeepGNN.Spec
