import Verif.Model.Reservoir

namespace DeepGNN.Spec

/-- All draws with which `n + 1` elements are shuffled: the first is one of `n` positions, the next one of `n - 1`, and so on. -/
def shuffleDraws : Nat → List (List Nat)
  | 0 => [[]]
  | n + 1 => (List.range (n + 1)).flatMap fun d => (shuffleDraws n).map (d :: ·)

/-- A generator that returns the numbers of a list. -/
def drawsFrom (ds : List Nat) : Draws := fun i => ds.getD i 0

/-- Of `m` elements the first `c` after the shuffle are kept: the number of draws for which element `j` is one of them. -/
def keptHits (m c j : Nat) : Nat :=
  (shuffleDraws (m - 1)).countP fun ds => (sampleN (drawsFrom ds) (List.range m) 0).any fun x => (x.1.take c).contains j

end DeepGNN.Spec
