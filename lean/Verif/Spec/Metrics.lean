/-
What mean reciprocal rank means.
-/

namespace DeepGNN.Spec

/-- A row of labels marking item `c` of `n`. -/
def oneHot (n c : Nat) : List Int := (List.range n).map fun k => if k = c then 1 else 0

/-- The rank of item `c`: 1 plus the number of items scored above it. -/
def rank (scores : List Int) (c : Nat) : Nat := 1 + scores.countP fun s => decide (s > scores.getD c 0)

/-- The rank of item `c` in ascending order: 1 plus the number of items scored below it. -/
def rankAscending (scores : List Int) (c : Nat) : Nat := 1 + scores.countP fun s => decide (s < scores.getD c 0)

/-- The average of a list. -/
def average (l : List Rat) : Rat := l.sum / l.length

end DeepGNN.Spec
