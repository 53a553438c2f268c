import Verif.Spec.Sage

/-
What a source, its positive and the negatives are compared by.
-/

namespace DeepGNN.Spec

open DeepGNN.Sage Arith

variable {α : Type} [Arith α]

/-- Inner product. -/
def innerProduct (a b : Vec α) : α := (List.zipWith mul a b).foldl add zero

/-- The reciprocal rank of a positive among negatives: negatives that are as good come first. -/
def reciprocalRank (key : α → Int) (p : α) (negatives : List α) : Rat :=
  1 / (((negatives.filter fun n => decide (key p ≤ key n)).length : Rat) + 1)

/-- The mean of some numbers. -/
def meanRat (l : List Rat) : Rat := l.sum / l.length

/-- The vectors of the trees of some nodes. -/
def vectors (norm : Vec α → Vec α) (kind : Kind) (concat : Bool) (ws : List (Weights α)) (dims : List Nat) (feat : Int → Vec α)
    (depth : Nat) (trees : List Tree) : Mat α := trees.map fun t => norm (embed kind concat ws dims feat depth t)

end DeepGNN.Spec
