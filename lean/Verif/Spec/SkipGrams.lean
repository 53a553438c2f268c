/-
What skip-grams are: ordered pairs of distinct positions of a path, the second at most `left` before and at most `right`
after the first.
-/

namespace DeepGNN.Spec

/-- Position `k` is in the window of position `j`. -/
def InWindow (left right j k : Nat) : Prop := k ≠ j ∧ j ≤ k + left ∧ k ≤ j + right

instance (left right j k : Nat) : Decidable (InWindow left right j k) := inferInstanceAs (Decidable (_ ∧ _ ∧ _))

/-- All skip-grams of one path, by position of the first and then of the second element. -/
def skipGrams {α : Type} (left right : Nat) (path : List α) : List (α × α) :=
  (List.range path.length).flatMap fun j =>
    (List.range path.length).filterMap fun k =>
      if InWindow left right j k then (path[j]?).bind fun a => (path[k]?).map fun b => (a, b) else none

end DeepGNN.Spec
