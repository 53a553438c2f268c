/-
Specification of alias tables: slot `j` keeps its own element on `prob[j]` of `one` equally likely
outcomes and gives the others to element `alias[j]`.
-/

namespace DeepGNN.Spec

/-- How many outcomes slot `j` gives to the element at position `i`. -/
def slotShare (one : Int) (prob : List Int) (alias : List (Option Nat)) (i j : Nat) : Int :=
  (if j = i then prob.getD j 0 else 0) +
    (if prob.getD j 0 < one ∧ alias.getD j none = some i then one - prob.getD j 0 else 0)

/-- How many outcomes the whole table gives to the element at position `i`. -/
def tableShare (one : Int) (prob : List Int) (alias : List (Option Nat)) (i : Nat) : Int :=
  ((List.range prob.length).map (slotShare one prob alias i)).sum

end DeepGNN.Spec

namespace DeepGNN.Spec

/-- Total weight of the entries for element `x`. -/
def weightOf {α} [DecidableEq α] (l : List (α × Int)) (x : α) : Int :=
  ((l.filter fun y => y.1 = x).map (·.2)).sum

end DeepGNN.Spec
