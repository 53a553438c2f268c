/-
What the evaluation data of the HetGNN example should be, without reference to its model.
-/

namespace DeepGNN.Spec

/-- `a` and `b` are authors of the same paper, at different places in its list. -/
def Coauthors (papers : List (List Int)) (a b : Int) : Prop :=
  ∃ p ∈ papers, ∃ j k : Nat, j ≠ k ∧ p[j]? = some a ∧ p[k]? = some b

/-- A pair to be predicted: coauthors of a test paper, not of a training paper, who both have coauthors in training. -/
def NewCoauthors (train test : List (List Int)) (a b : Int) : Prop :=
  Coauthors test a b ∧ ¬ Coauthors train a b ∧ (∃ c, Coauthors train a c) ∧ ∃ c, Coauthors train b c

end DeepGNN.Spec
