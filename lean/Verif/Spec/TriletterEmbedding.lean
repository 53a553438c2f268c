import Verif.Model.TriletterEmbedding

/-
Specification of the embeddings of letter groups.
-/

namespace DeepGNN.Letters.Spec

/-- The sum of a list. -/
def total : List Int → Int
  | [] => 0
  | x :: xs => x + total xs

/-- The letter groups of word `i` of a text, without the zeros that fill it up. -/
def wordOf (letters : Nat) (text : List Nat) (i : Nat) : List Nat := ((text.drop (i * letters)).take letters).filter (· ≠ 0)

/-- The embedding of word `i`: the sum for its letter groups, and that of its position, counted from 1. -/
def embed (letterTable posTable : List Int) (letters : Nat) (text : List Nat) (i : Nat) : Int :=
  total ((wordOf letters text i).map fun c => letterTable.getD c 0) + posTable.getD (i + 1) 0

/-- A batch: texts of one width, ids in the table, not empty. -/
def Batch (letterTable : List Int) (width : Nat) (ids : List (List Nat)) : Prop :=
  ids ≠ [] ∧ ∀ text ∈ ids, text.length = width ∧ ∀ c ∈ text, c < letterTable.length

end DeepGNN.Letters.Spec
