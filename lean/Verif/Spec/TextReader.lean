import Verif.Model.TextReader

namespace DeepGNN.Spec

/-- The maximal runs of characters that are not line breaks; `cur` is the run so far. -/
def runs (cur : Text.Bytes) : Text.Bytes → List Text.Bytes
  | [] => if cur = [] then [] else [cur]
  | b :: l => if Text.isBreak b then (if cur = [] then [] else [cur]) ++ runs [] l else runs (cur ++ [b]) l

/-- The non-empty lines of a file. -/
def textLines (file : Text.Bytes) : List Text.Bytes := runs [] file

/-- The text after the last newline contains no other line break. -/
def CleanEnd (file : Text.Bytes) : Prop := ∀ x y, file = x ++ y → 10 ∉ y → ∀ b ∈ y, Text.isBreak b = false

/-- `bs` are batches of `k`: all of them full but the last, which is not empty. -/
structure Batched {α : Type} (k : Nat) (bs : List (List α)) : Prop where
  full : ∀ b ∈ bs.dropLast, b.length = k
  last : ∀ b ∈ bs, b ≠ [] ∧ b.length ≤ k

end DeepGNN.Spec
