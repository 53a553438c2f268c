import Verif.Model.Embeddings

namespace DeepGNN.Spec

open Embeddings (Value)

/-- `y` is `x` up to half a millionth: y is a number of millionths, and 2·|y - x| ≤ 10⁻⁶; infinite values and nan are kept. -/
def Near6 : Value → Value → Prop
  | .fin neg num den, .fin neg' m d => neg' = neg ∧ d = 1000000 ∧
      2 * (num * 1000000) ≤ 2 * (m * den) + den ∧ 2 * (m * den) ≤ 2 * (num * 1000000) + den
  | .inf neg, .inf neg' => neg' = neg
  | .nan, .nan => True
  | _, _ => False

/-- A row is near another one. -/
def NearRow : List Value → List Value → Prop
  | [], [] => True
  | x :: xs, y :: ys => Near6 x y ∧ NearRow xs ys
  | _, _ => False

/-- Fractions have denominators. -/
def ValidValue : Value → Prop
  | .fin _ _ den => 0 < den
  | _ => True

/-- The matrix has for every wanted id below `n` a row near its embedding, and zeros elsewhere. -/
def EmbeddingTable (n dim : Nat) (f : Int → List Value) (wanted : Int → Prop) (res : List (List Value)) : Prop :=
  res.length = n ∧ ∀ i < n,
    (wanted i → ∃ row, res[i]? = some row ∧ NearRow (f i) row) ∧
    (¬ wanted i → res[i]? = some (List.replicate dim (.fin false 0 1)))

end DeepGNN.Spec
