import Verif.Model.Tokenize

/-! What the tokens of a text are. -/

namespace DeepGNN.Spec

open DeepGNN.Tokenize (Text Arr Ctx)

/-- What is left of a text: letters in lower case, digits and spaces. -/
def kept (t : Text) : Text :=
  t.filterMap fun c =>
    if 65 ≤ c ∧ c ≤ 90 then some (c + 32)
    else if (97 ≤ c ∧ c ≤ 122) ∨ (48 ≤ c ∧ c ≤ 57) ∨ c = 32 then some c
    else none

/-- `ws` are the words of `s`: the non-empty runs of characters between spaces. -/
inductive IsWords : Text → List Text → Prop
  | none : IsWords [] []
  | space {s ws} : IsWords s ws → IsWords (32 :: s) ws
  | last {w} : w ≠ [] → 32 ∉ w → IsWords w [w]
  | word {w s ws} : w ≠ [] → 32 ∉ w → IsWords s ws → IsWords (w ++ 32 :: s) (w :: ws)

/-- The id of letter group `j` of a word: three characters of the word between two `#`; 0 if the word has no
such group or the vocabulary does not have it. -/
def groupId (vocab : Text → Option Nat) (w : Text) (j : Nat) : Nat :=
  if j < w.length then (vocab ((([35] ++ w ++ [35]).drop j).take 3)).getD 0 else 0

/-- A line of the vocabulary file without line ends. -/
def lineToken (l : Text) : Text :=
  ((l.dropWhile fun c => c == 13 || c == 10).reverse.dropWhile fun c => c == 13 || c == 10).reverse

/-- `n` is the number of the last line (counted from 1) that has the token. -/
def IsLineOf (lines : List Text) (t : Text) (n : Nat) : Prop :=
  t ≠ [] ∧ 1 ≤ n ∧ (lines[n - 1]?).map lineToken = some t ∧
    ∀ k, n ≤ k → (lines[k]?).map lineToken ≠ some t

/-- Row `k` of an array whose last dimension is `len`. -/
def arrRow (len k : Nat) (a : Arr) : List Nat := (a.data.drop (k * len)).take len

/-- The value at a path of keys. -/
def ctxAt : List String → Ctx → Option Ctx
  | [], v => some v
  | k :: ks, .dict items => (items.lookup k).bind (ctxAt ks)
  | _ :: _, _ => none

end DeepGNN.Spec
