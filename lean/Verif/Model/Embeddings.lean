import Verif.Model.EdgeList

/-
Embeddings written by inference and loaded again (src/python/deepgnn/tf/common/utils.py:110-158, tf2_trainer.py:399-445).
Texts are lists of characters; a raised exception is `none`.
Simplifications: a finite float is a sign with a fraction; `float(text)` is modelled for the texts that are written and gives their
exact decimal value, which numpy then rounds to a 32-bit float; lines end with a line feed (text mode on Linux).
-/

namespace DeepGNN.Embeddings

open EdgeList (Str split strip parseInt)

/-- A float: `fin neg num den` is ±num/den. -/
inductive Value where
  | fin (neg : Bool) (num den : Nat)
  | inf (neg : Bool)
  | nan
deriving DecidableEq

/-- num/den in millionths, rounded to nearest, ties to even (`"{:.6f}"`, utils.py:130). -/
def micro (num den : Nat) : Nat :=
  let q := num * 1000000 / den
  let r := num * 1000000 % den
  if 2 * r < den then q else if den < 2 * r then q + 1 else q + q % 2

/-- The last `k` decimal digits of a number. -/
def digits : Nat → Nat → Str
  | 0, _ => []
  | k + 1, n => digits k (n / 10) ++ [Nat.digitChar (n % 10)]

def sign (neg : Bool) : Str := if neg then ['-'] else []

/-- `"{:.6f}".format(x)` (utils.py:130). -/
def format : Value → Str
  | .fin neg num den => sign neg ++ Nat.toDigits 10 (micro num den / 1000000) ++ '.' :: digits 6 (micro num den % 1000000)
  | .inf neg => sign neg ++ ['i', 'n', 'f']
  | .nan => ['n', 'a', 'n']

/-- A float without sign. -/
def parseAbs (neg : Bool) (s : Str) : Option Value :=
  if s = ['i', 'n', 'f'] then some (.inf neg)
  else match split '.' s with
    | [a, b] =>
      if a ≠ [] ∧ a.all Char.isDigit ∧ b.all Char.isDigit then some (.fin neg (Nat.ofDigitChars 10 (a ++ b) 0) (10 ^ b.length))
      else none
    | _ => none

/-- `float(text)` (utils.py:154). -/
def parseFloat (s : Str) : Option Value :=
  match strip s with
  | '-' :: t => parseAbs true t
  | ['n', 'a', 'n'] => some .nan
  | t => parseAbs false t

/-- `" ".join(texts)`. -/
def join : List Str → Str
  | [] => []
  | [t] => t
  | t :: ts => t ++ ' ' :: join ts

/-- `str(n)` of an integer. -/
def intStr (n : Int) : Str := if n < 0 then '-' :: Nat.toDigits 10 n.natAbs else Nat.toDigits 10 n.toNat

/-- A line (utils.py:129-131). -/
def line (x : Int × List Value) : Str := intStr x.1 ++ '\t' :: join (x.2.map format) ++ ['\n']

/-- `node_embedding_to_string` (utils.py:110-132). -/
def toLines (invalid : Int) (nodes : List Int) (embedding : List (List Value)) : Option (List Str) :=
  if embedding.length = nodes.length then some (((nodes.zip embedding).filter fun x => x.1 != invalid).map line) else none

/-- The file of a worker: `model` gives the embeddings of a batch (tf2_trainer.py:420-445). -/
def inference (model : List Int → List (List Value)) (invalid : Int) (batches : List (List Int)) : Option Str :=
  (batches.mapM fun b => toLines invalid b (model b)).map fun l => l.flatten.flatten

/-- `for line in open(file)`: lines with their line feeds. -/
def fileLines : Str → List Str
  | [] => []
  | c :: cs =>
    if c = '\n' then ['\n'] :: fileLines cs
    else match fileLines cs with
      | [] => [[c]]
      | l :: ls => (c :: l) :: ls

/-- `res[nid] = emb`; negative indices count from the end. -/
def setRow (res : List (List Value)) (nid : Int) (emb : List Value) : Option (List (List Value)) :=
  let i := if nid < 0 then nid + res.length else nid
  if 0 ≤ i ∧ i < res.length then some (res.set i.toNat emb) else none

/-- A line read (utils.py:151-156). -/
def loadLine (dim : Nat) (res : List (List Value)) (s : Str) : Option (List (List Value)) :=
  match split '\t' s with
  | c :: d :: _ =>
    (parseInt (strip c)).bind fun nid => ((split ' ' d).mapM parseFloat).bind fun emb =>
      if emb.length = dim then setRow res nid emb else none
  | _ => none

/-- `load_embeddings` (utils.py:144-158): the files in the order of `glob`. -/
def load (numNodes dim : Nat) (files : List Str) : Option (List (List Value)) :=
  files.foldlM (fun res f => (fileLines f).foldlM (loadLine dim) res)
    (List.replicate numNodes (List.replicate dim (.fin false 0 1)))

end DeepGNN.Embeddings
