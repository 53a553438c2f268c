/-
The embeddings of letter groups (src/python/deepgnn/pytorch/encoding/twinbert/embedding.py:5-42).  Simplification: one
coordinate of the vectors, with exact integers in place of floats; the coordinates do not interact.
-/

namespace DeepGNN.Letters

/-- `nn.Embedding(size, _)`: `none` is the IndexError. -/
def lookupRow (table : List Int) (i : Nat) : Option Int := table[i]?

/-- `x.view(count, n)` of a flat tensor. -/
def groups {α : Type} (n count : Nat) (l : List α) : List (List α) := (List.range count).map fun i => (l.drop (i * n)).take n

/-- `sum(dim=2)` of one word. -/
def sumWord (w : List Int) : Int := w.foldl (· + ·) 0

/-- `embeddings.view(-1, seq_len, max_letters, hidden)`, then `sum(dim=2)` (embedding.py:36-39), of all numbers of the
batch.  `none`: the sizes do not fit, or the size -1 is not determined. -/
def viewSum (seqLen letters : Nat) (flat : List Int) : Option (List (List Int)) :=
  if seqLen * letters = 0 ∨ flat.length % (seqLen * letters) ≠ 0 then none
  else some ((groups (seqLen * letters) (flat.length / (seqLen * letters)) flat).map fun text =>
    (groups letters seqLen text).map sumWord)

/-- `embeddings + position_embeddings` (embedding.py:40): the numbers of texts must agree, or one of them be 1. -/
def addPositions (words : List (List Int)) (rows : Nat) (pos : List Int) : Option (List (List Int)) :=
  if words.length = rows ∨ rows = 1 then some (words.map fun w => List.zipWith (· + ·) w pos)
  else if words.length = 1 then some (List.replicate rows ((words.map fun w => List.zipWith (· + ·) w pos).headD []))
  else none

/-- `TriletterEmbeddings.forward` (embedding.py:18-42) for ids of shape `[rows, width]`. -/
def forward (letterTable posTable : List Int) (letters width : Nat) (ids : List (List Nat)) : Option (List (List Int)) :=
  if letters = 0 then none
  else
    let seqLen := width / letters
    ((List.range seqLen).mapM fun i => lookupRow posTable (i + 1)).bind fun pos =>
      (ids.flatten.mapM (lookupRow letterTable)).bind fun flat =>
        (viewSum seqLen letters flat).bind fun words => addPositions words ids.length pos

end DeepGNN.Letters
