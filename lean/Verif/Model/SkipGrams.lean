/-
Skip-grams (src/python/deepgnn/graph_engine/graph_ops.py).  A batch of paths is a list of rows of equal length; window
sizes are natural numbers.
-/

namespace DeepGNN.SkipGrams

/-- `get_skipgrams_size` (graph_ops.py:59-67); `none` is the failed assertion. -/
def size (len left right : Nat) : Option Nat :=
  if len > 0 then
    some ((List.range len).foldl (fun count i => count + ((i - max 0 (i - left)) + (min (len - 1) (i + right) - i))) 0)
  else none

/-- State of the loops: the array of pairs (`none`: not written since `np.empty`) and the next index. -/
structure Out (α : Type) where
  pairs : List (Option (α × α))
  idx : Nat

/-- `pairs[idx][0] = path[j]; pairs[idx][1] = path[k]; idx += 1` (graph_ops.py:89-91); `none` is an IndexError. -/
def put {α : Type} (o : Out α) (a b : α) : Option (Out α) :=
  if o.idx < o.pairs.length then some ⟨o.pairs.set o.idx (some (a, b)), o.idx + 1⟩ else none

/-- The innermost loop, `for k in range(left_start, right_end + 1)` (graph_ops.py:86-91), over the remaining values of `k`. -/
def inner {α : Type} (path : List α) (j : Nat) : List Nat → Out α → Option (Out α)
  | [], o => some o
  | k :: ks, o =>
    if k = j then inner path j ks o
    else
      match path[j]?, path[k]? with
      | some a, some b => (put o a b).bind (inner path j ks)
      | _, _ => none

/-- The loop over the positions of one path (graph_ops.py:83-91). -/
def onePath {α : Type} (left : Nat) (path : List α) (len : Nat) : List Nat → Out α → Option (Out α)
  | [], o => some o
  | j :: js, o =>
    let leftStart := max 0 (j - left)
    let rightEnd := min (len - 1) (j + left)
    (inner path j (List.range' leftStart (rightEnd + 1 - leftStart)) o).bind (onePath left path len js)

/-- The loop over the batch (graph_ops.py:80-91). -/
def allPaths {α : Type} (left len : Nat) : List (List α) → Out α → Option (Out α)
  | [], o => some o
  | path :: rest, o => (onePath left path len (List.range len) o).bind (allPaths left len rest)

/-- `gen_skipgrams` (graph_ops.py:70-92); `len` is `paths.shape[1]`. -/
def gen {α : Type} (paths : List (List α)) (len left right : Nat) : Option (List (Option (α × α))) :=
  (size len left right).bind fun n =>
    (allPaths left len paths ⟨List.replicate (paths.length * n) none, 0⟩).map (·.pairs)

end DeepGNN.SkipGrams
