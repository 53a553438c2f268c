import Verif.Model.Files

/-
Samplers over arrays, ranges and CSV files (src/python/deepgnn/graph_engine/samplers.py).
An iterator is a function `next` from its state to the next batch and state, or `none` for `StopIteration`.
Divisions by `/` before `math.ceil` and `math.floor` are modelled without rounding (exact below 2^53).
Batch sizes and numbers of data-parallel workers are positive.
-/

namespace DeepGNN.Samplers

open Files (pyRange)

/-- A `for` loop over an iterator in state `s` sees the batches `out`. -/
inductive Yields {β σ : Type} (next : σ → Option (β × σ)) : σ → List β → Prop
  | stop {s} : next s = none → Yields next s []
  | more {s s' x out} : next s = some (x, s') → Yields next s' out → Yields next s (x :: out)

/-- `math.ceil(a / b)`. -/
def ceilDiv (a b : Nat) : Nat := (a + b - 1) / b

/-- `_NumpyIterator.__build_index` (samplers.py:262-267): `order e` is `np.arange(length)`, or the permutation
drawn for epoch `e`. -/
def buildIndex (order : Nat → List Nat) (epochs : Nat) : List Nat := (List.range epochs).flatMap order

/-- `d[idx_slice]`: an index out of range would raise; all entries of the index are in range. -/
def gather {α : Type} (data : List α) (backfill : α) (idx : List Nat) : List α := idx.map fun i => data.getD i backfill

/-- Arguments of `_NumpyIterator` (samplers.py:238-260).  A row of `data` has the entries of all the arrays at an index;
`backfill` has the backfill values of all of them. -/
structure ArrayIter (α : Type) where
  data : List α
  order : Nat → List Nat
  batch : Nat
  epochs : Nat
  backfill : α
  dropLast : Bool
  num : Nat

/-- `_NumpyIterator.__next__` (samplers.py:273-303); the state is `offset`. -/
def ArrayIter.next {α : Type} (it : ArrayIter α) (offset : Nat) : Option (List α × Nat) :=
  let idx := buildIndex it.order it.epochs
  let total := it.epochs * it.data.length
  if offset ≥ total then none
  else if offset + it.batch ≤ total then
    some (gather it.data it.backfill ((idx.drop offset).take it.batch), offset + it.num * it.batch)
  else if it.dropLast then none
  else
    let res := gather it.data it.backfill (idx.drop offset)
    some (res ++ List.replicate (it.batch - res.length) it.backfill, offset + it.num * it.batch)

/-- `_NumpyIterator.__init__` (samplers.py:260): the first offset of a data-parallel worker. -/
def ArrayIter.start {α : Type} (it : ArrayIter α) (index : Nat) : Nat := index * it.batch

/-- `FileNodeSampler.__len__` and `FileEdgeSampler.__len__` (samplers.py:384-397, 499-513). -/
def ArrayIter.len {α : Type} (it : ArrayIter α) : Nat :=
  if it.dropLast then it.data.length * it.epochs / (it.batch * it.num)
  else ceilDiv (it.data.length * it.epochs) (it.batch * it.num)

/-- `FileEdgeSampler.__iter__` (samplers.py:399-434): with features `drop_last` is not passed on. -/
def fileEdgeIter {α : Type} (featureDim : Nat) (it : ArrayIter α) : ArrayIter α :=
  if featureDim = 0 then it else { it with dropLast := false }

/-- `res[k:] = value`. -/
def fillFrom (k : Nat) (v : Int) (l : List Int) : List Int := l.take k ++ List.replicate (l.length - k) v

/-- Arguments of `RangeNodeSampler` (samplers.py:555-582).  Ids are natural numbers here. -/
structure RangeIter where
  first : Nat
  last : Nat
  batch : Nat
  workers : Nat
  backfill : Int
  num : Nat

/-- `_RangeNodeIterator.__next__` (samplers.py:538-549); the state is `first`. -/
def RangeIter.next (it : RangeIter) (first : Nat) : Option (List Int × Nat) :=
  if first ≥ it.last then none
  else
    let last := first + it.batch * it.num
    let res := (pyRange first last it.num).map Int.ofNat
    some (if last > it.last then fillFrom ((it.last - first) / it.num) it.backfill res else res,
      first + it.workers * it.batch * it.num)

/-- The first id of a data-parallel worker of a worker (samplers.py:530, 579); `none` if the assertion fails
(samplers.py:581). -/
def RangeIter.start (it : RangeIter) (worker index : Nat) : Option Nat :=
  if it.first + worker * it.batch < it.last then some (it.first + worker * it.batch + index) else none

/-- `RangeNodeSampler.__len__` (samplers.py:594-600). -/
def RangeIter.len (it : RangeIter) (worker : Nat) : Nat :=
  ceilDiv (it.last - (it.first + worker * it.batch)) (it.batch * it.workers * it.num)

/-- `nodes.reshape(-1, 2)` (samplers.py:634); an odd number of entries raises. -/
def pairs : List Int → Option (List (Int × Int))
  | [] => some []
  | [_] => none
  | a :: b :: l => (pairs l).map ((a, b) :: ·)

/-- `_RangeEdgeIterator.__next__` (samplers.py:631-637): `it` has twice the batch size (samplers.py:660).  The constant
column with the edge type is left out. -/
def RangeIter.nextEdges (it : RangeIter) (first : Nat) : Option (List (Int × Int) × Nat) :=
  (it.next first).bind fun r => (pairs r.1).map fun e => (e, r.2)

/-- Arguments of `CSVNodeSampler` (samplers.py:685-717): the rows of the file. -/
structure CsvIter (α : Type) where
  rows : List α
  batch : Nat
  epoch : Nat
  num : Nat
  index : Nat

/-- `CSVNodeSampler.__next__` (samplers.py:723-739); the state is `cur_batch`. -/
def CsvIter.next {α : Type} (it : CsvIter α) (cur : Nat) : Option (List α × Nat) :=
  let start := cur * it.batch * it.num + it.index
  if start ≥ it.rows.length then none
  else
    let stop := (cur + 1) * it.batch * it.num + it.index
    let stop := if stop ≥ it.rows.length then it.rows.length else stop
    some ((pyRange start stop it.num).filterMap fun i => it.rows[i]?, cur + 1)

/-- `CSVNodeSampler.__len__` (samplers.py:713-717, 741-743). -/
def CsvIter.len {α : Type} (it : CsvIter α) : Nat :=
  (it.rows.length + it.batch - 1) / (it.batch * it.num) * it.epoch

end DeepGNN.Samplers
