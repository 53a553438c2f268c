import Verif.Model.Samplers
import Verif.Model.TextReader

/-
Datasets (src/python/deepgnn/graph_engine/graph_dataset.py, src/python/deepgnn/pytorch/common/dataset.py) and the
samplers they create (src/python/deepgnn/graph_engine/samplers.py).
An argument is an integer: booleans are 0 and 1, other objects (graph clients, names, functions) are opaque numbers.
Sizes, counts and indices are not negative.  Not modelled: prefetching (Verif/Model/Prefetch.lean).
-/

namespace DeepGNN.Datasets

open Samplers

/-- Names of the parameters of datasets and samplers. -/
inductive Key
  | graph | nodeTypes | edgeTypes | edgeType | sampleNum | strategy | batchSize | epochs | epoch | shuffle | dropLast
  | backfillId | backfill | workerIndex | numWorkers | parallelNum | parallelIndex | sampleFiles | sampleFile | filename
  | delimeter | featureDim | featureType | first | last | storeName | adlConfig | bufferSize | readBlock | queueSize
  | lineParser
deriving DecidableEq, Repr

/-- Keyword arguments of a call. -/
abbrev Args := Key → Option Int

/-- `kwargs.update({k: v})`. -/
def Args.set (a : Args) (k : Key) (v : Int) : Args := fun k' => if k' = k then some v else a k'

/-- A `DeepGNNDataset` (graph_dataset.py:58-89). -/
structure Dataset where
  numWorkers : Int
  workerIndex : Int
  batchSize : Int
  epochs : Int
  graph : Option Int
  kwargs : Args

/-- The parameters `DeepGNNDataset.__init__` names; they are not among `kwargs` (graph_dataset.py:58-72).  The others it
names are no parameters of a sampler. -/
def named : Key → Bool
  | .numWorkers | .workerIndex | .batchSize | .epochs => true
  | _ => false

/-- `DeepGNNDataset(**call)` with the graph of the backend (graph_dataset.py:58-94, dataset.py:25-49). -/
def Dataset.new (graph : Option Int) (call : Args) : Dataset :=
  { numWorkers := (call .numWorkers).getD 1, workerIndex := (call .workerIndex).getD 0,
    batchSize := (call .batchSize).getD 1, epochs := (call .epochs).getD 1, graph,
    kwargs := fun k => if named k then none else call k }

/-- `getattr(self, key)`, if there is such an attribute (graph_dataset.py:75-87). -/
def Dataset.attr (d : Dataset) : Key → Option Int
  | .numWorkers => some d.numWorkers
  | .workerIndex => some d.workerIndex
  | .batchSize => some d.batchSize
  | .epochs => some d.epochs
  | .graph => d.graph
  | _ => none

/-- The loop of `init_sampler` (graph_dataset.py:96-111) over the parameters of the sampler; the one annotated as a
graph is `graph`.  `none`: there is no graph. -/
def Dataset.samplerArgs (d : Dataset) : List Key → Option (List (Key × Int))
  | [] => some []
  | k :: ks =>
    if k = .graph then
      match d.graph with
      | none => none
      | some g => (d.samplerArgs ks).map ((k, g) :: ·)
    else
      match d.kwargs k with
      | some v => (d.samplerArgs ks).map ((k, v) :: ·)
      | none =>
        match d.attr k with
        | some v => (d.samplerArgs ks).map ((k, v) :: ·)
        | none => d.samplerArgs ks

/-- Parameters of `__init__` of a sampler with their default values. -/
abbrev Sig := List (Key × Option Int)

/-- `sampler_class(**sampler_args)` (graph_dataset.py:113): what `__init__` sees.  `none`: an argument is missing. -/
def Sig.bind (sig : Sig) (args : List (Key × Int)) : Option (Key → Int) :=
  if sig.all fun p => p.2.isSome || (args.lookup p.1).isSome then
    some fun k => (args.lookup k).getD (((sig.lookup k).getD none).getD 0)
  else none

/-- `init_sampler` (graph_dataset.py:96-113): the arguments of the sampler. -/
def Dataset.initSampler (d : Dataset) (sig : Sig) : Option (Key → Int) :=
  (d.samplerArgs (sig.map (·.1))).bind sig.bind

/-- `TorchDeepGNNDataset._torch_init_sampler` (dataset.py:69-81): `info` is the index of this loader process and their
number, nothing in a loader without processes. -/
def Dataset.torchInit (d : Dataset) (info : Option (Nat × Nat)) (sig : Sig) : Option (Key → Int) :=
  match info with
  | none => d.initSampler sig
  | some (id, num) => { d with kwargs := (d.kwargs.set .parallelIndex id).set .parallelNum num }.initSampler sig

/-- `get_worker_info()` in the process `i` of a loader with `n` processes. -/
def workerInfo (n i : Nat) : Option (Nat × Nat) := if n = 0 then none else some (i, n)

/-- Arguments of the sampler of the loader process `i` out of `n` of the training worker `w` out of `workers`, all of them
called with `call` otherwise. -/
def argsOf (graph : Option Int) (call : Args) (sig : Sig) (workers n w i : Nat) : Option (Key → Int) :=
  (Dataset.new graph ((call.set .numWorkers workers).set .workerIndex w)).torchInit (workerInfo n i) sig

/-- `_DeepGNNDatasetIterator.__next__` (graph_dataset.py:50-53). -/
def queried {α β σ : Type} (query : α → β) (next : σ → Option (α × σ)) (s : σ) : Option (β × σ) :=
  (next s).map fun r => (query r.1, r.2)

/-! ### Samplers over arrays -/

/-- `FileNodeSampler.__init__` (samplers.py:445-457). -/
def fileNodeSig : Sig :=
  [(.sampleFiles, none), (.batchSize, none), (.epochs, some 1), (.shuffle, some 0), (.dropLast, some 0),
    (.backfillId, some (-1)), (.workerIndex, some 0), (.numWorkers, some 1), (.parallelNum, some 1), (.parallelIndex, some 0)]

/-- `FileEdgeSampler.__init__` (samplers.py:314-330). -/
def fileEdgeSig : Sig :=
  [(.edgeType, none), (.sampleFiles, none), (.batchSize, none), (.epochs, some 1), (.shuffle, some 0), (.delimeter, some 0),
    (.featureDim, some 0), (.featureType, some 0), (.dropLast, some 0), (.backfillId, some (-1)), (.workerIndex, some 0),
    (.numWorkers, some 1), (.parallelNum, some 1), (.parallelIndex, some 0)]

/-- `FileTupleSampler.__init__` (samplers.py:751-763). -/
def fileTupleSig : Sig :=
  [(.filename, none), (.batchSize, none), (.epochs, some 1), (.shuffle, some 0), (.dropLast, some 0), (.backfill, some (-1)),
    (.workerIndex, some 0), (.numWorkers, some 1), (.parallelNum, some 1), (.parallelIndex, some 0)]

/-- `FileTupleSamplerV2.__init__` (samplers.py:963-978). -/
def fileTupleV2Sig : Sig :=
  [(.filename, none), (.batchSize, none), (.epochs, some 1), (.shuffle, some 0), (.dropLast, some 0), (.backfill, some (-1)),
    (.workerIndex, some 0), (.numWorkers, some 1), (.lineParser, some 0), (.parallelNum, some 1), (.parallelIndex, some 0)]

/-- `iter(sampler)` over rows: `_NumpyIterator` and its first offset (samplers.py:238-260); `none`: there are no
rows.  `perm e n` is the permutation of `n` rows
drawn for epoch `e`, used with `shuffle`. -/
def arrayIter {α : Type} (rows : List α) (backfill : α) (perm : Nat → Nat → List Nat) (a : Key → Int) :
    Option (ArrayIter α × Nat) :=
  if rows.length > 0 then
    let it : ArrayIter α :=
      { data := rows, order := fun e => if a .shuffle ≠ 0 then perm e rows.length else List.range rows.length,
        batch := (a .batchSize).toNat, epochs := (a .epochs).toNat, backfill, dropLast := decide (a .dropLast ≠ 0),
        num := (a .parallelNum).toNat }
    some (it, it.start (a .parallelIndex).toNat)
  else none

/-- The rows of `FileNodeSampler` and `FileEdgeSampler` (samplers.py:361-382, 484-488): those of the files of the
worker.  `content` has the rows of a file. -/
def fileRows {α : Type} (listing : List Files.Name) (content : Files.Name → List α) (a : Key → Int) : Option (List α) :=
  (Files.getFiles listing (a .workerIndex).toNat (a .numWorkers).toNat).map fun fs => fs.flatMap content

/-- `FileNodeSampler` (samplers.py:437-513). -/
def fileNodes (listing : List Files.Name) (content : Files.Name → List Int) (perm : Nat → Nat → List Nat) (a : Key → Int) :
    Option (ArrayIter Int × Nat) :=
  (fileRows listing content a).bind fun rows => arrayIter rows (a .backfillId) perm a

/-- `FileEdgeSampler` (samplers.py:306-434): a row has the edge and its features; with features `drop_last` is not passed
on.  The row for the backfill has the id twice, the edge type and zeros. -/
def fileEdges {φ : Type} (zeros : φ) (listing : List Files.Name) (content : Files.Name → List (Int × Int × φ))
    (perm : Nat → Nat → List Nat) (a : Key → Int) : Option (ArrayIter ((Int × Int × Int) × φ) × Nat) :=
  (fileRows listing content a).bind fun rows =>
    (arrayIter (rows.map fun r => ((r.1, r.2.1, a .edgeType), r.2.2)) ((a .backfillId, a .backfillId, a .edgeType), zeros)
      perm a).map fun p => (fileEdgeIter (a .featureDim).toNat p.1, p.2)

/-- `_load_tuple_file` (samplers.py:797-807, 1007-1036): the lines of the worker; `cnt` is the number of the line.
`none`: a line is not parsed. -/
def tupleRows {κ α : Type} (parse : κ → Option α) (worker workers : Nat) : Nat → List κ → Option (List α)
  | _, [] => some []
  | cnt, l :: ls =>
    if cnt % workers = worker then
      match parse l with
      | none => none
      | some p => (tupleRows parse worker workers (cnt + 1) ls).map (p :: ·)
    else tupleRows parse worker workers (cnt + 1) ls

/-- `FileTupleSampler` (samplers.py:743-835). -/
def fileTuples {κ : Type} (parse : κ → Option (Int × Int)) (lines : List κ) (perm : Nat → Nat → List Nat) (a : Key → Int) :
    Option (ArrayIter (Int × Int) × Nat) :=
  (tupleRows parse (a .workerIndex).toNat (a .numWorkers).toNat 0 lines).bind fun rows =>
    arrayIter rows (a .backfill, a .backfill) perm a

/-- `FileTupleSamplerV2` (samplers.py:960-1068): a row is a list of parts, all rows have equally many
(samplers.py:1019-1024); a part of the backfill row is filled with `backfill`. -/
def fileTuplesV2 {κ φ : Type} (fill : Int → φ) (parse : κ → Option (List φ)) (lines : List κ) (perm : Nat → Nat → List Nat)
    (a : Key → Int) : Option (ArrayIter (List φ) × Nat) :=
  (tupleRows parse (a .workerIndex).toNat (a .numWorkers).toNat 0 lines).bind fun rows =>
    match rows with
    | [] => none
    | r :: _ =>
      if rows.all fun r' => r'.length == r.length then
        arrayIter rows (List.replicate r.length (fill (a .backfill))) perm a
      else none

/-! ### Samplers over ranges, CSV files and the graph -/

/-- `RangeNodeSampler.__init__` (samplers.py:555-567). -/
def rangeSig : Sig :=
  [(.first, none), (.last, none), (.batchSize, none), (.workerIndex, none), (.numWorkers, none), (.backfillId, none),
    (.parallelNum, some 1), (.parallelIndex, some 0)]

/-- `iter(RangeNodeSampler(...))` (samplers.py:552-592). -/
def rangeNodes (a : Key → Int) : Option (RangeIter × Nat) :=
  let it : RangeIter :=
    { first := (a .first).toNat, last := (a .last).toNat, batch := (a .batchSize).toNat, workers := (a .numWorkers).toNat,
      backfill := a .backfillId, num := (a .parallelNum).toNat }
  (it.start (a .workerIndex).toNat (a .parallelIndex).toNat).map fun s => (it, s)

/-- `CSVNodeSampler.__init__` (samplers.py:685-692). -/
def csvSig : Sig :=
  [(.batchSize, none), (.sampleFile, none), (.epoch, some 1), (.parallelNum, some 1), (.parallelIndex, some 0)]

/-- `CSVNodeSampler` (samplers.py:682-743). -/
def csvNodes {α : Type} (rows : List α) (a : Key → Int) : CsvIter α :=
  { rows, batch := (a .batchSize).toNat, epoch := (a .epoch).toNat, num := (a .parallelNum).toNat,
    index := (a .parallelIndex).toNat }

/-- `GENodeSampler.__init__` (samplers.py:130-141). -/
def geNodeSig : Sig :=
  [(.graph, none), (.nodeTypes, none), (.batchSize, none), (.epochs, none), (.sampleNum, some (-1)), (.numWorkers, some 1),
    (.strategy, some 0), (.parallelNum, some 1), (.parallelIndex, some 0)]

/-- `GEEdgeSampler.__init__` (samplers.py:187-198). -/
def geEdgeSig : Sig :=
  [(.graph, none), (.edgeTypes, none), (.batchSize, none), (.epochs, none), (.sampleNum, some (-1)), (.numWorkers, some 1),
    (.strategy, some 0), (.parallelNum, some 1), (.parallelIndex, some 0)]

/-- The number of batches of `GENodeSampler` and `GEEdgeSampler` (samplers.py:154-160, 212-218); `total` is the number of
nodes or edges of the types in the graph. -/
def geCount (total : Nat) (a : Key → Int) : Nat :=
  let sampleNum := if a .sampleNum = -1 then total else (a .sampleNum).toNat
  ceilDiv ((a .epochs).toNat * sampleNum) ((a .batchSize).toNat * (a .numWorkers).toNat * (a .parallelNum).toNat)

/-- `_GEIterator.__next__` (samplers.py:59-64); the state is `count`, `draw k` the answer of the graph with `k` calls to
come. -/
def geNext {α : Type} (draw : Nat → List α) (count : Nat) : Option (List α × Nat) :=
  match count with
  | 0 => none
  | count + 1 => some (draw count, count)

/-! ### Samplers over text files -/

/-- `TextFileSampler.__init__` (samplers.py:841-857). -/
def textSig : Sig :=
  [(.storeName, none), (.filename, none), (.adlConfig, some 0), (.batchSize, some 512), (.bufferSize, some 1024),
    (.epochs, some 1), (.shuffle, some 0), (.dropLast, some 0), (.workerIndex, some 0), (.numWorkers, some 1),
    (.readBlock, some 50), (.queueSize, some 3), (.parallelNum, some 1), (.parallelIndex, some 0)]

/-- State of `TextFileSampler`: `buf`, `end`, the reader and the number of calls of `random.shuffle`. -/
structure TextState where
  buf : List Text.Bytes
  done : Bool
  reader : Text.Reader
  calls : Nat

/-- The loop of `TextFileSampler.__next__` (samplers.py:910-918); also says whether lines were added.  Every batch has a
line: `size` rounds are enough. -/
def fillBuffer (k size : Nat) (dropLast : Bool) : Nat → TextState → Bool → TextState × Bool
  | 0, st, added => (st, added)
  | fuel + 1, st, added =>
    if st.done = false ∧ st.buf.length < size then
      match Text.next k dropLast st.reader with
      | some (b, r) => fillBuffer k size dropLast fuel { st with buf := st.buf ++ b, reader := r } true
      | none => ({ st with done := true }, added)
    else (st, added)

/-- `TextFileSampler.__next__` (samplers.py:905-929): `shuf c` is what the call number `c` of `random.shuffle` does. -/
def textNext (k size : Nat) (dropLast shuffle : Bool) (shuf : Nat → List Text.Bytes → List Text.Bytes) (st : TextState) :
    Option (List Text.Bytes × TextState) :=
  if st.done ∧ st.buf.length = 0 then none
  else
    let r := fillBuffer k size dropLast (size + 1) st false
    let st := if shuffle ∧ r.2 then { r.1 with buf := shuf r.1.calls r.1.buf, calls := r.1.calls + 1 } else r.1
    let batch := st.buf.take k
    some (batch ++ List.replicate (k - batch.length) [], { st with buf := st.buf.drop k })

/-- `iter(TextFileSampler(...))` (samplers.py:859-899, 931-935, _adl_reader.py:100-142): `order e fs` is the order of the files in
epoch `e` with `shuffle`; `len` is the size of a block, `threads + 1` the number of reading threads. -/
def textStart (listing : List Files.Name) (content : Files.Name → Text.Bytes) (order : Nat → List Files.Name → List Files.Name)
    (len threads : Nat) (a : Key → Int) : Option TextState :=
  (Files.getWorkerFiles listing ((a .workerIndex).toNat * (a .parallelNum).toNat + (a .parallelIndex).toNat)
    ((a .numWorkers).toNat * (a .parallelNum).toNat)).map fun fs =>
      { buf := [], done := false, calls := 0,
        reader := Text.start len threads ((List.range (a .epochs).toNat).flatMap fun e =>
          ((if a .shuffle ≠ 0 then order e fs else fs).map content)) }

/-- `buffer_size` (samplers.py:884-885). -/
def textBuffer (a : Key → Int) : Nat :=
  let least := (a .batchSize).toNat * 3
  if (a .bufferSize).toNat ≥ least then (a .bufferSize).toNat else least

/-- `__next__` of the sampler with arguments `a`. -/
def textIter (shuf : Nat → List Text.Bytes → List Text.Bytes) (a : Key → Int) : TextState → Option (List Text.Bytes × TextState) :=
  textNext (a .batchSize).toNat (textBuffer a) (decide (a .dropLast ≠ 0)) (decide (a .shuffle ≠ 0)) shuf

end DeepGNN.Datasets
