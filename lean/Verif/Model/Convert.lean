import Verif.Model.Files
import Verif.Model.Metadata

/-
Conversion by several workers (src/python/deepgnn/graph_engine/snark/convert.py, dispatcher.py): which line goes to
which partition, and the metadata a worker writes.  A file is a name with its lines (what the text reader yields, C31).
Pipes and queues are first in, first out: the schedule only decides in which order the processes report at the end.
Not modelled here: debug mode; failing processes and interruptions (Model/ConvertRun.lean).
-/

namespace DeepGNN.Convert

/-- Offset and number of the partitions of a worker (convert.py:87-92); the number may get negative. -/
def partitionRange (partitions workers worker : Nat) : Nat × Int :=
  let count := (partitions + workers - 1) / workers
  let offset := count * worker
  (offset, if offset + count > partitions then (partitions : Int) - offset else count)

/-- `PipeDispatcher.dispatch` (dispatcher.py:138-147): `st` is the counter and what was sent through the pipes. -/
def pipeDispatch {α : Type} (st : Nat × List (List α)) (line : α) : Nat × List (List α) :=
  let i := st.1 % st.2.length
  (st.1 + 1, st.2.set i (st.2.getD i [] ++ [line]))

/-- What the processes receive (dispatcher.py:108-130, 138-147, converter/process.py:58-67). -/
def pipeLines {α : Type} (parallel : Nat) (lines : List α) : List (List α) :=
  (lines.foldl pipeDispatch (0, List.replicate parallel [])).2

/-- `QueueDispatcher.dispatch` (dispatcher.py:307-320) with a partition function; an index out of range raises. -/
def queueDispatch {α : Type} (part : α → Nat) (st : List (List α)) (line : α) : Option (List (List α)) :=
  if part line < st.length then some (st.set (part line) (st.getD (part line) [] ++ [line])) else none

def queueLines {α : Type} (part : α → Nat) (parallel : Nat) (lines : List α) : Option (List (List α)) :=
  lines.foldlM (queueDispatch part) (List.replicate parallel [])

/-- Files with their lines. -/
abbrev File (α : Type) := Files.Name × List α

/-- The lines a worker reads (convert.py:119-136): its files one after the other. -/
def workerLines {α : Type} (files : List (File α)) (worker workers : Nat) : Option (List α) :=
  (Files.getWorkerFiles (files.map (·.1)) worker workers).map fun names => names.flatMap fun n => (files.lookup n).getD []

/-- `MultiWorkersConverter.convert` (convert.py:112-136): the partitions a worker writes, with the lines of each. -/
def convertWorker {α : Type} (files : List (File α)) (partitions workers worker : Nat) : Option (List (Nat × List α)) :=
  let r := partitionRange partitions workers worker
  if r.2 ≤ 0 then some []
  else (workerLines files worker workers).map fun lines =>
    (pipeLines r.2.toNat lines).zipIdx.map fun x => (x.2 + r.1, x.1)

/-- All workers. -/
def convertAll {α : Type} (files : List (File α)) (partitions workers : Nat) : Option (List (Nat × List α)) :=
  ((List.range workers).mapM (convertWorker files partitions workers)).map List.flatten

/-- What a process reports (converter/process.py:69-86). -/
structure Output where
  id : Nat
  nodeCount : Nat
  edgeCount : Nat
  nodeTypes : Nat
  edgeTypes : Nat
  nodeFeatures : Nat
  edgeFeatures : Nat
  nodeWeight : List Int
  nodePerType : List Nat
  edgeWeight : List Int
  edgePerType : List Nat
deriving DecidableEq, Repr

/-- `l.extend([0] * (n - len))` if the length `len` of the counts is too small (dispatcher.py:172-184). -/
def pad {α : Type} [Zero α] (n len : Nat) (l : List α) : List α := if len < n then l ++ List.replicate (n - len) 0 else l

/-- State of `PipeDispatcher.join` (dispatcher.py:154-170): counts and reports so far. -/
structure Joined where
  nodeCount : Nat := 0
  edgeCount : Nat := 0
  nodeTypes : Nat := 0
  edgeTypes : Nat := 0
  nodeFeatures : Nat := 0
  edgeFeatures : Nat := 0
  partitions : List Output := []

/-- One report (dispatcher.py:156-168). -/
def Joined.add (j : Joined) (o : Output) : Joined :=
  { nodeCount := j.nodeCount + o.nodeCount, edgeCount := j.edgeCount + o.edgeCount,
    nodeTypes := max j.nodeTypes o.nodeTypes, edgeTypes := max j.edgeTypes o.edgeTypes,
    nodeFeatures := max j.nodeFeatures o.nodeFeatures, edgeFeatures := max j.edgeFeatures o.edgeFeatures,
    partitions := j.partitions ++ [o] }

/-- The padding of a report (dispatcher.py:172-184). -/
def Joined.padded (j : Joined) (o : Output) : Output :=
  { o with
    nodePerType := pad j.nodeTypes o.nodePerType.length o.nodePerType
    nodeWeight := pad j.nodeTypes o.nodePerType.length o.nodeWeight
    edgePerType := pad j.edgeTypes o.edgePerType.length o.edgePerType
    edgeWeight := pad j.edgeTypes o.edgePerType.length o.edgeWeight }

/-- Insertion by `id`. -/
def insertId (o : Output) : List Output → List Output
  | [] => [o]
  | p :: l => if o.id ≤ p.id then o :: p :: l else p :: insertId o l

/-- `sorted(partitions, key=lambda x: x["id"])` (convert.py:140). -/
def sortId (l : List Output) : List Output := l.foldr insertId []

/-- `map(add, counts, p)` (convert.py:171-176), truncated to the shorter list. -/
def addCounts (a b : List Nat) : List Nat := List.zipWith (· + ·) a b

/-- The metadata file of a worker (convert.py:161-193): `outs` are the reports in the order of arrival. -/
def workerMeta (watermark : Option Int) (outs : List Output) : MetaFile :=
  let j := outs.foldl Joined.add {}
  let ps := sortId (j.partitions.map j.padded)
  { version := 2, nodeCount := j.nodeCount, edgeCount := j.edgeCount, nodeTypes := j.nodeTypes, edgeTypes := j.edgeTypes,
    nodeFeatures := j.nodeFeatures, edgeFeatures := j.edgeFeatures, watermark := watermark.getD (-1),
    partitions := ps.foldl (fun l p => setKey p.id ⟨p.nodeWeight, p.edgeWeight⟩ l) [],
    nodePerType := ps.foldl (fun c p => addCounts c p.nodePerType) (List.replicate j.nodeTypes 0),
    edgePerType := ps.foldl (fun c p => addCounts c p.edgePerType) (List.replicate j.edgeTypes 0) }

end DeepGNN.Convert
