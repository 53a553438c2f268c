import Verif.Model.Float

/-
Graph metadata: the file meta.json, its readers and writers, the copy sent from a server to a client
(src/cc/lib/graph/metadata.cc, src/cc/lib/distributed, src/python/deepgnn/graph_engine/snark/meta.py)
and the merge of the files of several converter workers (meta_merger.py).
Not modelled: the JSON text (numbers are printed and parsed exactly), HDFS; the version string is its
number; counts are natural numbers without upper bound.  A weight that is not in the file is the same
as a list which is too short: reading it fails.
-/

namespace DeepGNN

/-- Weights of one partition in meta.json. -/
structure PartWeights where
  node : List Int
  edge : List Int
deriving DecidableEq, Repr

/-- Content of meta.json (src/python/deepgnn/graph_engine/snark/convert.py:161-193); keys of `partitions` are decimal
numbers. -/
structure MetaFile where
  version : Nat
  nodeCount : Nat
  edgeCount : Nat
  nodeTypes : Nat
  edgeTypes : Nat
  nodeFeatures : Nat
  edgeFeatures : Nat
  watermark : Int
  partitions : List (Nat × PartWeights)
  nodePerType : List Nat
  edgePerType : List Nat
deriving DecidableEq, Repr

/-- `struct Metadata` (src/cc/lib/graph/metadata.h:18-44). -/
structure Metadata where
  version : Nat
  nodeCount : Nat
  edgeCount : Nat
  nodeTypes : Nat
  edgeTypes : Nat
  nodeFeatures : Nat
  edgeFeatures : Nat
  watermark : Int
  partitionCount : Nat
  nodeWeights : List (List Int)
  edgeWeights : List (List Int)
  nodePerType : List Nat
  edgePerType : List Nat
deriving DecidableEq, Repr

/-- `MINIMUM_SUPPORTED_VERSION` (src/cc/lib/graph/metadata.h:16). -/
def minVersion : Nat := 2

/-- The first `n` elements of a JSON array; a missing element is `null` and its conversion throws
(metadata.cc:90-97, 101-109). -/
def readArray {α : Type} (n : Nat) (l : List α) : Option (List α) := if n ≤ l.length then some (l.take n) else none

/-- `meta["partitions"][p]`; an absent key gives `null` (metadata.cc:92, 96). -/
def MetaFile.partition (f : MetaFile) (p : Nat) : PartWeights := (f.partitions.lookup p).getD ⟨[], []⟩

/-- `Metadata::Metadata` (metadata.cc:18-110): the weights become floats. -/
def readMeta (skipFeatures skipTemporal : Bool) (f : MetaFile) : Option Metadata :=
  if f.version < minVersion then none
  else
    ((List.range f.partitions.length).mapM fun p => readArray f.nodeTypes (f.partition p).node).bind fun nw =>
    ((List.range f.partitions.length).mapM fun p => readArray f.edgeTypes (f.partition p).edge).bind fun ew =>
    (readArray f.nodeTypes f.nodePerType).bind fun nt =>
    (readArray f.edgeTypes f.edgePerType).map fun et =>
    { version := f.version, nodeCount := f.nodeCount, edgeCount := f.edgeCount, nodeTypes := f.nodeTypes,
      edgeTypes := f.edgeTypes, nodeFeatures := if skipFeatures then 0 else f.nodeFeatures,
      edgeFeatures := if skipFeatures then 0 else f.edgeFeatures,
      watermark := if skipTemporal then -1 else f.watermark, partitionCount := f.partitions.length,
      nodeWeights := nw.map (·.map f32), edgeWeights := ew.map (·.map f32), nodePerType := nt, edgePerType := et }

/-- Assignment to a key of a JSON object (metadata.cc:130-135); the order of the keys of the object is not kept. -/
def setKey {α : Type} (k : Nat) (v : α) : List (Nat × α) → List (Nat × α)
  | [] => [(k, v)]
  | (k', v') :: l => if k' = k then (k, v) :: l else (k', v') :: setKey k v l

/-- `Metadata::Write` (metadata.cc:112-143).  The object starts with a partition "0" without edge weights; reading past
the vectors of weights is undefined. -/
def writeMeta (m : Metadata) : Option MetaFile :=
  ((List.range m.partitionCount).mapM fun p => (m.nodeWeights[p]?).bind fun n => (m.edgeWeights[p]?).map fun e =>
      (p, PartWeights.mk n e)).map fun ps =>
    { version := m.version, nodeCount := m.nodeCount, edgeCount := m.edgeCount, nodeTypes := m.nodeTypes,
      edgeTypes := m.edgeTypes, nodeFeatures := m.nodeFeatures, edgeFeatures := m.edgeFeatures,
      watermark := m.watermark, partitions := ps.foldl (fun l x => setKey x.1 x.2 l) [(0, ⟨[0], []⟩)],
      nodePerType := m.nodePerType, edgePerType := m.edgePerType }

/-- `MetadataReply` (src/cc/lib/distributed/service.proto). -/
structure MetaReply where
  version : Nat
  nodes : Nat
  edges : Nat
  nodeTypes : Nat
  edgeTypes : Nat
  partitions : Nat
  nodeFeatures : Nat
  edgeFeatures : Nat
  nodeWeights : List Int
  edgeWeights : List Int
  nodePerType : List Nat
  edgePerType : List Nat
  watermark : Int
deriving DecidableEq, Repr

/-- `GraphEngineServiceImpl::GetMetadata` (src/cc/lib/distributed/graph_engine.cc:691-722). -/
def getMetadata (m : Metadata) : MetaReply :=
  { version := m.version, nodes := m.nodeCount, edges := m.edgeCount, nodeTypes := m.nodeTypes,
    edgeTypes := m.edgeTypes, partitions := m.partitionCount, nodeFeatures := m.nodeFeatures,
    edgeFeatures := m.edgeFeatures, nodeWeights := m.nodeWeights.flatten, edgeWeights := m.edgeWeights.flatten,
    nodePerType := m.nodePerType, edgePerType := m.edgePerType, watermark := m.watermark }

/-- The loop over the partitions (src/cc/lib/distributed/client.cc:1061-1074) for one of the arrays: `k` rows of `n`
elements; reading past the end is undefined. -/
def splitRows (n : Nat) : Nat → List Int → Option (List (List Int))
  | 0, _ => some []
  | k + 1, l => if l.length < n then none else (splitRows n k (l.drop n)).map (l.take n :: ·)

/-- The callback of `GRPCClient::WriteMetadata` (client.cc:1042-1077). -/
def metaOfReply (r : MetaReply) : Option Metadata :=
  (splitRows r.nodeTypes r.partitions r.nodeWeights).bind fun nw =>
  (splitRows r.edgeTypes r.partitions r.edgeWeights).map fun ew =>
  { version := r.version, nodeCount := r.nodes, edgeCount := r.edges, nodeTypes := r.nodeTypes,
    edgeTypes := r.edgeTypes, nodeFeatures := r.nodeFeatures, edgeFeatures := r.edgeFeatures,
    watermark := r.watermark, partitionCount := r.partitions, nodeWeights := nw, edgeWeights := ew,
    nodePerType := r.nodePerType, edgePerType := r.edgePerType }

/-- `GRPCClient::WriteMetadata` (client.cc:1034-1084): the file the client writes; only the first server is asked. -/
def downloadMeta (servers : List Metadata) : Option MetaFile :=
  servers.head?.bind fun m => (metaOfReply (getMetadata m)).bind writeMeta

/-- What python reads from meta.json (src/python/deepgnn/graph_engine/snark/meta.py:154-199); the double precision sums
of weights are exact. -/
structure PyMeta where
  nodeCount : Nat
  edgeCount : Nat
  nodeTypes : Nat
  edgeTypes : Nat
  nodeFeatures : Nat
  edgeFeatures : Nat
  partitionCount : Nat
  nodeWeights : List Int
  edgeWeights : List Int
  nodePerType : List Nat
  edgePerType : List Nat
  watermark : Int
deriving DecidableEq, Repr

/-- `for i in range(n): row[i] += weights[i]` (meta.py:190-194, meta_merger.py:61-64); `row` has `n` elements. -/
def addWeights (row weights : List Int) : Option (List Int) :=
  (readArray row.length weights).map fun w => List.zipWith (· + ·) row w

/-- `Meta.__init__` (meta.py:157-199). -/
def pyMeta (f : MetaFile) : Option PyMeta :=
  (f.partitions.foldlM (fun row p => addWeights row p.2.node) (List.replicate f.nodeTypes 0)).bind fun nw =>
  (f.partitions.foldlM (fun row p => addWeights row p.2.edge) (List.replicate f.edgeTypes 0)).map fun ew =>
  { nodeCount := f.nodeCount, edgeCount := f.edgeCount, nodeTypes := f.nodeTypes, edgeTypes := f.edgeTypes,
    nodeFeatures := f.nodeFeatures, edgeFeatures := f.edgeFeatures, partitionCount := f.partitions.length,
    nodeWeights := nw, edgeWeights := ew, nodePerType := f.nodePerType, edgePerType := f.edgePerType,
    watermark := f.watermark }

/-- The class `Meta` of the merger (src/python/deepgnn/graph_engine/snark/meta_merger.py:30-69). -/
structure WorkerMeta where
  version : Nat
  nodeCount : Nat
  edgeCount : Nat
  nodeTypes : Nat
  edgeTypes : Nat
  nodeFeatures : Nat
  edgeFeatures : Nat
  partitionCount : Nat
  nodeWeights : List (List Int)
  edgeWeights : List (List Int)
  nodePerType : List Nat
  edgePerType : List Nat
  watermark : Int
deriving DecidableEq, Repr

/-- `Meta.__init__` of the merger (meta_merger.py:33-69).  `[[0.0] * n] * k` holds `k` references to one list: all
partitions are added to this list. -/
def loadWorker (f : MetaFile) : Option WorkerMeta :=
  (f.partitions.foldlM (fun row p => addWeights row p.2.node) (List.replicate f.nodeTypes 0)).bind fun nw =>
  (f.partitions.foldlM (fun row p => addWeights row p.2.edge) (List.replicate f.edgeTypes 0)).map fun ew =>
  { version := f.version, nodeCount := f.nodeCount, edgeCount := f.edgeCount, nodeTypes := f.nodeTypes,
    edgeTypes := f.edgeTypes, nodeFeatures := f.nodeFeatures, edgeFeatures := f.edgeFeatures,
    partitionCount := f.partitions.length, nodeWeights := List.replicate f.partitions.length nw,
    edgeWeights := List.replicate f.partitions.length ew, nodePerType := f.nodePerType, edgePerType := f.edgePerType,
    watermark := f.watermark }

/-- `Meta.get_partition` (meta_merger.py:71-79). -/
def WorkerMeta.getPartition (w : WorkerMeta) (offset : Nat) : List (Nat × PartWeights) × Nat :=
  ((List.range w.partitionCount).map fun i => (offset + i, ⟨w.nodeWeights.getD i [], w.edgeWeights.getD i []⟩),
    offset + w.partitionCount)

/-- The loop over the workers (meta_merger.py:97-99). -/
def mergePartitions (ws : List WorkerMeta) : List (Nat × PartWeights) × Nat :=
  ws.foldl (fun st w => ((w.getPartition st.2).1.foldl (fun l x => setKey x.1 x.2 l) st.1, (w.getPartition st.2).2)) ([], 0)

/-- `[sum([i.counts[t] for i in meta_list]) for t in range(n)]` (meta_merger.py:101-108). -/
def sumPerType (n : Nat) (counts : List (List Nat)) : Option (List Nat) :=
  (List.range n).mapM fun t => (counts.mapM fun c => c[t]?).map List.sum

/-- `merge` (meta_merger.py:82-111): the file that is written. -/
def mergeWorkers (ws : List WorkerMeta) : Option MetaFile :=
  match ws with
  | [] => none
  | w :: _ =>
    if ws.all (fun x => x.version == w.version) then
      (sumPerType w.nodeTypes (ws.map (·.nodePerType))).bind fun nt =>
      (sumPerType w.edgeTypes (ws.map (·.edgePerType))).map fun et =>
      { version := w.version, nodeCount := (ws.map (·.nodeCount)).sum, edgeCount := (ws.map (·.edgeCount)).sum,
        nodeTypes := w.nodeTypes, edgeTypes := w.edgeTypes, nodeFeatures := w.nodeFeatures,
        edgeFeatures := w.edgeFeatures, watermark := w.watermark, partitions := (mergePartitions ws).1,
        nodePerType := nt, edgePerType := et }
    else none

/-- The part of the file name `meta_<worker>.json` (convert.py:185-190) after "meta_", up to the dot. -/
def workerName (i : Nat) : List Nat := (Nat.toDigits 10 i).map Char.toNat ++ ['.'.toNat]

/-- Order of strings. -/
def nameLe : List Nat → List Nat → Bool
  | [], _ => true
  | _ :: _, [] => false
  | a :: as, b :: bs => a < b || (a == b && nameLe as bs)

/-- Insertion into a list of files sorted by name. -/
def insertName {α : Type} (x : Nat × α) : List (Nat × α) → List (Nat × α)
  | [] => [x]
  | y :: l => if nameLe (workerName x.1) (workerName y.1) then x :: y :: l else y :: insertName x l

/-- `fs.glob(".../meta_*")` (meta_merger.py:118-121): fsspec returns the names in the order of strings. -/
def globMeta {α : Type} (files : List (Nat × α)) : List (Nat × α) := files.foldr insertName []

/-- `merge_metadata_files` (meta_merger.py:114-128): `files` are the workers with their files; no files: nothing is
written. -/
def mergeFiles (files : List (Nat × MetaFile)) : Option MetaFile :=
  ((globMeta files).mapM fun x => loadWorker x.2).bind mergeWorkers

end DeepGNN
