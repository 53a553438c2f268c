import Verif.Model.Bytes

/-
The binary writers of the converter
(src/python/deepgnn/graph_engine/snark/converter/writers.py), at byte level.
A raised exception (assertion, `struct.error`) is `none`.
-/

namespace DeepGNN

/-- One tuple yielded by a decoder: `(src, dst, typ, weight, created_at, removed_at,
features)`, `dst = -1` marking a node record (writers.py:73-93,
snark/decoders.py:49-58).  The features are already converted to bytes by
`convert_features` (modelled in `Model/Features.lean`); a missing feature is `none`. -/
structure Rec where
  src : Int
  dst : Int
  typ : Int
  weight : Int
  created : Option Int
  removed : Option Int
  features : List (Option Bytes)
deriving DecidableEq, Repr

/-- Python's `x or d` for an optional integer: `None` and `0` both give `d`
(writers.py:105-106, 149-150). -/
def pyOr (x : Option Int) (d : Int) : Int :=
  match x with
  | none => d
  | some v => if v = 0 then d else v

/-- Output files of `NodeFeatureWriter` with its running position
(writers.py:231-269): `ni` node index, `nfi` feature index, `nfd` feature data. -/
structure NodeFeatureWriter where
  ni : Bytes := []
  nfi : Bytes := []
  nfd : Bytes := []
  nfdPos : Nat := 0
  featureCount : Nat := 0

/-- The loop body of `NodeFeatureWriter.add`: one feature (writers.py:284-288). -/
def NodeFeatureWriter.addFeature (w : NodeFeatureWriter) (k : Option Bytes) : NodeFeatureWriter :=
  let w := { w with nfi := w.nfi ++ cU64 w.nfdPos }
  match k with
  | none => w
  | some k => { w with nfd := w.nfd ++ k, nfdPos := w.nfdPos + k.length }

/-- `NodeFeatureWriter.add` (writers.py:271-290). -/
def NodeFeatureWriter.add (w : NodeFeatureWriter) (features : List (Option Bytes)) :
    NodeFeatureWriter :=
  let w := { w with ni := w.ni ++ cU64 (w.nfi.length / 8) }
  let w := features.foldl NodeFeatureWriter.addFeature w
  { w with featureCount := if features.length > w.featureCount then features.length
                           else w.featureCount }

/-- `NodeFeatureWriter.close` (writers.py:292-298). -/
def NodeFeatureWriter.close (w : NodeFeatureWriter) : NodeFeatureWriter :=
  { w with ni := w.ni ++ cU64 (w.nfi.length / 8), nfi := w.nfi ++ cU64 w.nfdPos }

/-- `NodeWriter` (writers.py:174-195): `nm` node map. -/
structure NodeWriter where
  nm : Bytes := []
  count : Nat := 0
  fw : NodeFeatureWriter := {}

/-- `struct.pack("=QQi", id, internal, type)` (writers.py:203-211). -/
def packNode (x : Int × Nat × Int) : Option Bytes := do
  let a ← packQ x.1
  let b ← packQ x.2.1
  let c ← packI32 x.2.2
  return a ++ b ++ c

/-- `NodeWriter.add` (writers.py:197-223). -/
def NodeWriter.add (w : NodeWriter) (nodeId typ : Int) (features : List (Option Bytes)) :
    Option NodeWriter := do
  let r ← packNode (nodeId, w.count, typ)
  return { nm := w.nm ++ r, fw := w.fw.add features, count := w.count + 1 }

/-- `EdgeFeatureWriter`'s own files (writers.py:417-440): `efd` feature data. The feature
index `efi` is shared with `EdgeWriter`. -/
structure EdgeFeatureWriter where
  efi : Bytes := []
  efd : Bytes := []
  efdPos : Nat := 0
  featureCount : Nat := 0

/-- Loop body of `EdgeFeatureWriter.add` (writers.py:455-458). -/
def EdgeFeatureWriter.addFeature (w : EdgeFeatureWriter) (k : Option Bytes) : EdgeFeatureWriter :=
  let w := { w with efi := w.efi ++ cU64 w.efdPos }
  match k with
  | none => w
  | some k => { w with efd := w.efd ++ k, efdPos := w.efdPos + k.length }

/-- `EdgeFeatureWriter.add` (writers.py:442-461). The returned `features_written` is the
number of bytes written to `efi`: 8 per feature. -/
def EdgeFeatureWriter.add (w : EdgeFeatureWriter) (features : List (Option Bytes)) :
    EdgeFeatureWriter × Nat :=
  let w := features.foldl EdgeFeatureWriter.addFeature w
  ({ w with featureCount := if features.length > w.featureCount then features.length
                            else w.featureCount }, 8 * features.length)

/-- `EdgeWriter` (writers.py:301-347): `nbi` neighbour index, `ei` edge index, `eti`
edge timestamps, watermark `none` for non-temporal graphs. -/
structure EdgeWriter where
  watermark : Option Nat
  nbi : Bytes := []
  ei : Bytes := []
  eti : Bytes := []
  efiPos : Nat := 0
  fw : EdgeFeatureWriter := {}

/-- `EdgeWriter.__init__`: the timestamp file starts with the watermark
(writers.py:337-345). -/
def EdgeWriter.init (watermark : Option Nat) : EdgeWriter :=
  match watermark with
  | none => { watermark := none }
  | some t => { watermark := some t, eti := cU64 t }

/-- Size of an edge index record: 4 bytes type, 8 destination, 8 offset, 4 weight
(writers.py:351-353). -/
def edgeRecordSize : Nat := 4 + 8 + 8 + 4

/-- `EdgeWriter.add_node` (writers.py:349-353). -/
def EdgeWriter.addNode (w : EdgeWriter) : EdgeWriter :=
  { w with nbi := w.nbi ++ cU64 (w.ei.length / edgeRecordSize) }

/-- `struct.pack("=QQif", dst, offset, tp, weight)` (writers.py:374-382). -/
def packEdge (C : WeightCodec) (dst : Int) (off : Nat) (tp weight : Int) : Option Bytes := do
  let a ← packQ dst
  let b ← packQ off
  let c ← packI32 tp
  return a ++ b ++ c ++ C.enc weight

/-- `EdgeWriter.add` (writers.py:355-392); `created`/`removed` are only used when there
is a watermark, and are then given (writers.py:151-158). -/
def EdgeWriter.add (C : WeightCodec) (w : EdgeWriter) (dst tp weight : Int)
    (features : List (Option Bytes)) (created removed : Int) : Option EdgeWriter := do
  let r ← packEdge C dst (w.efiPos / 8) tp weight
  let (fw, n) := w.fw.add features
  let w' := { w with ei := w.ei ++ r, fw := fw, efiPos := w.efiPos + n }
  match w.watermark with
  | none => return w'
  | some _ =>
    let c ← packI64 created
    let d ← packI64 removed
    return { w' with eti := w'.eti ++ (c ++ d) }

/-- `EdgeWriter.close` (writers.py:394-414): sentinel record and final offsets. -/
def EdgeWriter.close (C : WeightCodec) (w : EdgeWriter) : Option EdgeWriter := do
  let r ← packEdge C 0 (w.efiPos / 8) 0 (-1)
  return { w with
    nbi := w.nbi ++ cU64 (w.ei.length / edgeRecordSize)
    ei := w.ei ++ r
    fw := { w.fw with efi := w.fw.efi ++ cU64 w.fw.efdPos } }

/-- `BinaryWriter` state (writers.py:28-71). `nodeCreated`/`nodeRemoved` are the local
variables of `add`.  The alias writers are modelled in `Model/Alias.lean`; here we keep
the elements they were given, per type, in order (writers.py:534-543, 626-637). -/
structure BinaryWriter where
  node : NodeWriter := {}
  edge : EdgeWriter
  nodeAlias : List (List (Int × Int)) := []
  edgeAlias : List (List (Int × Int × Int)) := []
  nodeCount : Nat := 0
  edgeCount : Nat := 0
  nodeWeight : List Int := []
  nodeTypeCount : List Nat := []
  edgeWeight : List Int := []
  edgeTypeCount : List Nat := []
  prevNode : Option Int := none
  prevEdgeType : Option Int := none
  nodeCreated : Int := 0
  nodeRemoved : Int := -1

/-- `BinaryWriter.__init__` (writers.py:28-71). -/
def BinaryWriter.init (watermark : Option Nat) : BinaryWriter := { edge := EdgeWriter.init watermark }

/-- Extend a per-type list with `d` so that it has at least `n` entries: the
`for _ in range(type_num_value - self.node_type_num)` loops (writers.py:98-103, 135-140). -/
def growTo {α} (n : Nat) (d : α) (l : List α) : List α := l ++ List.replicate (n - l.length) d

/-- A node record (writers.py:95-119): `dst == -1`. -/
def BinaryWriter.addNodeRec (w : BinaryWriter) (r : Rec) : Option BinaryWriter :=
  (w.node.add r.src r.typ r.features).map fun node =>
    let t := r.typ.toNat
    { w with
      prevNode := some r.src
      prevEdgeType := none
      nodeCreated := pyOr r.created 0
      nodeRemoved := pyOr r.removed (-1)
      node := node
      edge := w.edge.addNode
      nodeAlias := (growTo (t + 1) [] w.nodeAlias).modify t (· ++ [(r.src, r.weight)])
      nodeWeight := (growTo (t + 1) 0 w.nodeWeight).modify t (· + r.weight)
      nodeTypeCount := (growTo (t + 1) 0 w.nodeTypeCount).modify t (· + 1)
      nodeCount := w.nodeCount + 1 }

/-- Before an edge whose source is not the node of the previous record a node of type -1 without
features is written (writers.py:121-131). -/
def BinaryWriter.startNode (w : BinaryWriter) (src : Int) : Option BinaryWriter :=
  if w.prevNode = some src then some w
  else (w.node.add src (-1) []).map fun node =>
    { w with prevEdgeType := none, node := node, edge := w.edge.addNode, prevNode := some src }

/-- The three assertions on an edge record: edge types of a node do not decrease, the edge is not
created before nor removed after its node (writers.py:132-149). -/
def BinaryWriter.edgeOk (w : BinaryWriter) (r : Rec) : Bool :=
  (match w.prevEdgeType with | none => true | some p => decide (p ≤ r.typ)) &&
  (match r.created with | none => true | some c => decide (w.nodeCreated ≤ c)) &&
  (match r.removed with
    | none => true
    | some d => decide (w.nodeRemoved = -1) || decide (d ≤ w.nodeRemoved))

/-- An edge record (writers.py:132-163). -/
def BinaryWriter.addEdgeRec (C : WeightCodec) (w : BinaryWriter) (r : Rec) : Option BinaryWriter :=
  if w.edgeOk r then
    (w.edge.add C r.dst r.typ r.weight r.features
      (pyOr r.created w.nodeCreated) (pyOr r.removed w.nodeRemoved)).map fun edge =>
    let t := r.typ.toNat
    { w with
      prevEdgeType := some r.typ
      edge := edge
      edgeAlias := (growTo (t + 1) [] w.edgeAlias).modify t (· ++ [(r.src, r.dst, r.weight)])
      edgeWeight := (growTo (t + 1) 0 w.edgeWeight).modify t (· + r.weight)
      edgeTypeCount := (growTo (t + 1) 0 w.edgeTypeCount).modify t (· + 1)
      edgeCount := w.edgeCount + 1 }
  else none

/-- One iteration of the loop of `BinaryWriter.add` (writers.py:93-163).
Simplification: a negative type raises (`none`); Python would index its per-type lists
from the end. -/
def BinaryWriter.addRec (C : WeightCodec) (w : BinaryWriter) (r : Rec) : Option BinaryWriter :=
  if r.typ < 0 then none
  else if r.dst = -1 then w.addNodeRec r
  else (w.startNode r.src).bind fun w => w.addEdgeRec C r

/-- `BinaryWriter.add`: the timestamps of the node are reset at the start of each call
(writers.py:90-93). -/
def BinaryWriter.add (C : WeightCodec) (w : BinaryWriter) (data : List Rec) : Option BinaryWriter :=
  data.foldlM (BinaryWriter.addRec C) { w with nodeCreated := 0, nodeRemoved := -1 }

/-- The files of one partition after `close` and the counters reported to the dispatcher
(writers.py:164-171; converter/process.py:63-85). -/
structure PartitionFiles where
  nodeMap : Bytes
  nodeIndex : Bytes
  nodeFeatureIndex : Bytes
  nodeFeatureData : Bytes
  neighborsIndex : Bytes
  edgeIndex : Bytes
  edgeFeatureIndex : Bytes
  edgeFeatureData : Bytes
  edgeTimestamps : Bytes
  nodeFeatureCount : Nat
  edgeFeatureCount : Nat

/-- `BinaryWriter.close` (writers.py:164-171). -/
def BinaryWriter.close (C : WeightCodec) (w : BinaryWriter) : Option PartitionFiles := do
  let nfw := w.node.fw.close
  let e ← w.edge.close C
  return {
    nodeMap := w.node.nm
    nodeIndex := nfw.ni
    nodeFeatureIndex := nfw.nfi
    nodeFeatureData := nfw.nfd
    neighborsIndex := e.nbi
    edgeIndex := e.ei
    edgeFeatureIndex := e.fw.efi
    edgeFeatureData := e.fw.efd
    edgeTimestamps := e.eti
    nodeFeatureCount := w.node.fw.featureCount
    edgeFeatureCount := w.edge.fw.featureCount }

/-- All `add` calls of one converter worker: one call per decoded line
(converter/process.py:45-60). -/
def writeCalls (C : WeightCodec) (watermark : Option Nat) (calls : List (List Rec)) :
    Option BinaryWriter :=
  calls.foldlM (BinaryWriter.add C) (BinaryWriter.init watermark)

/-- A whole conversion of one partition: all `add` calls, then `close`
(converter/process.py:45-62). -/
def convertPartition (C : WeightCodec) (watermark : Option Nat) (calls : List (List Rec)) :
    Option PartitionFiles := do
  (← writeCalls C watermark calls).close C

end DeepGNN
