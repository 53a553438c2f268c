import Verif.Model.Writer

/-
Loading of one partition and its neighbour queries
(src/cc/lib/graph/partition.cc).  Vectors are lists; every access is `[i]?`, so that a
result `some …` also says that no access was out of range (in C++ that would be
undefined behaviour).
-/

namespace DeepGNN

/-- The part of `snark::Metadata` a partition looks at (src/cc/lib/graph/metadata.h:20-47). -/
structure Meta where
  nodeFeatureCount : Nat
  edgeFeatureCount : Nat
  watermark : Int := -1

/-- `EdgeRecord` (partition.cc:21-27). -/
structure EdgeRecord where
  dst : Int
  featOff : Nat
  typ : Int
  weight : Int

/-- Raw read of an `EdgeRecord` (24 bytes, partition.cc:302-306). -/
def parseEdge (C : WeightCodec) (b : Bytes) : EdgeRecord where
  dst := rdI64 (b.take 8)
  featOff := rdU64 ((b.drop 8).take 8)
  typ := rdI32 ((b.drop 16).take 4)
  weight := C.dec (b.drop 20)

/-- Fields of `Partition` (src/cc/lib/graph/partition.h:125-160). -/
structure Partition where
  nodeTypes : List Int := []
  nodeIndex : List Nat := []
  nodeFeatureIndex : List Nat := []
  nodeFeatures : Bytes := []
  neighborsIndex : List Nat := []
  edgeTypes : List Int := []
  edgeTypeOffset : List Nat := []
  edgeDst : List Int := []
  edgeWeights : List Int := []
  edgeFeatureOffset : List Nat := []
  edgeFeatureIndex : List Nat := []
  edgeFeatures : Bytes := []
  edgeTimestamps : List (Int × Int) := []

/-- `Partition::ReadNodeMap`: 20-byte records, only the type is kept (partition.cc:152-181). -/
def readNodeTypes (nodeMap : Bytes) : List Int :=
  (records 20 nodeMap).map fun b => rdI32 ((b.drop 16).take 4)

/-- A file of 64-bit offsets: `ReadNodeIndex`, `ReadNodeFeaturesIndex`,
`ReadEdgeFeaturesIndex`, `ReadNeighborsIndex` (partition.cc:203-223, 352-436). -/
def readU64File (b : Bytes) : List Nat := (records 8 b).map rdU64

/-- Local variables of the edge loop for one node in `Partition::ReadEdgeIndex`
(partition.cc:297-299). -/
structure EdgeScan where
  currType : Int
  accWeight : Int
  p : Partition

/-- Loop body: one edge record (partition.cc:302-320). -/
def scanEdge (m : Meta) (s : EdgeScan) (e : EdgeRecord) : EdgeScan :=
  let s := if e.typ ≠ s.currType then
      { currType := e.typ, accWeight := 0,
        p := { s.p with edgeTypes := s.p.edgeTypes ++ [e.typ],
                        edgeTypeOffset := s.p.edgeTypeOffset ++ [s.p.edgeDst.length] } }
    else s
  let acc := f32 (s.accWeight + e.weight)
  { s with
    accWeight := acc
    p := { s.p with
      edgeDst := s.p.edgeDst ++ [e.dst]
      edgeWeights := s.p.edgeWeights ++ [acc]
      edgeFeatureOffset := if m.edgeFeatureCount > 0 then s.p.edgeFeatureOffset ++ [e.featOff]
                           else s.p.edgeFeatureOffset } }

/-- The edges `es` of one node (partition.cc:291, 297-321): remember where its types
start, then scan its records. -/
def readNode (m : Meta) (p : Partition) (es : List EdgeRecord) : Partition :=
  let p := { p with neighborsIndex := p.neighborsIndex ++ [p.edgeTypes.length] }
  (es.foldl (scanEdge m) { currType := -1, accWeight := 0, p := p }).p

/-- `Partition::ReadEdgeIndex` (partition.cc:269-337): `idx` are the raw offsets read by
`ReadNeighborsIndex` (overwritten one by one, here accumulated in `p.neighborsIndex`),
`es` the records still to be read from the file.  `none`: `log_fatal` on a short read,
or `back()` of an empty vector. -/
def readEdgeIndex (m : Meta) : List Nat → List EdgeRecord → Partition → Option Partition
  | start :: stop :: idx, es, p =>
    let n := stop - start
    if es.length < n then none
    else readEdgeIndex m (stop :: idx) (es.drop n) (readNode m p (es.take n))
  | [_], e :: _, p =>
    some { p with
      neighborsIndex := p.neighborsIndex ++ [p.edgeTypes.length]
      edgeTypes := p.edgeTypes ++ [e.typ]
      edgeTypeOffset := p.edgeTypeOffset ++ [p.edgeDst.length]
      edgeDst := p.edgeDst ++ [e.dst]
      edgeFeatureOffset := if m.edgeFeatureCount > 0 then p.edgeFeatureOffset ++ [e.featOff]
                           else p.edgeFeatureOffset }
  | [_], [], _ => none
  | [], _, _ => none

/-- Pair up consecutive numbers (partition.cc:255-266). -/
def pairUp {α} : List α → List (α × α)
  | a :: b :: l => (a, b) :: pairUp l
  | _ => []

/-- `Partition::ReadEdgeTimestamps` (partition.cc:225-267): watermark, then pairs. -/
def readTimestamps (b : Bytes) : List (Int × Int) :=
  pairUp (((records 8 b).map rdI64).drop 1)

/-- `Partition::Partition` (partition.cc:138-150 with 183-201 and 339-350). Feature data is
kept as the bytes of the file: reads from memory or disk are modelled by slices. -/
def loadPartition (C : WeightCodec) (m : Meta) (f : PartitionFiles) : Option Partition := do
  let p : Partition := { nodeTypes := readNodeTypes f.nodeMap, nodeIndex := readU64File f.nodeIndex }
  let p := if m.nodeFeatureCount = 0 then p else
    { p with nodeFeatureIndex := readU64File f.nodeFeatureIndex, nodeFeatures := f.nodeFeatureData }
  let p ← readEdgeIndex m (readU64File f.neighborsIndex)
    ((records 24 f.edgeIndex).map (parseEdge C)) p
  let p := if m.watermark ≥ 0 then { p with edgeTimestamps := readTimestamps f.edgeTimestamps } else p
  return if m.edgeFeatureCount > 0 then
      { p with edgeFeatureIndex := readU64File f.edgeFeatureIndex, edgeFeatures := f.edgeFeatureData }
    else p

/-- One stored group of edges of a node: edges `start..last-1` have type `typ`. -/
structure Group where
  typ : Int
  start : Nat
  last : Nat
deriving DecidableEq, Repr

/-- The groups of a node in `m_edge_types`/`m_edge_type_offset`, as indexed by
`m_neighbors_index` (partition.cc:658-669, 688-689).  Read eagerly here. -/
def Partition.groups (p : Partition) (id : Nat) : Option (List Group) := do
  let offset ← p.neighborsIndex[id]?
  let next ← p.neighborsIndex[id + 1]?
  (List.range' offset (next - offset)).mapM fun i => do
    let t ← p.edgeTypes[i]?
    let s ← p.edgeTypeOffset[i]?
    let l ← p.edgeTypeOffset[i + 1]?
    return { typ := t, start := s, last := l }

/-- The double loop of `NeighborIndexIterator` (partition.cc:669-694) over the remaining
groups `ms` and the remaining requested types `es`: returns the groups for which `func`
is called.  Note that the outer `++i` is also executed after a mismatch. -/
def walk {α} (key : α → Int) : List α → List Int → List α
  | [], _ => []
  | m :: ms, es =>
    match es.dropWhile (fun e => e < key m) with
    | [] => []                                   -- curr_type == edge_types.size(): break
    | e :: es' =>
      match _h : (m :: ms).dropWhile (fun g => e > key g) with
      | [] => []                                 -- i == offset + nb_count: break
      | g :: gs => if key g = e then g :: walk key gs (e :: es') else walk key gs (e :: es')
termination_by ms => ms.length
decreasing_by
  all_goals
    have h2 := (List.dropWhile_sublist (fun g => decide (e > key g)) (l := m :: ms)).length_le
    rw [_h] at h2
    simp at h2 ⊢; omega

/-- Weight of stored edge `j` of the group starting at `start`: difference of cumulative
weights, in single precision (partition.cc:790-792, 823-824). -/
def Partition.edgeWeight (p : Partition) (start j : Nat) : Option Int := do
  let w ← p.edgeWeights[j]?
  if j > start then
    let prev ← p.edgeWeights[j - 1]?
    return f32 (w - prev)
  else return w

/-- A neighbour as returned to the caller. -/
structure Nbr where
  dst : Int
  typ : Int
  weight : Int
deriving DecidableEq, Repr

/-- Body of the non-temporal lambda of `FullNeighbor` (partition.cc:808-826). -/
def Partition.groupNbrs (p : Partition) (g : Group) : Option (List Nbr) :=
  (List.range' g.start (g.last - g.start)).mapM fun j => do
    let d ← p.edgeDst[j]?
    let w ← p.edgeWeight g.start j
    return { dst := d, typ := g.typ, weight := w }

/-- Body of the temporal lambda of `FullNeighbor` (partition.cc:782-801). -/
def Partition.groupNbrsAt (p : Partition) (ts : Int) (g : Group) : Option (List Nbr) := do
  let l ← (List.range' g.start (g.last - g.start)).mapM fun j => do
    let t ← p.edgeTimestamps[j]?
    if t.1 ≤ ts ∧ (t.2 > ts ∨ t.2 = -1) then
      let d ← p.edgeDst[j]?
      let w ← p.edgeWeight g.start j
      return [({ dst := d, typ := g.typ, weight := w } : Nbr)]
    else return []
  return l.flatten

/-- `Partition::FullNeighbor` (partition.cc:774-830): neighbours appended for one node and
the returned count, which is incremented per neighbour in the temporal case (794) and is
the sum of the group sizes otherwise (691, 828). -/
def Partition.fullNeighbor (p : Partition) (id : Nat) (ts : Option Int) (types : List Int) :
    Option (List Nbr × Nat) := do
  let gs ← p.groups id
  let ws := walk Group.typ gs types
  match ts with
  | none =>
    let l ← ws.mapM p.groupNbrs
    return (l.flatten, (ws.map fun g => g.last - g.start).sum)
  | some t =>
    let l ← ws.mapM (p.groupNbrsAt t)
    return (l.flatten, (l.map List.length).sum)

/-- `Partition::NeighborCount` without timestamps: `result += last - start`
(partition.cc:736-744, 691). -/
def Partition.neighborCount (p : Partition) (id : Nat) (types : List Int) : Option Nat := do
  let gs ← p.groups id
  return ((walk Group.typ gs types).map fun g => g.last - g.start).sum

end DeepGNN
