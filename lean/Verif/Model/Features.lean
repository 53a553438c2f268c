import Verif.Model.Temporal

/-
Feature storage and feature queries (src/cc/lib/graph/partition.cc, src/cc/lib/graph/graph.cc) and
the encodings of features on the converter side (converter/writers.py, decoders.py).
-/

namespace DeepGNN

/-- `MemoryStorage::read` (src/cc/lib/graph/storage.h:111-117): `n` bytes at `off`.  `none`: the read
goes past the end of the data. -/
def readAt (b : Bytes) (off n : Nat) : Option Bytes :=
  if off + n ≤ b.length then some ((b.drop off).take n) else none

/-- Offset of every value: `data.size` before it is appended (decoders.py:344-348). -/
def valueOffs : Nat → List Nat → List Nat
  | _, [] => []
  | a, x :: xs => a :: valueOffs (a + x) xs

/-- `JsonDecoder._serialize_temporal_features` (decoders.py:331-354) for a list of
`(created_at, value bytes)` already sorted by creation time (the `sorted` call in line 342 is
`sortHistory` below): int32 count, creation times, offsets of the values relative to the start of
the feature, offset of the end, the values, 8 zero bytes. -/
def serializeSorted (l : List (Int × Bytes)) : Bytes :=
  let c := l.length
  let base := 4 + 8 * (2 * c + 1)
  leBytes 4 c ++ l.flatMap (fun x => leBytes 8 (x.1 % 2 ^ 64).toNat) ++
    (valueOffs base (l.map (·.2.length))).flatMap (leBytes 8) ++
    leBytes 8 (base + (l.map (·.2.length)).sum) ++ l.flatMap (·.2) ++ List.replicate 8 0

/-- `sorted(item, key=created_at)` (decoders.py:342): stable insertion sort. -/
def insertHistory (x : Int × Bytes) : List (Int × Bytes) → List (Int × Bytes)
  | [] => [x]
  | y :: ys => if x.1 < y.1 then x :: y :: ys else y :: insertHistory x ys

/-- Stable sort by creation time; elements are inserted in input order after the equal ones. -/
def sortHistory (l : List (Int × Bytes)) : List (Int × Bytes) := l.foldl (fun acc x => insertHistory x acc) []

/-- `JsonDecoder._serialize_temporal_features` (decoders.py:331-354). -/
def serializeTemporal (l : List (Int × Bytes)) : Bytes := serializeSorted (sortHistory l)

/-- `deserialize_temporal_feature` (partition.cc:33-71): offset, size and creation time of the value
to be used at time `ts`; size 0 and time -1 if there is none.  `stored_size` is not used by the
code.  Negative offsets or sizes (corrupt data) are not modelled, they become 0. -/
def deserializeTemporal (b : Bytes) (off : Nat) (ts : Int) : Option (Nat × Nat × Int) :=
  (readAt b off 4).bind fun cb =>
    let c := leNat cb
    if c = 0 then some (off, 0, -1)
    else (readAt b (off + 4) (8 * (2 * c + 1))).bind fun raw =>
      let idx := (records 8 raw).map rdI64
      let pos := bsearch (fun a => decide (a < ts)) idx 0 c
      let pos := if pos = c then pos - 1 else pos
      (idx[pos]?).bind fun t =>
        if t > ts ∧ pos = 0 then some (off, 0, -1)
        else
          let pos := if t > ts then pos - 1 else pos
          (idx[pos]?).bind fun t => (idx[c + pos]?).bind fun o => (idx[c + pos + 1]?).bind fun o' =>
            some ((off + o).toNat, (o' - o).toNat, t)

/-- Position of feature `fid` in the feature data, for an owner whose features are the entries
`lo … hi-1` of the feature index; `some none`: it has no such feature
(partition.cc:487-493, 502-503 and the same lines in the other queries). -/
def featRange (index : List Nat) (lo hi fid : Nat) : Option (Option (Nat × Nat)) :=
  if hi - lo ≤ fid then some none
  else (index[lo + fid]?).bind fun d => (index[lo + fid + 1]?).map fun e => some (d, e - d)

/-- Apply `deserialize_temporal_feature` if a timestamp is given (partition.cc:495-501): offset, size
and `feature_ts`. -/
def featValue (data : Bytes) (ts : Option Int) (r : Nat × Nat) : Option (Nat × Nat × Int) :=
  match ts with
  | none => some (r.1, r.2, 0)
  | some t => deserializeTemporal data r.1 t

/-- Is the feature settled (partition.cc:478-479 and the same lines in the other queries)? -/
def settled (ts : Option Int) (flag : Int) : Bool :=
  match ts with
  | none => decide (flag ≥ 0)
  | some t => decide (flag = t)

/-- Copy `min(size, stored)` bytes and fill the rest with zeros (partition.cc:511-515). -/
def copyFeature (data : Bytes) (size : Nat) (off stored : Nat) : Option Bytes :=
  (readAt data off (min size stored)).map fun v => v ++ List.replicate (size - stored) 0

/-- One iteration of the loop in `Partition::GetNodeFeature` (partition.cc:476-517) for the feature
`f = (id, size)`: `s` is its flag and the current content of its part of the output. -/
def nodeFeatureStep (index : List Nat) (data : Bytes) (lo hi : Nat) (ts : Option Int) (f : Nat × Nat)
    (s : Int × Bytes) : Option (Int × Bytes) :=
  if settled ts s.1 then some s
  else (featRange index lo hi f.1).bind fun r =>
    match r with
    | none => some s
    | some r => (featValue data ts r).bind fun v =>
      if s.1 ≥ v.2.2 then some s
      else (copyFeature data f.2 v.1 v.2.1).map fun out => (v.2.2, out)

/-- Run the steps of a list of features, each with its own state. -/
def stepAll {α β} (step : α → β → Option β) : List α → List β → Option (List β)
  | f :: fs, s :: ss => (step f s).bind fun s' => (stepAll step fs ss).map fun ss' => s' :: ss'
  | _, _ => some []

/-- `Partition::GetNodeFeature` (partition.cc:462-518).  The output span is represented by one
slice per feature, since `curr` advances by the feature's size in all cases. -/
def Partition.nodeFeature (p : Partition) (id : Nat) (ts : Option Int) (feats : List (Nat × Nat))
    (ss : List (Int × Bytes)) : Option (List (Int × Bytes)) :=
  if p.nodeFeatureIndex = [] then some ss
  else (p.nodeIndex[id]?).bind fun lo => (p.nodeIndex[id + 1]?).bind fun hi =>
    stepAll (nodeFeatureStep p.nodeFeatureIndex p.nodeFeatures lo hi ts) feats ss

/-- Cut a span in consecutive slices. -/
def slices : List Nat → Bytes → List Bytes
  | [], _ => []
  | n :: ns, b => b.take n :: slices ns (b.drop n)

/-- One iteration of `Graph::GetNodeFeature` (graph.cc:145-183) on the part `out` of the output
reserved for the node. -/
def Graph.nodeFeature1 (g : Graph) (feats : List (Nat × Nat)) (node : Int) (ts : Option Int)
    (out : Bytes) : Option Bytes :=
  match g.nodeMap node with
  | none => some (List.replicate out.length 0)
  | some _ => (g.entries node).bind fun es =>
    (es.foldlM (fun (ss : List (Int × Bytes)) (x : Partition × Nat) => x.1.nodeFeature x.2 ts feats ss)
      ((slices (feats.map (·.2)) out).map fun b => ((-1 : Int), b))).map fun ss =>
        (feats.zip ss).flatMap fun x =>
          if x.2.1 ≥ 0 then x.2.2 else List.replicate x.1.2 0

/-- Timestamps per queried element: none given, or one each (`timestamps.empty() ? nullopt : …`). -/
def tsList (ts : Option (List Int)) (n : Nat) : List (Option Int) :=
  match ts with
  | none => List.replicate n none
  | some l => l.map some

/-- `Graph::GetNodeFeature` (graph.cc:133-185) on an output buffer with arbitrary content.  The
`assert` on the buffer size (136-139) is checked here. -/
def Graph.nodeFeature (g : Graph) (nodes : List Int) (ts : Option (List Int)) (feats : List (Nat × Nat))
    (out : Bytes) : Option Bytes :=
  let size := (feats.map (·.2)).sum
  if out.length ≠ size * nodes.length then none
  else
    (((nodes.zip (tsList ts nodes.length)).zip (slices (List.replicate nodes.length size) out)).mapM
      fun x => g.nodeFeature1 feats x.1.1 x.1.2 x.2).map List.flatten

/-- `std::find` of a destination in the edges `start … last-1` (partition.cc:924-928). -/
def findDst (dsts : List Int) (start len : Nat) (d : Int) : Option Nat :=
  (((dsts.drop start).take len).idxOf? d).map (start + ·)

/-- `Partition::EdgeFeatureOffset` (partition.cc:885-935): position of the edge in the edge tables.
Outer `none`: out-of-range access. -/
def Partition.edgeOffset (p : Partition) (id : Nat) (dst typ : Int) : Option (Option Nat) :=
  (p.groups id).map fun gs =>
    match gs.find? (fun g => g.typ = typ) with
    | none => none
    | some g =>
      let n := g.last - g.start
      let pos := bsearch (fun a => decide (a < dst)) p.edgeDst g.start n
      if n > 16 ∧ pos ≠ g.start + n ∧ p.edgeDst[pos]? = some dst then some pos
      else findDst p.edgeDst g.start n dst

/-- One iteration of the loop in `Partition::GetEdgeFeature` (partition.cc:953-989). -/
def edgeFeatureStep (index : List Nat) (data : Bytes) (lo hi : Nat) (ts : Option Int) (f : Nat × Nat)
    (s : Int × Bytes) : Option (Int × Bytes) :=
  if settled ts s.1 then some s
  else (featRange index lo hi f.1).bind fun r =>
    match r with
    | none => some (s.1, List.replicate f.2 0)
    | some r => (featValue data ts r).bind fun v =>
      (copyFeature data f.2 v.1 v.2.1).map fun out => (v.2.2, out)

/-- Run a per-edge loop with the feature range of the edge (partition.cc:941-951, 1000-1009). -/
def Partition.withEdge {α} (p : Partition) (id : Nat) (dst typ : Int) (dflt : α)
    (k : Nat → Nat → Option α) : Option α :=
  (p.edgeOffset id dst typ).bind fun o =>
    match o with
    | none => some dflt
    | some e =>
      if p.edgeFeatureOffset = [] ∨ p.edgeFeatureIndex = [] then some dflt
      else (p.edgeFeatureOffset[e]?).bind fun lo => (p.edgeFeatureOffset[e + 1]?).bind fun hi => k lo hi

/-- `Partition::GetEdgeFeature` (partition.cc:937-990). -/
def Partition.edgeFeature (p : Partition) (id : Nat) (dst typ : Int) (ts : Option Int)
    (feats : List (Nat × Nat)) (ss : List (Int × Bytes)) : Option (List (Int × Bytes)) :=
  p.withEdge id dst typ ss fun lo hi =>
    stepAll (edgeFeatureStep p.edgeFeatureIndex p.edgeFeatures lo hi ts) feats ss

/-- An edge as named by the caller. -/
structure EdgeId where
  src : Int
  dst : Int
  typ : Int
deriving DecidableEq, Repr

/-- One iteration of `Graph::GetEdgeFeature` (graph.cc:268-290). -/
def Graph.edgeFeature1 (g : Graph) (feats : List (Nat × Nat)) (e : EdgeId) (ts : Option Int)
    (out : Bytes) : Option Bytes :=
  match g.nodeMap e.src with
  | none => some (List.replicate out.length 0)
  | some _ => (g.entries e.src).bind fun es =>
    (es.foldlM (fun (ss : List (Int × Bytes)) (x : Partition × Nat) =>
        x.1.edgeFeature x.2 e.dst e.typ ts feats ss)
      ((slices (feats.map (·.2)) out).map fun b => ((-1 : Int), b))).map fun ss => ss.flatMap (·.2)

/-- `Client.edge_features` (snark/client.py:674-725) on a local graph: `Graph::GetEdgeFeature`
(graph.cc:255-291) on the buffer allocated by `np.zeros`.  Sizes are in bytes. -/
def Graph.edgeFeature (g : Graph) (edges : List EdgeId) (ts : Option (List Int))
    (feats : List (Nat × Nat)) : Option Bytes :=
  ((edges.zip (tsList ts edges.length)).mapM fun x =>
    g.edgeFeature1 feats x.1 x.2 (List.replicate (feats.map (·.2)).sum 0)).map List.flatten

/-- State of a string feature query: a flag and a length per feature, and the values appended so
far. -/
structure StrState where
  flags : List (Int × Nat)
  out : Bytes
deriving DecidableEq, Repr

/-- One iteration of the loop in `Partition::GetNodeStringFeature` (partition.cc:601-649).
`edge = true`: `Partition::GetEdgeStringFeature` (partition.cc:1066-1099), which overwrites
unconditionally and never removes an older value. -/
def stringStep (edge : Bool) (index : List Nat) (data : Bytes) (lo hi : Nat) (ts : Option Int)
    (fid : Nat) (s : Int × Nat) (out : Bytes) : Option ((Int × Nat) × Bytes) :=
  if settled ts s.1 then some (s, out)
  else (featRange index lo hi fid).bind fun r =>
    match r with
    | none => some (s, out)
    | some r =>
      if r.2 = 0 then some (s, out)
      else (featValue data ts r).bind fun v =>
        if edge = false ∧ s.1 ≥ v.2.2 then some (s, out)
        else
          let out := if edge = false ∧ s.1 ≥ 0 then out.take (out.length - s.2) else out
          (readAt data v.1 v.2.1).map fun b => ((v.2.2, v.2.1), out ++ b)

/-- The loop over the features. -/
def stringLoop (step : Nat → Int × Nat → Bytes → Option ((Int × Nat) × Bytes)) :
    List Nat → List (Int × Nat) → Bytes → Option (List (Int × Nat) × Bytes)
  | f :: fs, s :: ss, out => (step f s out).bind fun x =>
      (stringLoop step fs ss x.2).map fun y => (x.1 :: y.1, y.2)
  | _, ss, out => some (ss, out)

/-- `Partition::GetNodeStringFeature` (partition.cc:588-650). -/
def Partition.nodeString (p : Partition) (id : Nat) (ts : Option Int) (feats : List Nat) (s : StrState) :
    Option StrState :=
  if p.nodeFeatureIndex = [] then some s
  else (p.nodeIndex[id]?).bind fun lo => (p.nodeIndex[id + 1]?).bind fun hi =>
    (stringLoop (stringStep false p.nodeFeatureIndex p.nodeFeatures lo hi ts) feats s.flags s.out).map
      fun y => ⟨y.1, y.2⟩

/-- One iteration of `Graph::GetNodeStringFeature` (graph.cc:231-252): lengths of the features of the
node and the extended values.  The lengths start as zeros (snark/client.py:657). -/
def Graph.nodeString1 (g : Graph) (feats : List Nat) (node : Int) (ts : Option Int) (out : Bytes) :
    Option (List Nat × Bytes) :=
  (g.entries node).bind fun es =>
    (es.foldlM (fun (s : StrState) (x : Partition × Nat) => x.1.nodeString x.2 ts feats s)
      ⟨List.replicate feats.length (-1, 0), out⟩).map fun s => (s.flags.map (·.2), s.out)

/-- `Graph::GetNodeStringFeature` (graph.cc:223-253): one length per node and feature, and all
values. -/
def Graph.nodeString (g : Graph) (feats : List Nat) : List (Int × Option Int) → Bytes →
    Option (List Nat × Bytes)
  | [], out => some ([], out)
  | (n, t) :: ns, out => (g.nodeString1 feats n t out).bind fun x =>
      (g.nodeString feats ns x.2).map fun y => (x.1 ++ y.1, y.2)

/-- `Partition::GetEdgeStringFeature` (partition.cc:1048-1100).  Unlike the other two edge queries it
does not check that there are any edge features at all. -/
def Partition.edgeString (p : Partition) (id : Nat) (dst typ : Int) (ts : Option Int) (feats : List Nat)
    (s : StrState) : Option StrState :=
  (p.edgeOffset id dst typ).bind fun o =>
    match o with
    | none => some s
    | some e => (p.edgeFeatureOffset[e]?).bind fun lo => (p.edgeFeatureOffset[e + 1]?).bind fun hi =>
      (stringLoop (stringStep true p.edgeFeatureIndex p.edgeFeatures lo hi ts) feats s.flags s.out).map
        fun y => ⟨y.1, y.2⟩

/-- One iteration of `Graph::GetEdgeStringFeature` (graph.cc:337-358). -/
def Graph.edgeString1 (g : Graph) (feats : List Nat) (e : EdgeId) (ts : Option Int) (out : Bytes) :
    Option (List Nat × Bytes) :=
  (g.entries e.src).bind fun es =>
    (es.foldlM (fun (s : StrState) (x : Partition × Nat) => x.1.edgeString x.2 e.dst e.typ ts feats s)
      ⟨List.replicate feats.length (-1, 0), out⟩).map fun s => (s.flags.map (·.2), s.out)

/-- `Graph::GetEdgeStringFeature` (graph.cc:328-359). -/
def Graph.edgeString (g : Graph) (feats : List Nat) : List (EdgeId × Option Int) → Bytes →
    Option (List Nat × Bytes)
  | [], out => some ([], out)
  | (e, t) :: es, out => (g.edgeString1 feats e t out).bind fun x =>
      (g.edgeString feats es x.2).map fun y => (x.1 ++ y.1, y.2)

/-- The array of coordinates of a sparse feature: a vector or a matrix (numpy `ndim` 1 or 2). -/
inductive Coords where
  | vec (l : List Int)
  | mat (dim : Nat) (rows : List (List Int))
deriving DecidableEq, Repr

/-- `coordinates.ravel()`: all coordinates in storage order. -/
def Coords.flat : Coords → List Int
  | .vec l => l
  | .mat _ rows => rows.flatten

/-- `coordinates.shape[0]`. -/
def Coords.shape0 : Coords → Nat
  | .vec l => l.length
  | .mat _ rows => rows.length

/-- `coordinates.shape[-1] if coordinates.ndim > 1 else 1` (writers.py:708-711). -/
def Coords.lastDim : Coords → Nat
  | .vec _ => 1
  | .mat d _ => d

/-- Items accepted by `convert_features`. `bytes`: an `ndarray` or a string, as bytes. Values of a
sparse feature are given by the bytes of each value. -/
inductive RawFeature where
  | missing
  | bytes (b : Bytes)
  | sparse (coords : Coords) (values : List Bytes)
deriving DecidableEq, Repr

/-- The assertion on the shapes (writers.py:700-706). -/
def shapesOk (c : Coords) (n : Nat) : Bool :=
  if n > 1 then c.shape0 == n
  else match c with
    | .vec _ => true
    | .mat _ rows => rows.length == 1

/-- One iteration of `convert_features` (writers.py:689-736) for int64 coordinates. Outer `none`: the
assertion in 700-706 fails. -/
def convertFeature : RawFeature → Option (Option Bytes)
  | .missing => some none
  | .bytes b => some (some b)
  | .sparse c vs =>
    if c.shape0 = 0 ∨ vs = [] then some none
    else if shapesOk c vs.length then
      some (some (cU32 c.flat.length ++ cU32 c.lastDim ++
        c.flat.flatMap (fun x => leBytes 8 (x % 2 ^ 64).toNat) ++ vs.flatten))
    else none

/-- State of a sparse feature query for one feature id: the flag of the current node, dimension,
coordinates (flat) and values so far. -/
structure SparseState where
  flag : Int := -1
  dim : Nat := 0
  indices : List Int := []
  values : Bytes := []
deriving DecidableEq, Repr

/-- The indices of one value after another, each behind `prefix` (partition.cc:114-126). -/
def readIndices (data : Bytes) (pre : Int) (dim : Nat) : Nat → Nat → Option (List Int)
  | 0, _ => some []
  | k + 1, off => (readAt data off (dim * 8)).bind fun raw =>
      (readIndices data pre dim k (off + 8 * dim)).map fun rest =>
        (pre :: (records 8 raw).map rdI64) ++ rest

/-- `deserialize_sparse_features` (partition.cc:85-135). `none`: out-of-range read or division by
zero. -/
def deserializeSparse (data : Bytes) (off stored : Nat) (pre : Int) (s : SparseState) : Option SparseState :=
  if stored ≤ 12 then some s
  else (readAt data off 4).bind fun b1 => (readAt data (off + 4) 4).bind fun b2 =>
    let size := leNat b1
    let dim := leNat b2
    if dim = 0 then none
    else
      let num := size / dim
      (readIndices data pre dim num (off + 8)).bind fun idx =>
        (readAt data (off + 8 + 8 * dim * num) (stored - size * 8 - 8)).map fun vals =>
          { s with dim := dim, indices := s.indices ++ idx, values := s.values ++ vals }

/-- One iteration of the loop in `Partition::GetNodeSparseFeature` (partition.cc:536-585) and
`GetEdgeSparseFeature` (partition.cc:1010-1045) without timestamps; with timestamps they are in
Model/TemporalSparse.lean. -/
def sparseStep (index : List Nat) (data : Bytes) (lo hi : Nat) (pre : Int) (fid : Nat) (s : SparseState) :
    Option SparseState :=
  if s.flag ≥ 0 then some s
  else (featRange index lo hi fid).bind fun r =>
    match r with
    | none => some s
    | some r => if r.2 = 0 then some s
      else deserializeSparse data r.1 r.2 pre { s with flag := 0 }

/-- `Partition::GetNodeSparseFeature` (partition.cc:520-586) without timestamps. -/
def Partition.nodeSparse (p : Partition) (id : Nat) (pre : Int) (feats : List Nat)
    (ss : List SparseState) : Option (List SparseState) :=
  if p.nodeFeatureIndex = [] then some ss
  else (p.nodeIndex[id]?).bind fun lo => (p.nodeIndex[id + 1]?).bind fun hi =>
    stepAll (sparseStep p.nodeFeatureIndex p.nodeFeatures lo hi pre) feats ss

/-- Loop of `Graph::GetNodeSparseFeature` (graph.cc:202-220): `i` is the position of the next node. -/
def Graph.nodeSparseLoop (g : Graph) (feats : List Nat) : List Int → Nat → List SparseState →
    Option (List SparseState)
  | [], _, ss => some ss
  | n :: ns, i, ss => (g.entries n).bind fun es =>
      (es.foldlM (fun (ss : List SparseState) (x : Partition × Nat) => x.1.nodeSparse x.2 i feats ss)
        (ss.map fun s => { s with flag := -1 })).bind
        fun ss => g.nodeSparseLoop feats ns (i + 1) ss

/-- `Graph::GetNodeSparseFeature` (graph.cc:187-221) without timestamps: dimension, coordinates and
values per feature. -/
def Graph.nodeSparse (g : Graph) (feats : List Nat) (nodes : List Int) :
    Option (List (Nat × List Int × Bytes)) :=
  (g.nodeSparseLoop feats nodes 0 (List.replicate feats.length {})).map fun ss =>
    ss.map fun s => (s.dim, s.indices, s.values)

/-- `Partition::GetEdgeSparseFeature` (partition.cc:992-1046) without timestamps. -/
def Partition.edgeSparse (p : Partition) (id : Nat) (dst typ : Int) (pre : Int) (feats : List Nat)
    (ss : List SparseState) : Option (List SparseState) :=
  p.withEdge id dst typ ss fun lo hi =>
    stepAll (sparseStep p.edgeFeatureIndex p.edgeFeatures lo hi pre) feats ss

/-- Loop of `Graph::GetEdgeSparseFeature` (graph.cc:304-325). -/
def Graph.edgeSparseLoop (g : Graph) (feats : List Nat) : List EdgeId → Nat → List SparseState →
    Option (List SparseState)
  | [], _, ss => some ss
  | e :: es, i, ss => (g.entries e.src).bind fun en =>
      (en.foldlM (fun (ss : List SparseState) (x : Partition × Nat) => x.1.edgeSparse x.2 e.dst e.typ i feats ss)
        (ss.map fun s => { s with flag := -1 })).bind fun ss => g.edgeSparseLoop feats es (i + 1) ss

/-- `Graph::GetEdgeSparseFeature` (graph.cc:293-326) without timestamps. -/
def Graph.edgeSparse (g : Graph) (feats : List Nat) (edges : List EdgeId) :
    Option (List (Nat × List Int × Bytes)) :=
  (g.edgeSparseLoop feats edges 0 (List.replicate feats.length {})).map fun ss =>
    ss.map fun s => (s.dim, s.indices, s.values)

end DeepGNN
