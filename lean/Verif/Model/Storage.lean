import Verif.Model.Features

/-
Feature data in memory or on disk (src/cc/lib/graph/storage.h, locator.cc:87-95).  The feature queries of
partition.cc reach the data only through the virtual function `BaseStorage::read`.  Here they are written as
programs over that function, which are run on a `MemoryStorage` or on a `DiskStorage`.
-/

namespace DeepGNN.Storage

/-- A piece of code that uses `BaseStorage::read(offset, size, …)` (storage.h:54-56): it gives a result, fails
(an access outside of some other table), or reads `n` bytes at `off` and goes on with them. -/
inductive Rd (α : Type) where
  | ret (a : α)
  | fail
  | read (off n : Nat) (k : Bytes → Rd α)

/-- One piece of code after the other. -/
def Rd.bind {α β} : Rd α → (α → Rd β) → Rd β
  | .ret a, f => f a
  | .fail, _ => .fail
  | .read off n k, f => .read off n fun b => (k b).bind f

/-- Apply a function to the result. -/
def Rd.map {α β} (f : α → β) (p : Rd α) : Rd β := p.bind fun a => .ret (f a)

/-- Access to a table other than the feature data. -/
def Rd.ofOption {α} : Option α → Rd α
  | some a => .ret a
  | none => .fail

/-- Run on `MemoryStorage::read` (storage.h:109-115), see `readAt`. -/
def Rd.mem {α} (b : Bytes) : Rd α → Option α
  | .ret a => some a
  | .fail => none
  | .read off n k => (readAt b off n).bind fun v => (k v).mem b

/-- A C stream: its position and its end-of-file indicator. -/
structure FileState where
  pos : Nat := 0
  eof : Bool := false
deriving DecidableEq, Repr

/-- `platform_fseek(FILE *, int, int)` (locator.cc:87-95): the offset is passed as an `int`. -/
def toInt32 (off : Nat) : Int :=
  let r : Nat := off % 2 ^ 32
  if r < 2 ^ 31 then (r : Int) else (r : Int) - 2 ^ 32

/-- `fseek(f, offset, SEEK_SET)`: with a negative offset it fails and changes nothing (its result is not
looked at). -/
def seek (s : FileState) (off : Nat) : FileState :=
  if 0 ≤ toInt32 off then ⟨(toInt32 off).toNat, false⟩ else s

/-- `DiskStorage::read` (storage.h:309-327) of the file `b`.  `none`: an exception, or fewer than `n` bytes
are left at the position of the stream; in the code the rest of the output then keeps its old content, which is
not modelled. -/
def diskRead (b : Bytes) (s : FileState) (off n : Nat) : Option (Bytes × FileState) :=
  if s.eof then none
  else if b.length ≤ off then none
  else
    let s := seek s off
    if s.pos + n ≤ b.length then some ((b.drop s.pos).take n, ⟨s.pos + n, false⟩) else none

/-- Run on a `DiskStorage`. -/
def Rd.disk {α} (b : Bytes) : Rd α → FileState → Option (α × FileState)
  | .ret a, s => some (a, s)
  | .fail, _ => none
  | .read off n k, s => (diskRead b s off n).bind fun x => (k x.1).disk b x.2

/-- `PartitionStorageType` (types.h:22-27). -/
inductive Kind where
  | memory
  | disk
deriving DecidableEq, Repr

/-- Run a query: `storage->start()` opens the file anew for each query of a partition (storage.h:96-99, 275-284). -/
def Rd.run {α} (k : Kind) (b : Bytes) (p : Rd α) : Option α :=
  match k with
  | .memory => p.mem b
  | .disk => (p.disk b {}).map (·.1)

/-- `deserialize_temporal_feature` (partition.cc:33-71), see `DeepGNN.deserializeTemporal`. -/
def deserializeTemporal (off : Nat) (ts : Int) : Rd (Nat × Nat × Int) :=
  .read off 4 fun cb =>
    let c := leNat cb
    if c = 0 then .ret (off, 0, -1)
    else .read (off + 4) (8 * (2 * c + 1)) fun raw =>
      let idx := (records 8 raw).map rdI64
      let pos := bsearch (fun a => decide (a < ts)) idx 0 c
      let pos := if pos = c then pos - 1 else pos
      (Rd.ofOption idx[pos]?).bind fun t =>
        if t > ts ∧ pos = 0 then .ret (off, 0, -1)
        else
          let pos := if t > ts then pos - 1 else pos
          (Rd.ofOption idx[pos]?).bind fun t => (Rd.ofOption idx[c + pos]?).bind fun o =>
            (Rd.ofOption idx[c + pos + 1]?).bind fun o' => .ret ((off + o).toNat, (o' - o).toNat, t)

/-- `deserialize_temporal_feature` if a timestamp is given (partition.cc:495-501). -/
def featValue (ts : Option Int) (r : Nat × Nat) : Rd (Nat × Nat × Int) :=
  match ts with
  | none => .ret (r.1, r.2, 0)
  | some t => deserializeTemporal r.1 t

/-- Read `min(size, stored)` bytes, the rest is filled with zeros (partition.cc:511-515, 984-988). -/
def copyFeature (size off stored : Nat) : Rd Bytes :=
  .read off (min size stored) fun v => .ret (v ++ List.replicate (size - stored) 0)

/-- One iteration of the loop in `Partition::GetNodeFeature` (partition.cc:476-517). -/
def nodeFeatureStep (index : List Nat) (lo hi : Nat) (ts : Option Int) (f : Nat × Nat) (s : Int × Bytes) :
    Rd (Int × Bytes) :=
  if settled ts s.1 then .ret s
  else (Rd.ofOption (featRange index lo hi f.1)).bind fun r =>
    match r with
    | none => .ret s
    | some r => (featValue ts r).bind fun v =>
      if s.1 ≥ v.2.2 then .ret s
      else (copyFeature f.2 v.1 v.2.1).map fun out => (v.2.2, out)

/-- One iteration of the loop in `Partition::GetEdgeFeature` (partition.cc:953-989). -/
def edgeFeatureStep (index : List Nat) (lo hi : Nat) (ts : Option Int) (f : Nat × Nat) (s : Int × Bytes) :
    Rd (Int × Bytes) :=
  if settled ts s.1 then .ret s
  else (Rd.ofOption (featRange index lo hi f.1)).bind fun r =>
    match r with
    | none => .ret (s.1, List.replicate f.2 0)
    | some r => (featValue ts r).bind fun v =>
      (copyFeature f.2 v.1 v.2.1).map fun out => (v.2.2, out)

/-- The loop over the features of a query, each with its own state. -/
def stepAll {α β} (step : α → β → Rd β) : List α → List β → Rd (List β)
  | f :: fs, s :: ss => (step f s).bind fun s' => (stepAll step fs ss).map fun ss' => s' :: ss'
  | _, _ => .ret []

/-- `Partition::GetNodeFeature` (partition.cc:462-518). -/
def nodeFeatureP (k : Kind) (p : Partition) (id : Nat) (ts : Option Int) (feats : List (Nat × Nat))
    (ss : List (Int × Bytes)) : Option (List (Int × Bytes)) :=
  if p.nodeFeatureIndex = [] then some ss
  else (p.nodeIndex[id]?).bind fun lo => (p.nodeIndex[id + 1]?).bind fun hi =>
    (stepAll (nodeFeatureStep p.nodeFeatureIndex lo hi ts) feats ss).run k p.nodeFeatures

/-- One iteration of `Graph::GetNodeFeature` (graph.cc:145-183). -/
def nodeFeature1 (k : Kind) (g : Graph) (feats : List (Nat × Nat)) (node : Int) (ts : Option Int) (out : Bytes) :
    Option Bytes :=
  match g.nodeMap node with
  | none => some (List.replicate out.length 0)
  | some _ => (g.entries node).bind fun es =>
    (es.foldlM (fun (ss : List (Int × Bytes)) (x : Partition × Nat) => nodeFeatureP k x.1 x.2 ts feats ss)
      ((slices (feats.map (·.2)) out).map fun b => ((-1 : Int), b))).map fun ss =>
        (feats.zip ss).flatMap fun x =>
          if x.2.1 ≥ 0 then x.2.2 else List.replicate x.1.2 0

/-- `Graph::GetNodeFeature` (graph.cc:133-185) on a graph loaded with storage type `k`. -/
def nodeFeature (k : Kind) (g : Graph) (nodes : List Int) (ts : Option (List Int)) (feats : List (Nat × Nat))
    (out : Bytes) : Option Bytes :=
  let size := (feats.map (·.2)).sum
  if out.length ≠ size * nodes.length then none
  else
    (((nodes.zip (tsList ts nodes.length)).zip (slices (List.replicate nodes.length size) out)).mapM
      fun x => nodeFeature1 k g feats x.1.1 x.1.2 x.2).map List.flatten

/-- `Partition::GetEdgeFeature` (partition.cc:937-990). -/
def edgeFeatureP (k : Kind) (p : Partition) (id : Nat) (dst typ : Int) (ts : Option Int)
    (feats : List (Nat × Nat)) (ss : List (Int × Bytes)) : Option (List (Int × Bytes)) :=
  p.withEdge id dst typ ss fun lo hi =>
    (stepAll (edgeFeatureStep p.edgeFeatureIndex lo hi ts) feats ss).run k p.edgeFeatures

/-- One iteration of `Graph::GetEdgeFeature` (graph.cc:268-290). -/
def edgeFeature1 (k : Kind) (g : Graph) (feats : List (Nat × Nat)) (e : EdgeId) (ts : Option Int) (out : Bytes) :
    Option Bytes :=
  match g.nodeMap e.src with
  | none => some (List.replicate out.length 0)
  | some _ => (g.entries e.src).bind fun es =>
    (es.foldlM (fun (ss : List (Int × Bytes)) (x : Partition × Nat) =>
        edgeFeatureP k x.1 x.2 e.dst e.typ ts feats ss)
      ((slices (feats.map (·.2)) out).map fun b => ((-1 : Int), b))).map fun ss => ss.flatMap (·.2)

/-- `Client.edge_features` (snark/client.py:674-725) on a graph loaded with storage type `k`. -/
def edgeFeature (k : Kind) (g : Graph) (edges : List EdgeId) (ts : Option (List Int))
    (feats : List (Nat × Nat)) : Option Bytes :=
  ((edges.zip (tsList ts edges.length)).mapM fun x =>
    edgeFeature1 k g feats x.1 x.2 (List.replicate (feats.map (·.2)).sum 0)).map List.flatten

/-- One iteration of the loop in `Partition::GetNodeStringFeature` (partition.cc:601-649), or with `edge = true`
of `Partition::GetEdgeStringFeature` (partition.cc:1066-1099). -/
def stringStep (edge : Bool) (index : List Nat) (lo hi : Nat) (ts : Option Int) (fid : Nat) (s : Int × Nat)
    (out : Bytes) : Rd ((Int × Nat) × Bytes) :=
  if settled ts s.1 then .ret (s, out)
  else (Rd.ofOption (featRange index lo hi fid)).bind fun r =>
    match r with
    | none => .ret (s, out)
    | some r =>
      if r.2 = 0 then .ret (s, out)
      else (featValue ts r).bind fun v =>
        if edge = false ∧ s.1 ≥ v.2.2 then .ret (s, out)
        else
          let out := if edge = false ∧ s.1 ≥ 0 then out.take (out.length - s.2) else out
          .read v.1 v.2.1 fun b => .ret ((v.2.2, v.2.1), out ++ b)

/-- The loop over the features. -/
def stringLoop (step : Nat → Int × Nat → Bytes → Rd ((Int × Nat) × Bytes)) :
    List Nat → List (Int × Nat) → Bytes → Rd (List (Int × Nat) × Bytes)
  | f :: fs, s :: ss, out => (step f s out).bind fun x =>
      (stringLoop step fs ss x.2).map fun y => (x.1 :: y.1, y.2)
  | _, ss, out => .ret (ss, out)

/-- `Partition::GetNodeStringFeature` (partition.cc:588-650). -/
def nodeStringP (k : Kind) (p : Partition) (id : Nat) (ts : Option Int) (feats : List Nat) (s : StrState) :
    Option StrState :=
  if p.nodeFeatureIndex = [] then some s
  else (p.nodeIndex[id]?).bind fun lo => (p.nodeIndex[id + 1]?).bind fun hi =>
    ((stringLoop (stringStep false p.nodeFeatureIndex lo hi ts) feats s.flags s.out).run k p.nodeFeatures).map
      fun y => ⟨y.1, y.2⟩

/-- One iteration of `Graph::GetNodeStringFeature` (graph.cc:231-252). -/
def nodeString1 (k : Kind) (g : Graph) (feats : List Nat) (node : Int) (ts : Option Int) (out : Bytes) :
    Option (List Nat × Bytes) :=
  (g.entries node).bind fun es =>
    (es.foldlM (fun (s : StrState) (x : Partition × Nat) => nodeStringP k x.1 x.2 ts feats s)
      ⟨List.replicate feats.length (-1, 0), out⟩).map fun s => (s.flags.map (·.2), s.out)

/-- `Graph::GetNodeStringFeature` (graph.cc:223-253) on a graph loaded with storage type `k`. -/
def nodeString (k : Kind) (g : Graph) (feats : List Nat) : List (Int × Option Int) → Bytes →
    Option (List Nat × Bytes)
  | [], out => some ([], out)
  | (n, t) :: ns, out => (nodeString1 k g feats n t out).bind fun x =>
      (nodeString k g feats ns x.2).map fun y => (x.1 ++ y.1, y.2)

/-- `Partition::GetEdgeStringFeature` (partition.cc:1048-1100). -/
def edgeStringP (k : Kind) (p : Partition) (id : Nat) (dst typ : Int) (ts : Option Int) (feats : List Nat)
    (s : StrState) : Option StrState :=
  (p.edgeOffset id dst typ).bind fun o =>
    match o with
    | none => some s
    | some e => (p.edgeFeatureOffset[e]?).bind fun lo => (p.edgeFeatureOffset[e + 1]?).bind fun hi =>
      ((stringLoop (stringStep true p.edgeFeatureIndex lo hi ts) feats s.flags s.out).run k p.edgeFeatures).map
        fun y => ⟨y.1, y.2⟩

/-- One iteration of `Graph::GetEdgeStringFeature` (graph.cc:337-358). -/
def edgeString1 (k : Kind) (g : Graph) (feats : List Nat) (e : EdgeId) (ts : Option Int) (out : Bytes) :
    Option (List Nat × Bytes) :=
  (g.entries e.src).bind fun es =>
    (es.foldlM (fun (s : StrState) (x : Partition × Nat) => edgeStringP k x.1 x.2 e.dst e.typ ts feats s)
      ⟨List.replicate feats.length (-1, 0), out⟩).map fun s => (s.flags.map (·.2), s.out)

/-- `Graph::GetEdgeStringFeature` (graph.cc:328-359) on a graph loaded with storage type `k`. -/
def edgeString (k : Kind) (g : Graph) (feats : List Nat) : List (EdgeId × Option Int) → Bytes →
    Option (List Nat × Bytes)
  | [], out => some ([], out)
  | (e, t) :: es, out => (edgeString1 k g feats e t out).bind fun x =>
      (edgeString k g feats es x.2).map fun y => (x.1 ++ y.1, y.2)

/-- The indices of one value after another, each behind `prefix` (partition.cc:114-126). -/
def readIndices (pre : Int) (dim : Nat) : Nat → Nat → Rd (List Int)
  | 0, _ => .ret []
  | k + 1, off => .read off (dim * 8) fun raw =>
      (readIndices pre dim k (off + 8 * dim)).map fun rest => (pre :: (records 8 raw).map rdI64) ++ rest

/-- `deserialize_sparse_features` (partition.cc:85-135). -/
def deserializeSparse (off stored : Nat) (pre : Int) (s : SparseState) : Rd SparseState :=
  if stored ≤ 12 then .ret s
  else .read off 4 fun b1 => .read (off + 4) 4 fun b2 =>
    let size := leNat b1
    let dim := leNat b2
    if dim = 0 then .fail
    else
      let num := size / dim
      (readIndices pre dim num (off + 8)).bind fun idx =>
        .read (off + 8 + 8 * dim * num) (stored - size * 8 - 8) fun vals =>
          .ret { s with dim := dim, indices := s.indices ++ idx, values := s.values ++ vals }

/-- One iteration of the loop in `Partition::GetNodeSparseFeature` (partition.cc:536-585) and
`GetEdgeSparseFeature` (partition.cc:1010-1045) without timestamps. -/
def sparseStep (index : List Nat) (lo hi : Nat) (pre : Int) (fid : Nat) (s : SparseState) : Rd SparseState :=
  if s.flag ≥ 0 then .ret s
  else (Rd.ofOption (featRange index lo hi fid)).bind fun r =>
    match r with
    | none => .ret s
    | some r => if r.2 = 0 then .ret s
      else deserializeSparse r.1 r.2 pre { s with flag := 0 }

/-- `Partition::GetNodeSparseFeature` (partition.cc:520-586) without timestamps. -/
def nodeSparseP (k : Kind) (p : Partition) (id : Nat) (pre : Int) (feats : List Nat) (ss : List SparseState) :
    Option (List SparseState) :=
  if p.nodeFeatureIndex = [] then some ss
  else (p.nodeIndex[id]?).bind fun lo => (p.nodeIndex[id + 1]?).bind fun hi =>
    (stepAll (sparseStep p.nodeFeatureIndex lo hi pre) feats ss).run k p.nodeFeatures

/-- Loop of `Graph::GetNodeSparseFeature` (graph.cc:202-220). -/
def nodeSparseLoop (k : Kind) (g : Graph) (feats : List Nat) : List Int → Nat → List SparseState →
    Option (List SparseState)
  | [], _, ss => some ss
  | n :: ns, i, ss => (g.entries n).bind fun es =>
      (es.foldlM (fun (ss : List SparseState) (x : Partition × Nat) => nodeSparseP k x.1 x.2 i feats ss)
        (ss.map fun s => { s with flag := -1 })).bind
        fun ss => nodeSparseLoop k g feats ns (i + 1) ss

/-- `Graph::GetNodeSparseFeature` (graph.cc:187-221) on a graph loaded with storage type `k`. -/
def nodeSparse (k : Kind) (g : Graph) (feats : List Nat) (nodes : List Int) :
    Option (List (Nat × List Int × Bytes)) :=
  (nodeSparseLoop k g feats nodes 0 (List.replicate feats.length {})).map fun ss =>
    ss.map fun s => (s.dim, s.indices, s.values)

/-- `Partition::GetEdgeSparseFeature` (partition.cc:992-1046) without timestamps. -/
def edgeSparseP (k : Kind) (p : Partition) (id : Nat) (dst typ : Int) (pre : Int) (feats : List Nat)
    (ss : List SparseState) : Option (List SparseState) :=
  p.withEdge id dst typ ss fun lo hi =>
    (stepAll (sparseStep p.edgeFeatureIndex lo hi pre) feats ss).run k p.edgeFeatures

/-- Loop of `Graph::GetEdgeSparseFeature` (graph.cc:304-325). -/
def edgeSparseLoop (k : Kind) (g : Graph) (feats : List Nat) : List EdgeId → Nat → List SparseState →
    Option (List SparseState)
  | [], _, ss => some ss
  | e :: es, i, ss => (g.entries e.src).bind fun en =>
      (en.foldlM (fun (ss : List SparseState) (x : Partition × Nat) =>
          edgeSparseP k x.1 x.2 e.dst e.typ i feats ss)
        (ss.map fun s => { s with flag := -1 })).bind fun ss => edgeSparseLoop k g feats es (i + 1) ss

/-- `Graph::GetEdgeSparseFeature` (graph.cc:293-326) on a graph loaded with storage type `k`. -/
def edgeSparse (k : Kind) (g : Graph) (feats : List Nat) (edges : List EdgeId) :
    Option (List (Nat × List Int × Bytes)) :=
  (edgeSparseLoop k g feats edges 0 (List.replicate feats.length {})).map fun ss =>
    ss.map fun s => (s.dim, s.indices, s.values)

end DeepGNN.Storage
