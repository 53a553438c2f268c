import Verif.Model.Features

/-
Sparse features requested with timestamps, from a temporal graph.  JsonDecoder cannot produce such features
(decoders.py:373-382); a custom decoder that yields the stored bytes can.
-/

namespace DeepGNN

/-- `deserialize_sparse_features` (partition.cc:85-135) with its output parameter `values_length`: the number of
value bytes appended, unchanged if the stored value is too short to be one. -/
def readSparse (data : Bytes) (off stored : Nat) (pre : Int) (s : SparseState × Nat) : Option (SparseState × Nat) :=
  (deserializeSparse data off stored pre s.1).map fun s' =>
    (s', if stored ≤ 12 then s.2 else s'.values.length - s.1.values.length)

/-- "Overwrite old string features" (partition.cc:571-578): shrink the coordinates by one tuple and the values by
the size of the last value.  `none`: the size underflows. -/
def dropSparse (s : SparseState × Nat) : Option (SparseState × Nat) :=
  if s.1.indices.length < s.1.dim + 1 ∨ s.1.values.length < s.2 then none
  else some ({ s.1 with indices := s.1.indices.take (s.1.indices.length - s.1.dim - 1),
                        values := s.1.values.take (s.1.values.length - s.2) }, s.2)

/-- One iteration of the loop in `Partition::GetNodeSparseFeature` (partition.cc:536-585) at time `t`. -/
def nodeSparseAtStep (index : List Nat) (data : Bytes) (lo hi : Nat) (t : Int) (pre : Int) (fid : Nat)
    (s : SparseState × Nat) : Option (SparseState × Nat) :=
  if s.1.flag = t then some s
  else (featRange index lo hi fid).bind fun r =>
    match r with
    | none => some s
    | some r => if r.2 = 0 then some s
      else (deserializeTemporal data r.1 t).bind fun v =>
        if s.1.flag ≥ v.2.2 then some s
        else (if s.1.flag ≥ 0 then dropSparse s else some s).bind fun s =>
          readSparse data v.1 v.2.1 pre ({ s.1 with flag := v.2.2 }, s.2)

/-- `Partition::GetNodeSparseFeature` (partition.cc:520-586) at time `t`. -/
def Partition.nodeSparseAt (p : Partition) (id : Nat) (t : Int) (pre : Int) (feats : List Nat)
    (ss : List (SparseState × Nat)) : Option (List (SparseState × Nat)) :=
  if p.nodeFeatureIndex = [] then some ss
  else (p.nodeIndex[id]?).bind fun lo => (p.nodeIndex[id + 1]?).bind fun hi =>
    stepAll (nodeSparseAtStep p.nodeFeatureIndex p.nodeFeatures lo hi t pre) feats ss

/-- Loop of `Graph::GetNodeSparseFeature` (graph.cc:202-220) over nodes with their timestamps. -/
def Graph.nodeSparseAtLoop (g : Graph) (feats : List Nat) : List (Int × Int) → Nat → List (SparseState × Nat) →
    Option (List (SparseState × Nat))
  | [], _, ss => some ss
  | x :: xs, i, ss => (g.entries x.1).bind fun es =>
      (es.foldlM (fun (ss : List (SparseState × Nat)) (e : Partition × Nat) => e.1.nodeSparseAt e.2 x.2 i feats ss)
        (ss.map fun s => ({ s.1 with flag := -1 }, s.2))).bind
        fun ss => g.nodeSparseAtLoop feats xs (i + 1) ss

/-- `Graph::GetNodeSparseFeature` (graph.cc:187-221) with one timestamp per node: dimension, coordinates and
values per feature. -/
def Graph.nodeSparseAt (g : Graph) (feats : List Nat) (nodes : List (Int × Int)) :
    Option (List (Nat × List Int × Bytes)) :=
  (g.nodeSparseAtLoop feats nodes 0 (List.replicate feats.length ({}, 0))).map fun ss =>
    ss.map fun s => (s.1.dim, s.1.indices, s.1.values)

/-- One iteration of the loop in `Partition::GetEdgeSparseFeature` (partition.cc:1010-1045) at time `t`. -/
def edgeSparseAtStep (index : List Nat) (data : Bytes) (lo hi : Nat) (t : Int) (pre : Int) (fid : Nat)
    (s : SparseState) : Option SparseState :=
  if s.flag = t then some s
  else (featRange index lo hi fid).bind fun r =>
    match r with
    | none => some s
    | some r => if r.2 = 0 then some s
      else (deserializeTemporal data r.1 t).bind fun v =>
        deserializeSparse data v.1 v.2.1 pre { s with flag := v.2.2 }

/-- `Partition::GetEdgeSparseFeature` (partition.cc:992-1046) at time `t`. -/
def Partition.edgeSparseAt (p : Partition) (id : Nat) (dst typ : Int) (t : Int) (pre : Int) (feats : List Nat)
    (ss : List SparseState) : Option (List SparseState) :=
  p.withEdge id dst typ ss fun lo hi =>
    stepAll (edgeSparseAtStep p.edgeFeatureIndex p.edgeFeatures lo hi t pre) feats ss

/-- Loop of `Graph::GetEdgeSparseFeature` (graph.cc:304-325) over edges with their timestamps. -/
def Graph.edgeSparseAtLoop (g : Graph) (feats : List Nat) : List (EdgeId × Int) → Nat → List SparseState →
    Option (List SparseState)
  | [], _, ss => some ss
  | x :: xs, i, ss => (g.entries x.1.src).bind fun en =>
      (en.foldlM (fun (ss : List SparseState) (e : Partition × Nat) =>
          e.1.edgeSparseAt e.2 x.1.dst x.1.typ x.2 i feats ss)
        (ss.map fun s => { s with flag := -1 })).bind fun ss => g.edgeSparseAtLoop feats xs (i + 1) ss

/-- `Graph::GetEdgeSparseFeature` (graph.cc:293-326) with one timestamp per edge. -/
def Graph.edgeSparseAt (g : Graph) (feats : List Nat) (edges : List (EdgeId × Int)) :
    Option (List (Nat × List Int × Bytes)) :=
  (g.edgeSparseAtLoop feats edges 0 (List.replicate feats.length {})).map fun ss =>
    ss.map fun s => (s.dim, s.indices, s.values)

end DeepGNN
