import Verif.Model.RemoteLookups

/-
Sparse features from several servers, without timestamps (src/cc/lib/distributed/client.cc, graph_engine.cc,
src/cc/lib/graph/merger.h).
-/

namespace DeepGNN

/-- `SparseFeaturesReply`: per feature the dimension and the numbers of indices and value bytes, all indices and values
one feature after the other, and a timestamp per node (edge) and feature. -/
structure SparseReply where
  dims : List Nat
  indices : List Int
  indexCounts : List Nat
  values : Bytes
  valueCounts : List Nat
  stamps : List Int
deriving DecidableEq, Repr

/-- The loop over the partitions of a node in `GraphEngineServiceImpl::GetNodeSparseFeatures` (graph_engine.cc:252-262). -/
def Graph.nodeSparsePart (g : Graph) (feats : List Nat) (node : Int) (i : Nat) (ss : List SparseState) :
    Option (List SparseState) :=
  (g.entries node).bind fun es =>
    es.foldlM (fun (ss : List SparseState) (x : Partition × Nat) => x.1.nodeSparse x.2 i feats ss) ss

/-- The loop over the partitions of the source of an edge in `GraphEngineServiceImpl::GetEdgeSparseFeatures`
(graph_engine.cc:302-312). -/
def Graph.edgeSparsePart (g : Graph) (feats : List Nat) (e : EdgeId) (i : Nat) (ss : List SparseState) :
    Option (List SparseState) :=
  (g.entries e.src).bind fun es =>
    es.foldlM (fun (ss : List SparseState) (x : Partition × Nat) => x.1.edgeSparse x.2 e.dst e.typ i feats ss) ss

/-- The loop over the nodes or edges of a request (graph_engine.cc:243-263, 293-313): the collected features, and the
flags of all of them.  The flags of every node are set to -1 before the loop. -/
def serveSparses {α : Type} (q : α → Nat → List SparseState → Option (List SparseState)) :
    List α → Nat → List SparseState → Option (List SparseState × List Int)
  | [], _, ss => some (ss, [])
  | x :: xs, i, ss => (q x i (ss.map fun s => { s with flag := -1 })).bind fun ss =>
      (serveSparses q xs (i + 1) ss).map fun r => (r.1, ss.map (·.flag) ++ r.2)

/-- The reply made of the collected features (graph_engine.cc:265-271, 315-321). -/
def sparseReply (x : List SparseState × List Int) : SparseReply :=
  ⟨x.1.map (·.dim), x.1.flatMap (·.indices), x.1.map (·.indices.length), x.1.flatMap (·.values),
    x.1.map (·.values.length), x.2⟩

/-- `GraphEngineServiceImpl::GetNodeSparseFeatures` (graph_engine.cc:230-274). -/
def Graph.getNodeSparse (g : Graph) (feats : List Nat) (nodes : List Int) : Option SparseReply :=
  (serveSparses (g.nodeSparsePart feats) nodes 0 (List.replicate feats.length {})).map sparseReply

/-- `GraphEngineServiceImpl::GetEdgeSparseFeatures` (graph_engine.cc:276-325). -/
def Graph.getEdgeSparse (g : Graph) (feats : List Nat) (edges : List EdgeId) : Option SparseReply :=
  (serveSparses (g.edgeSparsePart feats) edges 0 (List.replicate feats.length {})).map sparseReply

/-- One iteration of the inner loop of `UpdateSparseFeatureIndex` (merger.h:113-131): the item of `response_index`,
`node_offset`, `value_offset` and the timestamp in the reply. -/
structure SparsePut where
  cell : Nat
  index : Nat
  value : Nat
  ts : Int
deriving DecidableEq, Repr

/-- The inner loop of `UpdateSparseFeatureIndex` (merger.h:113-131) for feature `j` of `F` up to `stop`, where `width` is
`feature_dim`: what the iterations refer to, and both offsets behind them.  `none`: out-of-range read.  The first argument
bounds the number of iterations; `width` is at least 2. -/
def sparsePuts (r : SparseReply) (F j width inc stop : Nat) : Nat → (no vo : Nat) → Option (List SparsePut × Nat × Nat)
  | 0, no, vo => some ([], no, vo)
  | k + 1, no, vo =>
    if no < stop then
      (r.indices[no]?).bind fun it =>
        if it < 0 then none
        else (r.stamps[it.toNat * F + j]?).bind fun t =>
          (sparsePuts r F j width inc stop k (no + width) (vo + inc)).map fun p =>
            (⟨it.toNat * F + j, no, vo, t⟩ :: p.1, p.2)
    else some ([], no, vo)

/-- One critical section of `UpdateSparseFeatureIndex` (merger.h:98-131): what it does for one feature with values. -/
structure SparseStep where
  shard : Nat
  feature : Nat
  dim : Nat
  inc : Nat
  puts : List SparsePut
deriving DecidableEq, Repr

/-- The outer loop of `UpdateSparseFeatureIndex` (merger.h:90-132) from feature `j` on.  `none`: out-of-range read or
division by zero. -/
def sparseLoop (r : SparseReply) (shard F : Nat) : List Nat → (j no vo cum : Nat) → Option (List SparseStep)
  | [], _, _, _, _ => some []
  | d :: ds, j, no, vo, cum =>
    if d = 0 then sparseLoop r shard F ds (j + 1) no vo cum
    else (r.indexCounts[j]?).bind fun ic => (r.valueCounts[j]?).bind fun vc =>
      if ic = 0 then none
      else (sparsePuts r F j (d + 1) (vc * (d + 1) / ic) (cum + ic) r.indices.length no vo).bind fun p =>
        (sparseLoop r shard F ds (j + 1) p.2.1 p.2.2 (cum + ic)).map
          (⟨shard, j, d, vc * (d + 1) / ic, p.1⟩ :: ·)

/-- `UpdateSparseFeatureIndex` (merger.h:80-133): the critical sections of the callback of server `shard`. -/
def sparseSteps (shard F : Nat) (r : SparseReply) : Option (List SparseStep) :=
  if r.indices = [] then some [] else sparseLoop r shard F r.dims 0 0 0 0

/-- The critical sections of all callbacks. -/
def sparseSeqs (F : Nat) (replies : List SparseReply) : Option (List (List SparseStep)) :=
  replies.zipIdx.mapM fun x => sparseSteps x.2 F x.1

/-- `SparseFeatureIndex` (merger.h:21-29) as initialised in client.cc:68-69.  Its timestamp is -1 and is never changed. -/
structure SparseCell where
  shard : Option Nat := none
  index : Nat := 0
  indexCount : Nat := 0
  value : Nat := 0
  valueCount : Nat := 0
deriving DecidableEq, Repr

/-- An iteration of the inner loop on `response_index` (merger.h:116-130). -/
def SparsePut.run (shard width inc : Nat) (cells : List SparseCell) (p : SparsePut) : List SparseCell :=
  match cells[p.cell]? with
  | none => cells
  | some c =>
    if p.ts ≤ -1 ∨ c.shard.any (fun s => decide (s ≠ shard)) = true then cells
    else
      let c := if c.indexCount = 0 then { c with shard := some shard, index := p.index, value := p.value } else c
      cells.set p.cell { c with indexCount := c.indexCount + width, valueCount := c.valueCount + inc }

/-- A critical section on `response_index` and `out_dimensions` (merger.h:98-131).  `none`: `log_fatal` because of different
dimensions. -/
def SparseStep.run (s : List SparseCell × List Nat) (w : SparseStep) : Option (List SparseCell × List Nat) :=
  (s.2[w.feature]?).bind fun d =>
    if d ≠ 0 ∧ d ≠ w.dim then none
    else some (w.puts.foldl (SparsePut.run w.shard (w.dim + 1) w.inc) s.1, s.2.set w.feature w.dim)

/-- `std::copy_n` from a field of a reply. -/
def copyN {α : Type} (l : List α) (off n : Nat) : Option (List α) :=
  if off + n ≤ l.length then some ((l.drop off).take n) else none

/-- An iteration of the inner loop of `ExtractFeatures` (merger.h:43-53). -/
def extractSparse (replies : List SparseReply) (c : SparseCell) : Option (List Int × Bytes) :=
  match c.shard with
  | none => some ([], [])
  | some s => (replies[s]?).bind fun r =>
    if r.indices = [] then some ([], [])
    else (copyN r.indices c.index c.indexCount).bind fun is => (copyN r.values c.value c.valueCount).map fun vs => (is, vs)

/-- `GetSparseFeature` (client.cc:58-105) for `n` nodes (edges) and `F` features: the critical sections are executed in
the order `steps`, then the features are collected (`ExtractFeatures`, merger.h:31-55).  The dimensions start as zeros
(client.cc:478, py_graph.cc:405, 537). -/
def remoteSparse (n F : Nat) (replies : List SparseReply) (steps : List SparseStep) : Option (List (Nat × List Int × Bytes)) :=
  (steps.foldlM SparseStep.run (List.replicate (n * F) {}, List.replicate F 0)).bind fun s =>
    (List.range F).mapM fun j => (s.2[j]?).bind fun d =>
      ((List.range n).mapM fun i => (s.1[i * F + j]?).bind (extractSparse replies)).map fun rows =>
        (d, rows.flatMap (·.1), rows.flatMap (·.2))

end DeepGNN
