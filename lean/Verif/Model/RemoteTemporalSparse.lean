import Verif.Model.RemoteSparse
import Verif.Model.TemporalSparse

/-
Sparse features at given times from several servers (src/cc/lib/distributed/graph_engine.cc).  The client is that of
Model/RemoteSparse.lean: it compares the timestamps of a reply with -1 only.
-/

namespace DeepGNN

/-- The loop over the partitions of a node in `GraphEngineServiceImpl::GetNodeSparseFeatures` (graph_engine.cc:252-262)
for a node with its timestamp. -/
def Graph.nodeSparseAtPart (g : Graph) (feats : List Nat) (x : Int × Int) (i : Nat) (ss : List (SparseState × Nat)) :
    Option (List (SparseState × Nat)) :=
  (g.entries x.1).bind fun es =>
    es.foldlM (fun (ss : List (SparseState × Nat)) (e : Partition × Nat) => e.1.nodeSparseAt e.2 x.2 i feats ss) ss

/-- The loop over the partitions of the source of an edge in `GraphEngineServiceImpl::GetEdgeSparseFeatures`
(graph_engine.cc:302-312) for an edge with its timestamp. -/
def Graph.edgeSparseAtPart (g : Graph) (feats : List Nat) (x : EdgeId × Int) (i : Nat) (ss : List SparseState) :
    Option (List SparseState) :=
  (g.entries x.1.src).bind fun es =>
    es.foldlM (fun (ss : List SparseState) (e : Partition × Nat) =>
      e.1.edgeSparseAt e.2 x.1.dst x.1.typ x.2 i feats ss) ss

/-- The loop over the nodes of a request (graph_engine.cc:243-263): the collected features, and the flags of all of
them.  `values_sizes` is kept from node to node. -/
def serveSparsesAt {α : Type} (q : α → Nat → List (SparseState × Nat) → Option (List (SparseState × Nat))) :
    List α → Nat → List (SparseState × Nat) → Option (List (SparseState × Nat) × List Int)
  | [], _, ss => some (ss, [])
  | x :: xs, i, ss => (q x i (ss.map fun s => ({ s.1 with flag := -1 }, s.2))).bind fun ss =>
      (serveSparsesAt q xs (i + 1) ss).map fun r => (r.1, ss.map (·.1.flag) ++ r.2)

/-- `GraphEngineServiceImpl::GetNodeSparseFeatures` (graph_engine.cc:230-274) with one timestamp per node. -/
def Graph.getNodeSparseAt (g : Graph) (feats : List Nat) (nodes : List (Int × Int)) : Option SparseReply :=
  (serveSparsesAt (g.nodeSparseAtPart feats) nodes 0 (List.replicate feats.length ({}, 0))).map fun x =>
    sparseReply (x.1.map (·.1), x.2)

/-- `GraphEngineServiceImpl::GetEdgeSparseFeatures` (graph_engine.cc:276-325) with one timestamp per edge. -/
def Graph.getEdgeSparseAt (g : Graph) (feats : List Nat) (edges : List (EdgeId × Int)) : Option SparseReply :=
  (serveSparses (g.edgeSparseAtPart feats) edges 0 (List.replicate feats.length {})).map sparseReply

end DeepGNN
