import Verif.Model.RemoteSampling

/-
Servers answering weighted sampling requests (src/cc/lib/distributed/graph_engine.cc) and the whole request.
A server holds a graph loaded like a local one (graph_engine.cc:28-92, 724-778).
Not modelled: timestamps and the optional output of edge creation times.
-/

namespace DeepGNN

/-- The loop over the partitions of a known node (graph_engine.cc:603-615): `acc` is `last_shard_weight`. -/
def serverEntries (D : Nat → WDraws) (types : List Int) (count : Nat) (default : Nbr) :
    List (Partition × Nat) → List Nbr → Int → Nat → Option ((Int × List Nbr) × Nat)
  | [], out, acc, s => some ((acc, out), s)
  | e :: es, out, acc, s => (e.1.weightedSample (D s) e.2 types count default out acc).bind fun z =>
      serverEntries D types count default es z.1 z.2 (s + 1)

/-- One iteration of the loop over the nodes (graph_engine.cc:582-616): the total weight and the sampled neighbours, nothing for an
unknown node; `s` is the number of calls made so far.  The row is filled with defaults before (596-598). -/
def Graph.serverWeighted1 (g : Graph) (D : Nat → WDraws) (types : List Int) (count : Nat) (default : Nbr)
    (node : Int) (s : Nat) : Option (Option (Int × List Nbr) × Nat) :=
  match g.nodeMap node with
  | none => some (none, s)
  | some _ => (g.entries node).bind fun es =>
      (serverEntries D types count default es (List.replicate count default) 0 s).map fun z => (some z.1, z.2)

/-- The loop over the nodes: `r` is the response so far. -/
def Graph.serverWeightedLoop (g : Graph) (D : Nat → WDraws) (types : List Int) (count : Nat) (default : Nbr) :
    List Int → Nat → WReply → Option WReply
  | [], _, r => some r
  | n :: ns, s, r => (g.serverWeighted1 D types count default n s).bind fun z =>
      g.serverWeightedLoop D types count default ns z.2 (z.1.elim r fun a =>
        { nodes := r.nodes ++ [(n, a.1)], nbrs := r.nbrs ++ a.2 })

/-- `GraphEngineServiceImpl::WeightedSampleNeighbors` (graph_engine.cc:568-624); the types are sorted by the client
(snark/client.py:197-200, 980). -/
def Graph.serverWeighted (g : Graph) (D : Nat → WDraws) (types : List Int) (count : Nat) (default : Nbr)
    (nodes : List Int) : Option WReply :=
  g.serverWeightedLoop D types count default nodes 0 ⟨[], []⟩

/-- A weighted sampling request to several servers (client.cc:718-769): each server answers with its own draws, `order` gives the order
in which the replies are stored and their callbacks run, `D` are the draws of the client. -/
def sampleServers (servers : List (Graph × (Nat → WDraws))) (D : WDraws) (types : List Int) (count : Nat) (default : Nbr)
    (nodes : List Int) (outs : List (List Nbr)) (order : List WReply → List (Ev WReply)) : Option (List (List Nbr)) :=
  (servers.mapM fun x : Graph × (Nat → WDraws) => x.1.serverWeighted x.2 (sortUnique types) count default nodes).bind fun replies =>
    remoteWeighted D count default nodes outs (order replies) servers.length

end DeepGNN
