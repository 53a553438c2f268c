import Verif.Model.RemoteSampling
import Verif.Model.Created

/-
Servers answering uniform sampling requests (src/cc/lib/distributed/graph_engine.cc) and the whole request.
-/

namespace DeepGNN

/-- One iteration of the loop over the nodes (graph_engine.cc:642-679): the number of neighbours and the sampled neighbours,
nothing for an unknown node; `s` is the next draw.  `blocksOf` is what a partition offers to the samplers.  The row is filled with
defaults before (660-667).  As in `Graph.sampleWithout1`, the blocks of all partitions are computed first. -/
def Graph.serverUniform1 {α : Type} (g : Graph) (R : Draws) (withoutReplacement : Bool)
    (blocksOf : Partition → Nat → Option (List (List α))) (count : Nat) (default : α) (node : Int) (s : Nat) :
    Option (Option (Nat × List α) × Nat) :=
  match g.nodeMap node with
  | none => some (none, s)
  | some _ => (g.entries node).bind fun es =>
    (es.mapM fun e : Partition × Nat => blocksOf e.1 e.2).bind fun blocks =>
    (if withoutReplacement then
      (blocks.flatten.foldlM (fun st xs => AlgL.add R (store xs) xs.length st)
        (List.replicate count default, ({ k := count } : AlgL), s)).map fun z => (z.1, z.2.2)
    else
      (blocks.flatten.foldlM (fun st xs => withReplacementAdd R (store xs) count xs.length st)
        (List.replicate count default, 0, s)).map fun z => (z.1, z.2.2)).map fun z =>
      (some ((blocks.flatten.map List.length).sum, z.1), z.2)

/-- The loop over the nodes: `r` is the response so far. -/
def Graph.serverUniformLoop {α : Type} (g : Graph) (R : Draws) (withoutReplacement : Bool)
    (blocksOf : Option Int → Partition → Nat → Option (List (List α))) (count : Nat) (default : α) :
    List (Int × Option Int) → Nat → UReply α → Option (UReply α)
  | [], _, r => some r
  | n :: ns, s, r => (g.serverUniform1 R withoutReplacement (blocksOf n.2) count default n.1 s).bind fun z =>
      g.serverUniformLoop R withoutReplacement blocksOf count default ns z.2 (z.1.elim r fun a =>
        { nodes := r.nodes ++ [n.1], counts := r.counts ++ [a.1], nbrs := r.nbrs ++ a.2 })

/-- `GraphEngineServiceImpl::UniformSampleNeighbors` (graph_engine.cc:626-687): requests are nodes with their timestamp, if the query
has any. -/
def Graph.serverUniform (g : Graph) (R : Draws) (withoutReplacement : Bool) (types : List Int) (count : Nat)
    (default : Int × Int) (reqs : List (Int × Option Int)) : Option (UReply (Int × Int)) :=
  g.serverUniformLoop R withoutReplacement (fun ts p id => p.sampleBlocks withoutReplacement id ts types) count default reqs 0
    ⟨[], [], []⟩

/-- What a partition offers with creation times: `fill_edge_ts_by_partition` (graph_engine.cc:634) is false for a graph without
them, then the placeholders written before the loop stay (665, 681-685); without timestamps in the request a partition writes none
(partition.cc:1463-1475, 1540-1548). -/
def Partition.offered (p : Partition) (watermark : Int) (withoutReplacement : Bool) (id : Nat) (ts : Option Int)
    (types : List Int) : Option (List (List ((Int × Int) × Int))) :=
  match ts with
  | some t =>
    if 0 ≤ watermark then p.timedBlocks withoutReplacement id t types
    else (p.sampleBlocks withoutReplacement id ts types).map fun bs => bs.map (·.map fun x => (x, noTime))
  | none => (p.sampleBlocks withoutReplacement id ts types).map fun bs => bs.map (·.map fun x => (x, noTime))

/-- The same with `return_edge_created_ts`; `watermark` is that of the metadata of the server. -/
def Graph.serverCreated (g : Graph) (watermark : Int) (R : Draws) (withoutReplacement : Bool) (types : List Int) (count : Nat)
    (default : Int × Int) (reqs : List (Int × Option Int)) : Option (UReply ((Int × Int) × Int)) :=
  g.serverUniformLoop R withoutReplacement (fun ts p id => p.offered watermark withoutReplacement id ts types) count
    (default, noTime) reqs 0 ⟨[], [], []⟩

/-- A uniform sampling request to several servers (client.cc:771-881): each server answers with its own draws, `R` are the draws
of the client, `s` the first one after the seeds of the requests.  The types are sorted by the client (snark/client.py:197-200). -/
def uniformServers (servers : List (Graph × Draws)) (R : Draws) (withoutReplacement : Bool) (types : List Int) (count : Nat)
    (default : Int × Int) (reqs : List (Int × Option Int)) (s : Nat) : Option (List (List (Int × Int)) × Nat) :=
  (servers.mapM fun x : Graph × Draws =>
      x.1.serverUniform x.2 withoutReplacement (sortUnique types) count default reqs).bind fun replies =>
    remoteUniform R withoutReplacement count default (reqs.map (·.1)) replies s

/-- The same with creation times (client.cc:815-818, 846-849, 867-870): a server is a graph with its watermark. -/
def createdServers (servers : List ((Graph × Int) × Draws)) (R : Draws) (withoutReplacement : Bool) (types : List Int)
    (count : Nat) (default : Int × Int) (reqs : List (Int × Option Int)) (s : Nat) :
    Option (List (List ((Int × Int) × Int)) × Nat) :=
  (servers.mapM fun x : (Graph × Int) × Draws =>
      x.1.1.serverCreated x.1.2 x.2 withoutReplacement (sortUnique types) count default reqs).bind fun replies =>
    remoteUniform R withoutReplacement count (default, noTime) (reqs.map (·.1)) replies s

end DeepGNN
