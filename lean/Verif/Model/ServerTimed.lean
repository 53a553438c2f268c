import Verif.Model.Server
import Verif.Model.CreatedWeighted

/-
Servers answering weighted sampling requests with timestamps, with and without edge creation times
(src/cc/lib/distributed/graph_engine.cc:568-624, client.cc:718-769).
-/

namespace DeepGNN

/-- The loop over the partitions of a known node (graph_engine.cc:603-615): `acc` is `last_shard_weight`, `q` the call of
`Partition::SampleNeighbor`. -/
def serverRow {α : Type} (q : WDraws → Partition → Nat → List α → Int → Option (List α × Int)) (D : Nat → WDraws) :
    List (Partition × Nat) → List α → Int → Nat → Option ((Int × List α) × Nat)
  | [], out, acc, s => some ((acc, out), s)
  | e :: es, out, acc, s => (q (D s) e.1 e.2 out acc).bind fun z => serverRow q D es z.1 z.2 (s + 1)

/-- One iteration of the loop over the nodes (graph_engine.cc:582-616), see `Graph.serverWeighted1`; `row` is what the row of the
response is filled with (596-602). -/
def Graph.serverRow1 {α : Type} (g : Graph) (q : WDraws → Partition → Nat → List α → Int → Option (List α × Int))
    (D : Nat → WDraws) (row : List α) (node : Int) (s : Nat) : Option (Option (Int × List α) × Nat) :=
  match g.nodeMap node with
  | none => some (none, s)
  | some _ => (g.entries node).bind fun es => (serverRow q D es row 0 s).map fun z => (some z.1, z.2)

/-- The loop over the nodes: `r` is the response so far. -/
def serverRows {α β : Type} (one : β → Nat → Option (Option (Int × List α) × Nat)) (id : β → Int) :
    List β → Nat → WReply α → Option (WReply α)
  | [], _, r => some r
  | q :: qs, s, r => (one q s).bind fun z =>
      serverRows one id qs z.2 (z.1.elim r fun a => { nodes := r.nodes ++ [(id q, a.1)], nbrs := r.nbrs ++ a.2 })

/-- `Partition::SampleNeighbor` with an optional timestamp (partition.cc:1102-1348). -/
def Partition.weightedMaybe (ts : Option Int) (types : List Int) (count : Nat) (default : Nbr) (D : WDraws) (p : Partition)
    (id : Nat) (out : List Nbr) (acc : Int) : Option (List Nbr × Int) :=
  match ts with
  | none => p.weightedSample D id types count default out acc
  | some t => p.weightedSampleAt D id t types count default out acc

/-- The same with creation times (graph_engine.cc:576, 599-602, 617-621): a server whose metadata has no watermark returns
placeholders; without a timestamp the partition writes no times, and the row keeps its placeholders. -/
def Partition.weightedTimes (watermark : Int) (ts : Option Int) (types : List Int) (count : Nat) (default : Nbr) (D : WDraws)
    (p : Partition) (id : Nat) (out : List (Nbr × Int)) (acc : Int) : Option (List (Nbr × Int) × Int) :=
  match ts with
  | none => (p.weightedSample D id types count default (out.map (·.1)) acc).map fun z => (z.1.map (·, noTime), z.2)
  | some t =>
    if 0 ≤ watermark then p.weightedCreated D id t types count default out acc
    else (p.weightedSampleAt D id t types count default (out.map (·.1)) acc).map fun z => (z.1.map (·, noTime), z.2)

/-- `GraphEngineServiceImpl::WeightedSampleNeighbors` without creation times (graph_engine.cc:568-624). -/
def Graph.serverWeightedAt (g : Graph) (D : Nat → WDraws) (types : List Int) (count : Nat) (default : Nbr)
    (reqs : List (Int × Option Int)) : Option (WReply Nbr) :=
  serverRows (fun q s => g.serverRow1 (Partition.weightedMaybe q.2 types count default) D (List.replicate count default) q.1 s)
    (·.1) reqs 0 ⟨[], []⟩

/-- `GraphEngineServiceImpl::WeightedSampleNeighbors` with creation times (graph_engine.cc:568-624). -/
def Graph.serverWeightedTimes (g : Graph) (watermark : Int) (D : Nat → WDraws) (types : List Int) (count : Nat) (default : Nbr)
    (reqs : List (Int × Option Int)) : Option (WReply (Nbr × Int)) :=
  serverRows (fun q s => g.serverRow1 (Partition.weightedTimes watermark q.2 types count default) D
    (List.replicate count (default, noTime)) q.1 s) (·.1) reqs 0 ⟨[], []⟩

/-- A weighted sampling request with timestamps to several servers (client.cc:718-769), see `sampleServers`. -/
def sampleServersAt (servers : List (Graph × (Nat → WDraws))) (D : WDraws) (types : List Int) (count : Nat) (default : Nbr)
    (reqs : List (Int × Option Int)) (outs : List (List Nbr)) (order : List (WReply Nbr) → List (Ev (WReply Nbr))) :
    Option (List (List Nbr)) :=
  (servers.mapM fun x : Graph × (Nat → WDraws) => x.1.serverWeightedAt x.2 (sortUnique types) count default reqs).bind fun replies =>
    remoteWeighted D count default (reqs.map (·.1)) outs (order replies) servers.length

/-- The same with creation times: the array of times is merged in the same way as the others (client.cc:755-762, merger.h:248-364),
so that all arrays are one list; the second component of a server is its watermark. -/
def sampleServersTimes (servers : List ((Graph × Int) × (Nat → WDraws))) (D : WDraws) (types : List Int) (count : Nat)
    (default : Nbr) (reqs : List (Int × Option Int)) (outs : List (List (Nbr × Int)))
    (order : List (WReply (Nbr × Int)) → List (Ev (WReply (Nbr × Int)))) : Option (List (List (Nbr × Int))) :=
  (servers.mapM fun x : (Graph × Int) × (Nat → WDraws) =>
      x.1.1.serverWeightedTimes x.1.2 x.2 (sortUnique types) count default reqs).bind fun replies =>
    remoteWeighted D count (default, noTime) (reqs.map (·.1)) outs (order replies) servers.length

end DeepGNN
