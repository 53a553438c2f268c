import Verif.Model.Sampling
import Verif.Model.Remote

/-
Edge creation times returned beside neighbours (`return_edge_created_ts`): full neighbours and uniform samples
(src/cc/lib/graph/partition.cc:774-830, 1350-1554, graph.cc:392-426, 479-550; src/cc/lib/distributed/graph_engine.cc:448-514,
client.cc:632-716).
The watermark of the metadata is the argument `watermark`; a graph has creation times if it is not negative.  Creation times
of the last created neighbours are in `Model/Temporal.lean`.
-/

namespace DeepGNN

/-- `PLACEHOLDER_TIMESTAMP` (src/cc/lib/graph/types.h). -/
def noTime : Int := -1

/-- The times appended for an edge type in the temporal lambda of `Partition::FullNeighbor` (partition.cc:785-801). -/
def Partition.groupCreatedAt (p : Partition) (ts : Int) (g : Group) : Option (List Int) := do
  let l ← (List.range' g.start (g.last - g.start)).mapM fun j => do
    let t ← p.edgeTimestamps[j]?
    return if t.1 ≤ ts ∧ (t.2 > ts ∨ t.2 = -1) then [t.1] else []
  return l.flatten

/-- The times appended by `Partition::FullNeighbor` (partition.cc:774-830): creation times if a timestamp is given, placeholders
otherwise (816-819; there the vector is resized to the number of types, which is the number of times before plus that of the
edges of the type). -/
def Partition.fullCreated (p : Partition) (id : Nat) (ts : Option Int) (types : List Int) : Option (List Int) := do
  let gs ← p.groups id
  let ws := walk Group.typ gs types
  match ts with
  | none => return (ws.map fun g => List.replicate (g.last - g.start) noTime).flatten
  | some t =>
    let l ← ws.mapM (p.groupCreatedAt t)
    return l.flatten

/-- The loop over the partitions of a node (graph.cc:411-419). -/
def Graph.fullCreated1 (g : Graph) (ts : Option Int) (types : List Int) (node : Int) : Option (List Int) := do
  let es ← g.entries node
  let rs ← es.mapM fun (p, id) => p.fullCreated id ts types
  return rs.flatten

/-- The times returned by `Graph::FullNeighbor` (graph.cc:392-426): those of the partitions in a temporal graph, placeholders for
all neighbours otherwise (422-425). -/
def Graph.fullCreated (g : Graph) (watermark : Int) (nodes : List Int) (ts : Option (List Int)) (types : List Int) :
    Option (List Int) :=
  if 0 ≤ watermark then do
    let rs ← match ts with
      | none => nodes.mapM (g.fullCreated1 none types)
      | some ts => (nodes.zip ts).mapM fun (n, t) => g.fullCreated1 (some t) types n
    return rs.flatten
  else (g.fullNeighbor nodes ts types).map fun r => List.replicate r.1.length noTime

/-- A slice of `m_edge_destination` with the creation times of the same slice of `m_edge_timestamps` (partition.cc:1434-1435,
1517-1518). -/
def Partition.timedSpan (p : Partition) (first size : Nat) : Option (List (Int × Int)) :=
  (List.range' first size).mapM fun j => (p.edgeDst[j]?).bind fun d => (p.edgeTimestamps[j]?).map fun t => (d, t.1)

/-- The blocks of ((destination, type), creation time) offered to the reservoir at a timestamp, see `Partition.sampleBlocks`.  A
partition with edges has timestamps in a temporal graph. -/
def Partition.timedBlocks (p : Partition) (withoutReplacement : Bool) (id : Nat) (ts : Int) (types : List Int) :
    Option (List (List ((Int × Int) × Int))) := do
  let gs ← p.groups id
  let bs ← (sampleGroups gs types).mapM fun (g, e) => do
    let ps ← p.pieces withoutReplacement (some ts) g
    ps.mapM fun x => (p.timedSpan x.1 x.2).map fun l =>
      l.map fun d => ((d.1, if withoutReplacement then e else g.typ), d.2)
  return bs.flatten

/-- One iteration of `Graph::UniformSampleNeighbor` with timestamps and creation times in a temporal graph (graph.cc:496-544),
without replacement.  The three output arrays are one list.  `none`: the times are filled with placeholders from position `total`
on (541-542), also if `total` is beyond the end of the array. -/
def Graph.createdWithout1 (g : Graph) (R : Draws) (ts : Int) (types : List Int) (count : Nat)
    (default : Int × Int) (node : Int) (out : List ((Int × Int) × Int)) (s : Nat) :
    Option (List ((Int × Int) × Int) × Nat) := do
  let es ← g.entries node
  let blocks ← es.mapM fun (p, id) => p.timedBlocks true id ts (sortUnique types)
  let (out, _, s) ← blocks.flatten.foldlM (fun st xs => AlgL.add R (store xs) xs.length st)
    (out, ({ k := count } : AlgL), s)
  let total := (blocks.flatten.map List.length).sum
  if total > count then none
  else return (out.take total ++ List.replicate (out.length - total) (default, noTime), s)

/-- The same with replacement: nothing is filled if there is a neighbour (graph.cc:526-530). -/
def Graph.createdWith1 (g : Graph) (R : Draws) (ts : Int) (types : List Int) (count : Nat)
    (default : Int × Int) (node : Int) (out : List ((Int × Int) × Int)) (s : Nat) :
    Option (List ((Int × Int) × Int) × Nat) := do
  let es ← g.entries node
  let blocks ← es.mapM fun (p, id) => p.timedBlocks false id ts (sortUnique types)
  let (out, _, s) ← blocks.flatten.foldlM (fun st xs => withReplacementAdd R (store xs) count xs.length st)
    (out, 0, s)
  let total := (blocks.flatten.map List.length).sum
  if total > 0 then return (out, s)
  else return (out.take total ++ List.replicate (out.length - total) (default, noTime), s)

/-- `Graph::UniformSampleNeighbor` with timestamps and creation times in a temporal graph (graph.cc:479-550). -/
def Graph.createdSample (g : Graph) (R : Draws) (withoutReplacement : Bool) (types : List Int) (count : Nat)
    (default : Int × Int) (reqs : List ((Int × Int) × List ((Int × Int) × Int))) (s : Nat) :
    Option (List (List ((Int × Int) × Int)) × Nat) :=
  sampleNodes (fun n out s =>
    if withoutReplacement then g.createdWithout1 R n.2 types count default n.1 out s
    else g.createdWith1 R n.2 types count default n.1 out s) reqs s

/-- What a call with creation times but without timestamps leaves in the array of times of a node of a temporal graph
(graph.cc:503-544): `total` is the number of its neighbours, `old` what was there before.  Nothing is written by the partitions
(partition.cc:1463-1475, 1540-1548). -/
def untimedTimes (withoutReplacement : Bool) (total : Nat) (old : List Int) : List Int :=
  if !withoutReplacement ∧ total > 0 then old else List.replicate old.length noTime

/-- The message `GetNeighborsReply` with creation times. -/
structure TimedReply where
  counts : List Nat
  nbrs : List Nbr
  times : List Int
deriving DecidableEq, Repr

/-- `GraphEngineServiceImpl::GetNeighbors` (graph_engine.cc:448-514) with `return_edge_created_ts`. -/
def Graph.getTimed (g : Graph) (watermark : Int) (nodes : List Int) (ts : Option (List Int)) (types : List Int) :
    Option TimedReply :=
  (g.fullNeighbor nodes ts types).bind fun r => (g.fullCreated watermark nodes ts types).map fun t =>
    { counts := r.2, nbrs := r.1, times := t }

/-- Body of the inner loop of the merge in `GRPCClient::FullNeighbor` (client.cc:671-708), see `mergeReply`. -/
def mergeTimed (node : Nat) (s : TimedReply × Nat) : Option ((TimedReply × Nat) × List (Nbr × Int)) :=
  match s.1.counts[node]? with
  | none => some (s, [])
  | some 0 => some (s, [])
  | some (c + 1) =>
    if s.2 + (c + 1) ≤ s.1.nbrs.length ∧ s.2 + (c + 1) ≤ s.1.times.length then
      some ((s.1, s.2 + (c + 1)), ((s.1.nbrs.drop s.2).take (c + 1)).zip ((s.1.times.drop s.2).take (c + 1)))
    else none

/-- The inner loop (client.cc:669-709). -/
def mergeTimedNode (node : Nat) : List (TimedReply × Nat) → Option (List (TimedReply × Nat) × List (Nbr × Int) × Nat)
  | [] => some ([], [], 0)
  | s :: ss => (mergeTimed node s).bind fun x => (mergeTimedNode node ss).map fun y =>
      (x.1 :: y.1, x.2 ++ y.2.1, x.2.length + y.2.2)

/-- The outer loop (client.cc:667-710). -/
def mergeTimedNodes : (node n : Nat) → List (TimedReply × Nat) → Option (List (Nbr × Int) × List Nat)
  | _, 0, _ => some ([], [])
  | node, n + 1, ss => (mergeTimedNode node ss).bind fun x => (mergeTimedNodes (node + 1) n x.1).map fun y =>
      (x.2.1 ++ y.1, x.2.2 :: y.2)

/-- `GRPCClient::FullNeighbor` for `n` nodes with creation times (client.cc:632-716). -/
def remoteTimed (n : Nat) (evs : List (Ev TimedReply)) (servers : Nat) : Option (Option (List (Nbr × Int) × List Nat)) :=
  waitAll (fun rs => mergeTimedNodes 0 n (rs.map fun r => (r, 0))) ⟨[], [], []⟩ servers evs

end DeepGNN
