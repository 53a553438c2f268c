import Verif.Model.Remote

/-
The last created neighbours from several servers (src/cc/lib/distributed/client.cc, graph_engine.cc,
src/cc/lib/graph/merger.h).
-/

namespace DeepGNN

/-- `GetNeighborsReply` to `GetLastNCreatedNeighbors`: a count per node, and `count` neighbours with creation times per
node, of which only the first ones are filled. -/
structure LastNReply where
  counts : List Nat
  slots : List Slot
deriving DecidableEq, Repr

/-- What an unfilled position of a reply holds (graph_engine.cc:529-536). -/
def emptySlot : Slot := ⟨-1, -1, -1, -1⟩

/-- The loop over the partitions of a node in `GraphEngineServiceImpl::GetLastNCreatedNeighbors` (graph_engine.cc:551-560):
the neighbours and `found_neighbors`.  The edge types are used as they are in the request. -/
def Graph.lastNFound (g : Graph) (types : List Int) (count : Nat) (node ts : Int) : Option (LastN × Nat) :=
  (g.entries node).bind fun es =>
    es.foldlM (fun (s : LastN × Nat) (x : Partition × Nat) =>
      (x.1.lastN x.2 ts types count s.1).map fun t => (t, max s.2 t.queue.length)) (({} : LastN), 0)

/-- `GraphEngineServiceImpl::GetLastNCreatedNeighbors` (graph_engine.cc:517-566) on a temporal graph. -/
def Graph.getLastN (g : Graph) (nodes ts types : List Int) (count : Nat) : Option LastNReply :=
  ((nodes.zip ts).mapM fun x => g.lastNFound types count x.1 x.2).map fun rs =>
    ⟨rs.map (·.2), rs.flatMap fun r => r.1.out ++ List.replicate (count - r.1.out.length) emptySlot⟩

/-- The loop over the neighbours of a node in one reply (merger.h:204-232).  `none`: out-of-range read, or `top()` of an
empty queue. -/
def mergeLastReply (count node : Nat) (s : LastN) (r : LastNReply) : Option LastN :=
  (r.counts[node]?).bind fun c =>
    ((List.range' (node * count) c).mapM fun k => r.slots[k]?).bind fun es => es.foldlM (LastN.push count) s

/-- `MergeLastNCreatedNeighbors` for node number `node` (merger.h:183-246); `default` is what missing neighbours are
filled with. -/
def mergeLastNode (count : Nat) (default : Slot) (replies : List LastNReply) (node : Nat) : Option (List Slot) :=
  (replies.foldlM (mergeLastReply count node) ({} : LastN)).map fun s =>
    s.out ++ List.replicate (count - s.out.length) default

/-- `GRPCClient::LastNCreated` for `n` nodes (client.cc:592-630, merger.h:168-248); the types of the request are sorted
without duplicates by the caller (client.py:197-200, 1201).  The creation times are always part of the result here. -/
def remoteLastN (n count : Nat) (default : Slot) (evs : List (Ev LastNReply)) (servers : Nat) :
    Option (Option (List Slot)) :=
  waitAll (fun rs => ((List.range n).mapM (mergeLastNode count default rs)).map List.flatten) ⟨[], []⟩ servers evs

end DeepGNN
