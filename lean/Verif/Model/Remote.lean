import Verif.Model.Temporal

/-
The distributed client (src/cc/lib/distributed/client.cc) and the services it calls
(src/cc/lib/distributed/graph_engine.cc).
A server holds the same tables as a local graph (graph_engine.h; graph_engine.cc:35-93, 722-785), so its state
is a `Graph`.  Not modelled: the wire format, failed calls (client.cc:208-224 turns them into an exception),
edge creation times in replies (see `Model/Created.lean`).
-/

namespace DeepGNN

/-- Events of a request sent to several servers: gRPC stores the reply of a server in
`replies[shard]`, and later a completion thread runs its callback (client.cc:189-230). -/
inductive Ev (ρ : Type) where
  | recv (shard : Nat) (reply : ρ)
  | run (shard : Nat)
deriving DecidableEq

/-- State of a request whose callbacks wait for the last one: `responses_left`, `replies`, the output,
`none` before it is written. -/
structure WaitAll (ρ α : Type) where
  left : Nat
  replies : List ρ
  out : Option α

/-- One event for such a request (client.cc:566-585, 660-712): `fetch_sub` on the counter; the callback that
takes the counter from 1 to 0 merges all replies. -/
def WaitAll.step {ρ α : Type} (merge : List ρ → α) (s : WaitAll ρ α) : Ev ρ → WaitAll ρ α
  | .recv i r => { s with replies := s.replies.set i r }
  | .run _ => if s.left > 1 then { s with left := s.left - 1 }
      else { s with left := s.left - 1, out := some (merge s.replies) }

/-- A request to `n` servers, with empty replies to begin with (client.cc:550-552, 645-650). -/
def waitAll {ρ α : Type} (merge : List ρ → α) (empty : ρ) (n : Nat) (evs : List (Ev ρ)) : Option α :=
  (evs.foldl (WaitAll.step merge) { left := n, replies := List.replicate n empty, out := none }).out

/-- `GetNeighborsReply`: a count per node and the neighbours (node ids, types and weights, added together). -/
structure NbrReply where
  counts : List Nat
  nbrs : List Nbr
deriving DecidableEq, Repr

/-- `GraphEngineServiceImpl::GetNeighbors` (graph_engine.cc:448-514): the loop of `Graph::FullNeighbor`. -/
def Graph.getNeighbors (g : Graph) (nodes : List Int) (ts : Option (List Int)) (types : List Int) : Option NbrReply :=
  (g.fullNeighbor nodes ts types).map fun r => { counts := r.2, nbrs := r.1 }

/-- Body of the inner loop of the merge in `GRPCClient::FullNeighbor` (client.cc:671-708): a reply with its
offset; the new offset and the neighbours to be appended.  A short reply is skipped. -/
def mergeReply (node : Nat) (s : NbrReply × Nat) : Option ((NbrReply × Nat) × List Nbr) :=
  match s.1.counts[node]? with
  | none => some (s, [])
  | some 0 => some (s, [])
  | some (c + 1) =>
    if s.2 + (c + 1) ≤ s.1.nbrs.length then some ((s.1, s.2 + (c + 1)), (s.1.nbrs.drop s.2).take (c + 1)) else none

/-- The inner loop (client.cc:669-709): the replies with their offsets, the neighbours and the count of the node. -/
def mergeNode (node : Nat) : List (NbrReply × Nat) → Option (List (NbrReply × Nat) × List Nbr × Nat)
  | [] => some ([], [], 0)
  | s :: ss => (mergeReply node s).bind fun x => (mergeNode node ss).map fun y =>
      (x.1 :: y.1, x.2 ++ y.2.1, x.2.length + y.2.2)

/-- The outer loop (client.cc:667-710) from node number `node` on, for `n` nodes; the counts are 0
before (py_graph.cc:640). -/
def mergeNodes : (node n : Nat) → List (NbrReply × Nat) → Option (List Nbr × List Nat)
  | _, 0, _ => some ([], [])
  | node, n + 1, ss => (mergeNode node ss).bind fun x => (mergeNodes (node + 1) n x.1).map fun y =>
      (x.2.1 ++ y.1, x.2.2 :: y.2)

/-- `GRPCClient::FullNeighbor` for `n` nodes (client.cc:632-716). -/
def remoteNeighbors (n : Nat) (evs : List (Ev NbrReply)) (servers : Nat) : Option (Option (List Nbr × List Nat)) :=
  waitAll (fun rs => mergeNodes 0 n (rs.map fun r => (r, 0))) ⟨[], []⟩ servers evs

/-- `GraphEngineServiceImpl::GetNeighborCounts` (graph_engine.cc:413-446): the loop of `Graph::NeighborCount`. -/
def Graph.getCounts (g : Graph) (nodes : List Int) (ts : Option (List Int)) (types : List Int) : Option (List Nat) :=
  match ts with
  | none => g.neighborCount nodes types
  | some ts => g.neighborCountAt nodes ts types

/-- `std::transform` of a reply into the counts (client.cc:580-583). -/
def addCounts : List Nat → List Nat → List Nat
  | [], out => out
  | _, [] => []
  | r :: rs, o :: os => (r + o) :: addCounts rs os

/-- `GRPCClient::NeighborCount` for `n` nodes (client.cc:541-590). -/
def remoteCounts (n : Nat) (evs : List (Ev (List Nat))) (servers : Nat) : Option (List Nat) :=
  waitAll (fun rs => rs.foldl (fun out r => addCounts r out) (List.replicate n 0)) [] servers evs

end DeepGNN
