import Verif.Model.UniformRate

/-
Uniform sampling with replacement from several servers with exact draws: every server answers with `count` samples, the client merges them.
-/

namespace DeepGNN.Toss

/-- The elements that the client offers to its sampler: for every server as many as its neighbours (`shard_counts`, client.cc:861, 877), as pairs of
the server and the offset. -/
def offsets {α} (servers : List (List (List α))) : List (List (Nat × Nat)) :=
  servers.zipIdx.map fun x => (List.range x.1.flatten.length).map (x.2, ·)

/-- One output slot of `GRPCClient::UniformSampleNeighbor` with replacement (client.cc:851-881): `e` are the draws of the client for this slot, `D` the
draws of all servers for their `count` slots (graph_engine.cc:668-681), one server after the other.  An offset selects sample `offset % count` of the reply
(client.cc:865). -/
def mergedSlot {α} (count : Nat) (servers : List (List (List α))) (e : List (Nat × Nat)) (D : List (List (Nat × Nat))) : Option α := do
  let (i, off) ← slotAfter none (offsets servers) e
  let blocks ← servers[i]?
  let d ← D[i * count + off % count]?
  slotAfter none blocks d

end DeepGNN.Toss
