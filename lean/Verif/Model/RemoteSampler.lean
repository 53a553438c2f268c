import Verif.Model.RemoteFeatures
import Verif.Model.Sampler

/-
Sampling nodes and edges from several servers (src/cc/lib/distributed/client.cc:887-1032,
src/cc/lib/distributed/graph_sampler.cc, src/cc/lib/distributed/server.cc:20-38).
As in `Verif.Model.Sampler` nodes are `α = Int` and edges `α = Int × Int`; the reply of an edge request has the sources
followed by the destinations in one array, here a list of pairs.  Random draws: see `Verif.Model.Reservoir`.
-/

namespace DeepGNN

/-- What the client knows of a server after `CreateSampler` (client.cc:887-926): the weight of its sampler and whether
the server has one at all (`empty_sampler_id`, server.cc:23-30).  `sample count seed` is its reply, `none` an error. -/
structure SamplerServer (α : Type) where
  weight : Nat
  empty : Bool
  sample : Nat → Nat → Option (List Int × List α)

/-- `EmptyGraphSampler` (server.cc:20-38). -/
def emptyServer {α} : SamplerServer α := { weight := 0, empty := true, sample := fun _ _ => none }

/-- `GraphSamplerServiceImpl::Create` and `Sample` (graph_sampler.cc:43-104); `Rs seed` are the draws of a generator
with that seed, `zero` the contents of a new array. -/
def samplerServer {α} (repl : Bool) (zero : α) (Rs : Nat → Draws) (smp : List (Int × List (SamplerPart α))) :
    SamplerServer α :=
  { weight := (smp.map fun x => weightSum x.2).sum, empty := false,
    sample := fun count seed => if count = 0 then some ([], [])
      else samplerSample repl (Rs seed) smp 0 (List.replicate count 0) (List.replicate count zero) }

/-- A request to a server and the part of the output its reply is copied to. -/
structure SampleCall where
  server : Nat
  position : Nat
  count : Nat
  seed : Nat
deriving DecidableEq, Repr

/-- Sum of the weights of servers. -/
def serverWeights {α} (vs : List (SamplerServer α)) : Nat := (vs.map (·.weight)).sum

/-- Loop of `GRPCClient::SampleNodes` over the servers (client.cc:950-978); the probabilities are those of
`conditional_probabilities` (sampler.cc:631-651). -/
def nodeCalls {α} (R : Draws) : List (SamplerServer α) → Nat → Nat → Nat → Nat → List SampleCall
  | [], _, _, _, _ => []
  | v :: vs, shard, left, position, s =>
    if v.empty then nodeCalls R vs (shard + 1) left position s
    else
      let c := binomial R left v.weight (v.weight + serverWeights vs) s
      ⟨shard, position, c, R (s + 1)⟩ :: nodeCalls R vs (shard + 1) (left - c) (position + c) (s + 2)

/-- Loop of `GRPCClient::SampleEdges` over the servers (client.cc:1005-1028). -/
def edgeCalls {α} (R : Draws) : List (SamplerServer α) → Nat → Nat → Nat → Nat → List SampleCall
  | [], _, _, _, _ => []
  | v :: vs, shard, left, position, s =>
    if left = 0 then []
    else
      let c := binomial R left v.weight (v.weight + serverWeights vs) s
      ⟨shard, position, c, R (s + 1)⟩ :: edgeCalls R vs (shard + 1) (left - c) (position + c) (s + 2)

/-- The reply to a request; `none`: the request fails and the client throws an exception (client.cc:199-224). -/
def SampleCall.reply {α} (servers : List (SamplerServer α)) (c : SampleCall) : Option (List Int × List α) :=
  (servers[c.server]?).bind fun v => v.sample c.count c.seed

/-- Copy `xs` into `out` from `position` on. -/
def writeAt {β} (out : List β) (position : Nat) (xs : List β) : List β :=
  out.take position ++ xs ++ out.drop (position + xs.length)

/-- The callback (client.cc:966-971, 1016-1022): `none` if the reply is longer than the span it is copied to. -/
def copyReply {α} (calls : List SampleCall) (i : Nat) (r : List Int × List α) (st : List Int × List α) :
    Option (List Int × List α) :=
  (calls[i]?).bind fun c =>
    if r.1.length ≤ c.count ∧ r.2.length ≤ c.count then some (writeAt st.1 c.position r.1, writeAt st.2 c.position r.2)
    else none

/-- The rest of `SampleNodes` and `SampleEdges`: callbacks run in any order. `st` are the initial contents of the output. -/
def remoteSample {α} (calls : List SampleCall) (st : List Int × List α) (evs : List (Ev (List Int × List α))) :
    Option (List Int × List α) :=
  (eachReply (copyReply calls) ([], []) st calls.length evs).out

end DeepGNN
