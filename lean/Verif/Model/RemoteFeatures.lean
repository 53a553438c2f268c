import Verif.Model.Remote
import Verif.Model.Features

/-
Node features and node types from several servers (src/cc/lib/distributed/client.cc, graph_engine.cc).
-/

namespace DeepGNN

/-- State of a request whose callbacks each merge their reply into a shared result, one at a time
(`std::lock_guard lock(mtx)`); `out = none`: an out-of-range access. -/
structure EachReply (ρ α : Type) where
  replies : List ρ
  out : Option α

/-- One event for such a request: a reply is stored, or its callback is run (client.cc:189-230). -/
def EachReply.step {ρ α : Type} (cb : Nat → ρ → α → Option α) (s : EachReply ρ α) : Ev ρ → EachReply ρ α
  | .recv i r => { s with replies := s.replies.set i r }
  | .run i => { s with out := (s.replies[i]?).bind fun r => s.out.bind fun a => cb i r a }

/-- A request to `n` servers with initial result `init`; the replies and the result after
`WaitForFutures`. -/
def eachReply {ρ α : Type} (cb : Nat → ρ → α → Option α) (empty : ρ) (init : α) (n : Nat) (evs : List (Ev ρ)) :
    EachReply ρ α :=
  evs.foldl (EachReply.step cb) { replies := List.replicate n empty, out := some init }

/-- `NodeFeaturesReply`: positions of the answered nodes, the timestamps of all their features, all values. -/
structure FeatReply where
  offsets : List Nat
  stamps : List Int
  values : Bytes
deriving DecidableEq, Repr

/-- The loop over the partitions of a node in `GraphEngineServiceImpl::GetNodeFeatures`
(graph_engine.cc:147-163) on the part `out` of the reply reserved for the node: timestamps and values. -/
def Graph.serveNode (g : Graph) (feats : List (Nat × Nat)) (node : Int) (ts : Option Int) (out : Bytes) :
    Option (List (Int × Bytes)) :=
  (g.entries node).bind fun es =>
    es.foldlM (fun (ss : List (Int × Bytes)) (x : Partition × Nat) => x.1.nodeFeature x.2 ts feats ss)
      ((slices (feats.map (·.2)) out).map fun b => ((-1 : Int), b))

/-- `GraphEngineServiceImpl::GetNodeFeatures` (graph_engine.cc:139-173) from node number `i` on.  `rest`: content of
`feature_values` behind `feature_offset`, left there by a node without features (151 does not clear it). -/
def Graph.serveNodes (g : Graph) (feats : List (Nat × Nat)) : (i : Nat) → (rest : Bytes) → List (Int × Option Int) →
    Option FeatReply
  | _, _, [] => some ⟨[], [], []⟩
  | i, rest, (n, t) :: xs =>
    match g.nodeMap n with
    | none => g.serveNodes feats (i + 1) rest xs
    | some _ =>
      (g.serveNode feats n t (if rest = [] then List.replicate (feats.map (·.2)).sum 0 else rest)).bind fun ss =>
        if ss.any (fun s => decide (s.1 ≥ 0)) then
          (g.serveNodes feats (i + 1) [] xs).map fun r =>
            ⟨i :: r.offsets, ss.map (·.1) ++ r.stamps, ss.flatMap (·.2) ++ r.values⟩
        else g.serveNodes feats (i + 1) (ss.flatMap (·.2)) xs

/-- `GraphEngineServiceImpl::GetNodeFeatures` (graph_engine.cc:125-173). -/
def Graph.getNodeFeatures (g : Graph) (nodes : List Int) (ts : Option (List Int)) (feats : List (Nat × Nat)) :
    Option FeatReply :=
  g.serveNodes feats 0 [] (nodes.zip (tsList ts nodes.length))

/-- An element of `response_index`: server, position in its reply, timestamp (client.cc:311-312). -/
structure Best where
  shard : Int
  sub : Int
  ts : Int
deriving DecidableEq, Repr

/-- Body of the loops in the callback (client.cc:335-346) for the feature `f` of the node at position `x.2` of the
reply and `x.1` of the request; `timestamp_index` is `x.2 * F + f`. -/
def mergeStamp (F shard : Nat) (stamps : List Int) (x : Nat × Nat) (idx : List Best) (f : Nat) : Option (List Best) :=
  (stamps[x.2 * F + f]?).bind fun ts => (idx[x.1 * F + f]?).map fun old =>
    if old.ts ≤ ts then idx.set (x.1 * F + f) ⟨shard, x.2, ts⟩ else idx

/-- The callback of `GRPCClient::GetNodeFeature` (client.cc:320-349), `F` features. -/
def mergeStamps (F shard : Nat) (r : FeatReply) (idx : List Best) : Option (List Best) :=
  r.offsets.zipIdx.foldlM (fun idx x => (List.range F).foldlM (mergeStamp F shard r.stamps x) idx) idx

/-- `feature_len_prefix` (client.cc:294-306). -/
def lenPrefix : Nat → List (Nat × Nat) → List Nat
  | _, [] => []
  | a, f :: fs => a :: lenPrefix (a + f.2) fs

/-- The value of one feature of one node (client.cc:371-385): `x` is its size and its offset in a row. -/
def copyBest (replies : List FeatReply) (fv : Nat) (b : Best) (x : Nat × Nat) : Option Bytes :=
  if b.ts ≥ 0 then
    (replies[b.shard.toNat]?).bind fun r => readAt r.values (b.sub.toNat * fv + x.2) x.1
  else some (List.replicate x.1 0)

/-- The loops that fill the output (client.cc:368-387) for `n` nodes. -/
def assemble (n : Nat) (feats : List (Nat × Nat)) (replies : List FeatReply) (idx : List Best) : Option Bytes :=
  let fv := (feats.map (·.2)).sum
  ((List.range n).mapM fun k => (((feats.map (·.2)).zip (lenPrefix 0 feats)).zipIdx.mapM fun x =>
    (idx[k * feats.length + x.2]?).bind fun b => copyBest replies fv b x.1).map List.flatten).map List.flatten

/-- `GRPCClient::GetNodeFeature` for `n` nodes (client.cc:284-388).  `fv_size = output.size() / node_len` (308) divides
by zero if there are no nodes. -/
def remoteNodeFeatures (n : Nat) (feats : List (Nat × Nat)) (evs : List (Ev FeatReply)) (servers : Nat) :
    Option Bytes :=
  let s := eachReply (mergeStamps feats.length) ⟨[], [], []⟩
    (List.replicate (n * feats.length) ⟨-1, -1, -1⟩) servers evs
  if n = 0 then none else s.out.bind fun idx => assemble n feats s.replies idx

end DeepGNN
