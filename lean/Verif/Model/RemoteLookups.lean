import Verif.Model.RemoteFeatures

/-
Node types and edge features from several servers (src/cc/lib/distributed/client.cc, graph_engine.cc).
The callbacks of these two requests write to the output without a lock, from the threads of the completion
queues, so they are modelled as sequences of single writes that may be interleaved.
-/

namespace DeepGNN

/-- `NodeTypesReply`: positions of the answered nodes and their types. -/
structure TypeReply where
  offsets : List Nat
  types : List Int
deriving DecidableEq, Repr

/-- The loop over the partitions of a node in `GraphEngineServiceImpl::GetNodeTypes` (graph_engine.cc:106-116): the
first type that is not `PLACEHOLDER_NODE_TYPE`, `some none`: no reply for the node. -/
def Graph.serveType (g : Graph) (node : Int) : Option (Option Int) :=
  match g.nodeMap node with
  | none => some none
  | some _ => (g.entries node).bind fun es =>
    (es.mapM fun (x : Partition × Nat) => x.1.nodeTypes[x.2]?).map fun ts => ts.find? (· ≠ -1)

/-- The loop over the nodes in `GraphEngineServiceImpl::GetNodeTypes` (graph_engine.cc:98-118) from node number `i`
on. -/
def Graph.serveTypes (g : Graph) : (i : Nat) → List Int → Option TypeReply
  | _, [] => some ⟨[], []⟩
  | i, n :: ns => (g.serveType n).bind fun t => (g.serveTypes (i + 1) ns).map fun r =>
      match t with
      | none => r
      | some t => ⟨i :: r.offsets, t :: r.types⟩

/-- `GraphEngineServiceImpl::GetNodeTypes` (graph_engine.cc:94-121). -/
def Graph.getNodeTypes (g : Graph) (nodes : List Int) : Option TypeReply := g.serveTypes 0 nodes

/-- A write of a callback: an element of the output or a flag `found[i] = true`. -/
inductive Step (α : Type) where
  | put (pos : Nat) (v : α)
  | mark (i : Nat)
deriving DecidableEq, Repr

/-- Perform a write on the output and the flags. -/
def Step.run {α : Type} (s : List α × List Bool) : Step α → List α × List Bool
  | .put p v => (s.1.set p v, s.2)
  | .mark i => (s.1, s.2.set i true)

/-- Perform writes one after the other. -/
def runSteps {α : Type} (s : List α × List Bool) (steps : List (Step α)) : List α × List Bool :=
  steps.foldl Step.run s

/-- The writes of the callback of `GRPCClient::GetNodeType` (client.cc:251-264).  A reply has as many types as
offsets. -/
def typeSteps (r : TypeReply) : List (Step Int) :=
  (r.offsets.zip r.types).flatMap fun x => [.put x.1 x.2, .mark x.1]

/-- `GRPCClient::GetNodeType` (client.cc:232-282): the writes of all callbacks are performed in the order `steps`, then
the default is filled in (274-281).  `buffer`: content of the output before the call. -/
def remoteNodeTypes (default : Int) (buffer : List Int) (steps : List (Step Int)) : List Int :=
  let s := runSteps (buffer, List.replicate buffer.length false) steps
  (s.1.zip s.2).map fun x => if x.2 then x.1 else default

/-- The loop over the partitions of the source of an edge in `GraphEngineServiceImpl::GetEdgeFeatures`
(graph_engine.cc:199-212): timestamps and values.  The part of the reply reserved for the edge is new, so `resize`
has filled it with zeros. -/
def Graph.serveEdge (g : Graph) (feats : List (Nat × Nat)) (e : EdgeId) (ts : Option Int) : Option (List (Int × Bytes)) :=
  (g.entries e.src).bind fun es =>
    es.foldlM (fun (ss : List (Int × Bytes)) (x : Partition × Nat) => x.1.edgeFeature x.2 e.dst e.typ ts feats ss)
      ((slices (feats.map (·.2)) (List.replicate (feats.map (·.2)).sum 0)).map fun b => ((-1 : Int), b))

/-- The loop over the edges in `GraphEngineServiceImpl::GetEdgeFeatures` (graph_engine.cc:191-224) from edge number
`i` on. -/
def Graph.serveEdges (g : Graph) (feats : List (Nat × Nat)) : (i : Nat) → List (EdgeId × Option Int) → Option FeatReply
  | _, [] => some ⟨[], [], []⟩
  | i, (e, t) :: xs =>
    match g.nodeMap e.src with
    | none => g.serveEdges feats (i + 1) xs
    | some _ => (g.serveEdge feats e t).bind fun ss =>
      (g.serveEdges feats (i + 1) xs).map fun r =>
        if ss.any (fun s => decide (s.1 ≥ 0)) then
          ⟨i :: r.offsets, ss.map (·.1) ++ r.stamps, ss.flatMap (·.2) ++ r.values⟩
        else r

/-- `GraphEngineServiceImpl::GetEdgeFeatures` (graph_engine.cc:175-228). -/
def Graph.getEdgeFeatures (g : Graph) (edges : List EdgeId) (ts : Option (List Int)) (feats : List (Nat × Nat)) :
    Option FeatReply :=
  g.serveEdges feats 0 (edges.zip (tsList ts edges.length))

/-- The writes of the callback of `GRPCClient::GetEdgeFeature` (client.cc:430-447), byte by byte; `fv`: bytes per
edge.  A reply has `fv` bytes for each of its offsets. -/
def edgeSteps (fv : Nat) (r : FeatReply) : List (Step UInt8) :=
  r.offsets.zipIdx.flatMap fun x =>
    (((r.values.drop (fv * x.2)).take fv).zipIdx.map fun b => Step.put (fv * x.1 + b.2) b.1) ++ [.mark x.1]

/-- `GRPCClient::GetEdgeFeature` (client.cc:390-467) for `n` edges: the writes of all callbacks are performed in the
order `steps`, then missing edges are filled with zeros (456-466).  `fv_size = output.size() / len` (416) divides by
zero if there are no edges. -/
def remoteEdgeFeatures (n fv : Nat) (buffer : Bytes) (steps : List (Step UInt8)) : Option Bytes :=
  let s := runSteps (buffer, List.replicate n false) steps
  if n = 0 then none
  else some ((List.range n).flatMap fun i =>
    if s.2.getD i false then (s.1.drop (fv * i)).take fv else List.replicate fv 0)

end DeepGNN
