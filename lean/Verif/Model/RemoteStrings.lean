import Verif.Model.RemoteLookups

/-
String features from several servers (src/cc/lib/distributed/client.cc, graph_engine.cc, src/cc/lib/graph/merger.h).
-/

namespace DeepGNN

/-- `StringFeaturesReply`: the length of every feature of every node or edge, timestamps and all values one after the
other. -/
structure TextReply where
  dims : List Nat
  stamps : List Int
  values : Bytes
deriving DecidableEq, Repr

/-- The loop over the partitions of a node in `GraphEngineServiceImpl::GetNodeStringFeatures`
(graph_engine.cc:350-361).  A node that is not found has no entries. -/
def Graph.nodeTextState (g : Graph) (feats : List Nat) (x : Int × Option Int) (out : Bytes) : Option StrState :=
  (g.entries x.1).bind fun es =>
    es.foldlM (fun (s : StrState) (p : Partition × Nat) => p.1.nodeString p.2 x.2 feats s)
      ⟨List.replicate feats.length (-1, 0), out⟩

/-- The loop over the partitions of the source of an edge in `GraphEngineServiceImpl::GetEdgeStringFeatures`
(graph_engine.cc:397-409). -/
def Graph.edgeTextState (g : Graph) (feats : List Nat) (x : EdgeId × Option Int) (out : Bytes) : Option StrState :=
  (g.entries x.1.src).bind fun es =>
    es.foldlM (fun (s : StrState) (p : Partition × Nat) => p.1.edgeString p.2 x.1.dst x.1.typ x.2 feats s)
      ⟨List.replicate feats.length (-1, 0), out⟩

/-- The loop over the nodes or edges of a request (graph_engine.cc:340-367, 389-415): `q x out` is the state of the
query for `x` when the values collected so far are `out`.  The timestamps of all features are added if any of them is
not negative. -/
def serveTexts {α : Type} (q : α → Bytes → Option StrState) : List α → Bytes → Option TextReply
  | [], out => some ⟨[], [], out⟩
  | x :: xs, out => (q x out).bind fun s => (serveTexts q xs s.out).map fun r =>
      ⟨s.flags.map (·.2) ++ r.dims,
        (if s.flags.any (fun f => decide (f.1 ≥ 0)) then s.flags.map (·.1) else []) ++ r.stamps, r.values⟩

/-- `GraphEngineServiceImpl::GetNodeStringFeatures` (graph_engine.cc:327-371). -/
def Graph.getNodeStrings (g : Graph) (feats : List Nat) (nodes : List (Int × Option Int)) : Option TextReply :=
  serveTexts (g.nodeTextState feats) nodes []

/-- `GraphEngineServiceImpl::GetEdgeStringFeatures` (graph_engine.cc:373-419). -/
def Graph.getEdgeStrings (g : Graph) (feats : List Nat) (edges : List (EdgeId × Option Int)) : Option TextReply :=
  serveTexts (g.edgeTextState feats) edges []

/-- One critical section of `UpdateStringFeatureIndex` (merger.h:155-164). -/
structure TextStep where
  cell : Nat
  shard : Nat
  offset : Nat
  ts : Int
  dim : Nat
deriving DecidableEq, Repr

/-- The loop in `UpdateStringFeatureIndex` (merger.h:146-166) from feature number `cell` and value offset `off` on.  The
timestamp is the next one of the reply whenever a feature is not empty; `none`: there is none left (out of range). -/
def textLoop (shard : Nat) : (cell off : Nat) → List Nat → List Int → Option (List TextStep)
  | _, _, [], _ => some []
  | cell, off, d :: ds, st =>
    if d = 0 then textLoop shard (cell + 1) off ds st
    else match st with
      | [] => none
      | t :: st => (textLoop shard (cell + 1) (off + d) ds st).map (⟨cell, shard, off, t, d⟩ :: ·)

/-- `UpdateStringFeatureIndex` (merger.h:135-167): the critical sections of the callback of server `shard`. -/
def textSteps (shard : Nat) (r : TextReply) : Option (List TextStep) :=
  if r.values = [] then some [] else textLoop shard 0 0 r.dims r.stamps

/-- The critical sections of all callbacks. -/
def textSeqs (replies : List TextReply) : Option (List (List TextStep)) :=
  replies.zipIdx.mapM fun x => textSteps x.2 x.1

/-- The body of a critical section (merger.h:158-162) on `response_index` and `out_dimensions`. -/
def TextStep.run (s : List (Nat × Nat × Int) × List Nat) (w : TextStep) : List (Nat × Nat × Int) × List Nat :=
  match s.1[w.cell]? with
  | none => s
  | some old =>
    if old.2.2 ≤ w.ts then (s.1.set w.cell (w.shard, w.offset, w.ts), s.2.set w.cell w.dim) else s

/-- `ExtractStringFeatures` (merger.h:57-78); there are as many dimensions as index items. -/
def extractTexts (replies : List TextReply) (index : List (Nat × Nat × Int)) (dims : List Nat) : Option Bytes :=
  ((index.zip dims).mapM fun x => (replies[x.1.1]?).bind fun r => readAt r.values x.1.2.1 x.2).map List.flatten

/-- `GetStringFeature` (client.cc:107-152) for `n` features altogether: the critical sections are executed in the order
`steps`, then the values are collected.  The dimensions start as zeros (snark/client.py:652, 819). -/
def remoteStrings (n : Nat) (replies : List TextReply) (steps : List TextStep) : Option (List Nat × Bytes) :=
  let s := steps.foldl TextStep.run (List.replicate n (0, 0, -1), List.replicate n 0)
  (extractTexts replies s.1 s.2).map fun v => (s.2, v)

end DeepGNN
