import Verif.Spec.Sampling
import Verif.Model.Multihop

/-
Specification of multi-hop queries.
-/

namespace DeepGNN.Spec

/-- `layers` are the entries sampled in each hop, starting from `nodes`: a hop over `types` with fanout `k` has `k` entries for every
entry of the hop before, and entry `j` belongs to entry `j / k` of the hop before. `ok types n x`: `x` is a right answer for node `n`. -/
def Fanout {α : Type} (dst : α → Int) (ok : List Int → Int → α → Prop) : List Int → List (List Int × Nat) → List (List α) → Prop
  | _, [], layers => layers = []
  | nodes, (types, k) :: hops, layers => ∃ layer rest, layers = layer :: rest ∧ layer.length = nodes.length * k ∧
      (∀ (j : Nat) (x : α), layer[j]? = some x → ∃ n, nodes[j / k]? = some n ∧ ok types n x) ∧
      Fanout dst ok (layer.map dst) hops rest

/-- The edges leaving the nodes of `frontier` over `types`: position of the node, destination and weight. -/
def frontierEdges (parts : List (List (List Rec))) (frontier types : List Int) : List (Nat × Int × Int) :=
  frontier.zipIdx.flatMap fun x => (neighbors parts x.1 types).map fun e => (x.2, e.dst, e.weight)

/-- `next` and `adj` are right for the hop over `types` from the nodes in `prev`: `next` lists the nodes reached in increasing order
and then zeros, `adj` lists every edge with the position of its source in `prev` and the position of its destination in `next`, then
zeros; the arrays have `max` entries for every entry of `prev`. -/
def HopOk (parts : List (List (List Rec))) (max : Nat) (types : List Int) (prev next : Multihop.Layer) (adj : Multihop.Adj) : Prop :=
  ∃ (unique : List Int) (pairs : List (Nat × Nat)),
    unique.Pairwise (· < ·) ∧
    (∀ d, d ∈ unique ↔ ∃ n ∈ prev.nodes.take prev.len, ∃ e ∈ neighbors parts n types, e.dst = d) ∧
    next.nodes = unique ++ List.replicate (max * prev.nodes.length - unique.length) 0 ∧
    next.nodes.length = max * prev.nodes.length ∧ next.len = unique.length ∧
    pairs.map (fun p => (p.1, unique[p.2]?)) =
      (frontierEdges parts (prev.nodes.take prev.len) types).map (fun e => (e.1, some e.2.1)) ∧
    adj.indices = pairs ++ List.replicate (max * prev.nodes.length - pairs.length) (0, 0) ∧
    adj.values = (frontierEdges parts (prev.nodes.take prev.len) types).map (·.2.2) ++
      List.replicate (max * prev.nodes.length - pairs.length) 0 ∧
    adj.indices.length = max * prev.nodes.length ∧ adj.values.length = max * prev.nodes.length ∧
    adj.len = (frontierEdges parts (prev.nodes.take prev.len) types).length ∧
    adj.shape = ((prev.nodes.take prev.len).length, unique.length)

/-- All hops are right. -/
def HopsOk (parts : List (List (List Rec))) (max : Nat) : List (List Int) → Multihop.Layer → List (Multihop.Layer × Multihop.Adj) → Prop
  | [], _, out => out = []
  | types :: rest, prev, out => ∃ next adj more, out = (next, adj) :: more ∧ HopOk parts max types prev next adj ∧
      HopsOk parts max rest next more

end DeepGNN.Spec
