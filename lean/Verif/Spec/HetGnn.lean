/-
What the HetGNN example should do, without reference to its model.
-/

namespace DeepGNN.Spec

/-- `Reach E c u t`: a walk of one or more steps leads from `c` to `u`, and its last step reports type `t`. -/
inductive HetReach (E : Int → Int → Int → Prop) (c : Int) : Int → Int → Prop
  | one {u t : Int} : E c u t → HetReach E c u t
  | more {v u s t : Int} : HetReach E c v s → E v u t → HetReach E c u t

/-- Nodes and types of all walks after `m` hops. -/
def hetColumn (step : Nat → List Int → List (Int × Int)) (start : List (Int × Int)) : Nat → List (Int × Int)
  | 0 => start
  | m + 1 => step m ((hetColumn step start m).map (·.1))

/-- The pairs of a start node and a node of reported type `t` on its walk: start nodes in order, then hops in order. -/
def hetPairs (step : Nat → List Int → List (Int × Int)) (starts : List Int) (i : Nat) (L : Nat) (t : Int) : List (Int × Int) :=
  starts.zipIdx.flatMap fun c => (List.range L).filterMap fun m =>
    ((hetColumn step (starts.map fun n => (n, (i : Int))) (m + 1))[c.2]?).bind fun x => if x.2 = t then some (c.1, x.1) else none

/-- What `sample_neighbors(nodes, types, 1)` should answer: for each node an edge of the graph and its type, or nothing
(node and type -1), which is also the answer for node -1. -/
structure HetSteps (E : Int → Int → Int → Prop) (step : Nat → List Int → List (Int × Int)) : Prop where
  length : ∀ hop nodes, (step hop nodes).length = nodes.length
  edge : ∀ hop (nodes : List Int) (k : Nat) v u t, nodes[k]? = some v → (step hop nodes)[k]? = some (u, t) →
    (t ≠ -1 ∧ E v u t) ∨ (t = -1 ∧ u = -1)
  stop : ∀ hop (nodes : List Int) (k : Nat) u t, nodes[k]? = some (-1) → (step hop nodes)[k]? = some (u, t) → t = -1

end DeepGNN.Spec
