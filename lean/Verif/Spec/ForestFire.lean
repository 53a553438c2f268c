import Verif.Model.ForestFire

/-
Specification of forest fire samples.
-/

namespace DeepGNN.Spec

open ForestFire

/-- A directed graph: ends of edges are nodes; nodes and edges are listed once. -/
structure DiGraph (g : Graph) : Prop where
  nodes : g.nodes.Nodup
  edges : g.edges.Nodup
  ends : ∀ e ∈ g.edges, e.1 ∈ g.nodes ∧ e.2 ∈ g.nodes

/-- `h` is a subgraph of `g`. -/
structure Subgraph (h g : Graph) : Prop where
  graph : DiGraph h
  nodes : ∀ v ∈ h.nodes, v ∈ g.nodes
  edges : ∀ e ∈ h.edges, e ∈ g.edges

/-- The node has an edge. -/
def Touched (g : Graph) (v : Int) : Prop := ∃ e ∈ g.edges, e.1 = v ∨ e.2 = v

end DeepGNN.Spec
