import Verif.Model.ForestFire

/-
Ways, components and distances in directed graphs.
-/

namespace DeepGNN.Spec

open ForestFire (Graph)

/-- Nodes are listed once and edges join nodes. -/
structure GoodGraph (g : Graph) : Prop where
  nodup : g.nodes.Nodup
  ends : ∀ e ∈ g.edges, e.1 ∈ g.nodes ∧ e.2 ∈ g.nodes

/-- There is a way of `k` edges from `u` to `v`. -/
inductive Way (g : Graph) : Nat → Int → Int → Prop
  | here (u : Int) : Way g 0 u u
  | there {k : Nat} {u w v : Int} : (u, w) ∈ g.edges → Way g k w v → Way g (k + 1) u v

/-- Every node of `c` can be reached from every other one. -/
def StronglyConnected (g : Graph) (c : List Int) : Prop := ∀ u ∈ c, ∀ v ∈ c, ∃ k, Way g k u v

/-- `c` is a largest strongly connected set of nodes. -/
structure LargestStrong (g : Graph) (c : List Int) : Prop where
  nodup : c.Nodup
  nodes : ∀ u ∈ c, u ∈ g.nodes
  strong : StronglyConnected g c
  largest : ∀ s : List Int, s.Nodup → (∀ u ∈ s, u ∈ g.nodes) → StronglyConnected g s → s.length ≤ c.length

/-- `d` is the diameter of the nodes `c` of `g`: the largest distance between two of them. -/
def IsDiameter (g : Graph) (c : List Int) (d : Nat) : Prop :=
  (∀ u ∈ c, ∀ v ∈ c, ∃ k, k ≤ d ∧ Way g k u v) ∧ ∃ u ∈ c, ∃ v ∈ c, Way g d u v ∧ ∀ k, k < d → ¬ Way g k u v

/-- Is `v` at most `d` edges from `u`? -/
def nearby (g : Graph) : Nat → Int → Int → Bool
  | 0, u, v => decide (u = v)
  | d + 1, u, v => decide (u = v) || g.edges.any fun e => decide (e.1 = u) && nearby g d e.2 v

/-- The number of pairs of different nodes of `c` that are at most `d` edges apart. -/
def pairsWithin (g : Graph) (c : List Int) (d : Nat) : Nat :=
  ((c.flatMap fun u => c.map fun v => (u, v)).filter fun p => decide (p.1 ≠ p.2) && nearby g d p.1 p.2).length

/-- `d` is the effective 90% diameter of the nodes `c`: the least number of edges within which 90% of the pairs can be reached. -/
def EffectiveDiameter (g : Graph) (c : List Int) (d : Nat) : Prop :=
  9 * (c.length * (c.length - 1)) ≤ 10 * pairsWithin g c d ∧
    ∀ k, k < d → 10 * pairsWithin g c k < 9 * (c.length * (c.length - 1))

end DeepGNN.Spec
