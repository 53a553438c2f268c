import Verif.Model.ForestFire

/-
Properties of networkx graphs (src/python/deepgnn/graph_engine/snark/preprocess/sampler/metric.py).  networkx 2.5.1 itself is not part of
the repository: its functions are modelled by what they return.  `none` is an exception.
-/

namespace DeepGNN.GraphMetric

open ForestFire (Graph)

/-- Is there a way of exactly `k` edges from `u` to `v`? -/
def way (g : Graph) : Nat → Int → Int → Bool
  | 0, u, v => decide (u = v)
  | k + 1, u, v => g.edges.any fun e => decide (e.1 = u) && way g k e.2 v

/-- The entry `v` of `nx.single_source_shortest_path_length(g, u)`; a shortest path has fewer edges than the graph has nodes. -/
def dist (g : Graph) (u v : Int) : Option Nat := (List.range g.nodes.length).find? fun k => way g k u v

/-- The strongly connected component of `r`. -/
def component (g : Graph) (r : Int) : List Int :=
  g.nodes.filter fun v => (dist g r v).isSome && (dist g v r).isSome

/-- `c` is a possible value of `max(nx.strongly_connected_components(g), key=len)` (metric.py:27, 38): the components are
generated in an order of no importance, `max` takes the first of the longest ones. -/
def IsMax (g : Graph) (c : List Int) : Prop :=
  ∃ r ∈ g.nodes, c = component g r ∧ ∀ r' ∈ g.nodes, (component g r').length ≤ c.length

/-- `g.subgraph(c)`. -/
def subgraph (g : Graph) (c : List Int) : Graph :=
  ⟨g.nodes.filter (· ∈ c), g.edges.filter fun e => decide (e.1 ∈ c) && decide (e.2 ∈ c)⟩

/-- `max` of a list of numbers that is not empty. -/
def maxOf : List Nat → Option Nat
  | [] => none
  | x :: xs => some (xs.foldl max x)

/-- `nx.diameter(h)`: the largest eccentricity.  A node that cannot reach all others raises `NetworkXError`, a graph without
nodes `ValueError`. -/
def nxDiameter (h : Graph) : Option Nat :=
  (h.nodes.mapM fun u => (h.nodes.mapM fun v => dist h u v).bind maxOf).bind maxOf

/-- `diameter` (metric.py:22-29) if the largest component is `c`. -/
def diameter (g : Graph) (c : List Int) : Option Nat :=
  if g.nodes.length = 0 then some 0 else nxDiameter (subgraph g c)

/-- `largest_connected_component` (metric.py:32-40) if the largest component is `c`: numerator and denominator. -/
def largest (g : Graph) (c : List Int) : Nat × Nat :=
  if g.nodes.length = 0 then (0, 1) else ((subgraph g c).nodes.length, g.nodes.length)

/-- `math.log(e, n)` for integers: `ValueError` unless both are positive, `ZeroDivisionError` if `n` is 1. -/
def mathLog {R : Type} (log : Nat → Nat → R) (e n : Nat) : Option R :=
  if e = 0 ∨ n = 0 then none else if n = 1 then none else some (log e n)

/-- `densification` (metric.py:11-19); the value of the logarithm is that of `log`. -/
def densification {R : Type} (zero : R) (log : Nat → Nat → R) (g : Graph) : Option R :=
  if g.nodes.length ≤ 1 then some zero
  else if g.edges.length = 0 then some zero
  else mathLog log g.edges.length g.nodes.length

/-- What can be used in an index: a node, or a dictionary of attributes. -/
inductive Key where
  | node (n : Int)
  | attributes
deriving DecidableEq

/-- `g.nodes()[i]` (metric.py:54, 56): a `NodeView` is indexed by nodes and holds their attributes; `KeyError` for anything that is not
a node. -/
def nodeView (g : Graph) (i : Int) : Option Key := if i ∈ g.nodes then some .attributes else none

/-- `g[key]` (metric.py:56, 60) of the undirected graph: the neighbours of a node.  A dictionary cannot be hashed (`TypeError`). -/
def adjacent (g : Graph) : Key → Option (List Int)
  | .attributes => none
  | .node n => if n ∈ g.nodes then
      some (g.nodes.filter fun v => decide ((n, v) ∈ g.edges) || decide ((v, n) ∈ g.edges)) else none

/-- The loop of `average_clustering` (metric.py:55-61); `draws` are the random positions, `pick` chooses two neighbours. -/
def clusteringLoop (g : Graph) (pick : List Int → Int × Int) : List Int → Nat → Option Nat
  | [], triangles => some triangles
  | i :: is, triangles => (nodeView g i).bind fun key => (adjacent g key).bind fun nbrs =>
    if nbrs.length < 2 then clusteringLoop g pick is triangles
    else (adjacent g (.node (pick nbrs).2)).bind fun l =>
      clusteringLoop g pick is (if (pick nbrs).1 ∈ l then triangles + 1 else triangles)

/-- `average_clustering` (metric.py:50-62): numerator and denominator; `ZeroDivisionError` without trials. -/
def averageClustering (g : Graph) (pick : List Int → Int × Int) (draws : List Int) : Option (Nat × Nat) :=
  (clusteringLoop g pick draws 0).bind fun t => if draws.length = 0 then none else some (t, draws.length)

end DeepGNN.GraphMetric
