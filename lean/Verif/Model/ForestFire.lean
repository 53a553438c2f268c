/-
Forest fire sampling (src/python/deepgnn/graph_engine/snark/preprocess/sampler/forest_fire.py).  Random choices are any choice the
library calls could return; the loop is a transition system.
-/

namespace DeepGNN.ForestFire

/-- A networkx `DiGraph`: nodes and edges. -/
structure Graph where
  nodes : List Int
  edges : List (Int × Int)
deriving DecidableEq

/-- `g.successors(u)`, `g.predecessors(u)` (forest_fire.py:49-50). -/
def Graph.successors (g : Graph) (u : Int) : List Int := (g.edges.filter fun e => e.1 = u).map (·.2)

def Graph.predecessors (g : Graph) (u : Int) : List Int := (g.edges.filter fun e => e.2 = u).map (·.1)

/-- Insertion in a dictionary or a set. -/
def insert {α : Type} [DecidableEq α] (a : α) (l : List α) : List α := if a ∈ l then l else l ++ [a]

/-- `sample.add_edge(u, v)` (forest_fire.py:64, 71): adds missing nodes. -/
def Graph.addEdge (s : Graph) (u v : Int) : Graph := ⟨insert v (insert u s.nodes), insert (u, v) s.edges⟩

/-- Variables of the loop (forest_fire.py:34-42); the last element of `q` comes first. -/
structure State where
  sample : Graph
  q : List Int
  visited : List Int
deriving DecidableEq

/-- Loop over the successors chosen (forest_fire.py:62-67). -/
def forward (size : Nat) (u : Int) : List Int → State → State
  | [], s => s
  | v :: vs, s => if s.sample.nodes.length < size then forward size u vs { s with sample := s.sample.addEdge u v, q := v :: s.q } else s

/-- Loop over the predecessors chosen (forest_fire.py:69-74). -/
def backward (size : Nat) (u : Int) : List Int → State → State
  | [], s => s
  | v :: vs, s => if s.sample.nodes.length < size then backward size u vs { s with sample := s.sample.addEdge v u, q := v :: s.q } else s

/-- What `random.sample(l, num)` may return for `num = min(np.random.geometric(..), len(l))`; a geometric number is at least 1
(forest_fire.py:51-60). -/
def Chosen (l c : List Int) : Prop := c.Nodup ∧ (∀ x ∈ c, x ∈ l) ∧ ∃ k, 1 ≤ k ∧ c.length = min k l.length

/-- One iteration (forest_fire.py:43-78). -/
inductive Step (g : Graph) (size : Nat) : State → State → Prop
  | burn {s : State} {u : Int} {rest succ pred : List Int} : s.sample.nodes.length < size → s.q = u :: rest → u ∉ s.visited →
      Chosen (g.successors u) succ → Chosen (g.predecessors u) pred →
      Step g size s (backward size u pred (forward size u succ { s with q := rest, visited := u :: s.visited }))
  | skip {s : State} {u : Int} {rest : List Int} : s.sample.nodes.length < size → s.q = u :: rest → u ∈ s.visited →
      Step g size s { s with q := rest }
  | restart {s : State} {u : Int} : s.sample.nodes.length < size → s.q = [] → u ∈ g.nodes →
      Step g size s { s with q := [u], visited := [] }

/-- States of the loop (forest_fire.py:34-43). -/
inductive Reach (g : Graph) (size : Nat) : State → Prop
  | start {u : Int} : u ∈ g.nodes → Reach g size ⟨⟨[], []⟩, [u], []⟩
  | step {s t : State} : Reach g size s → Step g size s t → Reach g size t

/-- `forest_fire(g, sample_size)` may return the graph (forest_fire.py:43, 79). -/
def Returns (g : Graph) (size : Nat) (sample : Graph) : Prop :=
  ∃ s, Reach g size s ∧ ¬ s.sample.nodes.length < size ∧ s.sample = sample

end DeepGNN.ForestFire
