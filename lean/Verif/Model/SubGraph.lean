import Verif.Model.Multihop

/-
`sub_graph` (src/python/deepgnn/graph_engine/graph_ops.py:95-179).
-/

namespace DeepGNN.SubGraph

open Multihop (clientNeighbors)

/-- The loop collecting nodes (graph_ops.py:121-125): `nodes` from its last entry `cur` on, `k` more hops. -/
def layers (g : Graph) (types : List Int) : Nat → List Int → Option (List (List Int))
  | 0, cur => some [cur]
  | k + 1, cur => (clientNeighbors g cur types).bind fun r =>
      (layers g types k (sortUnique (r.1.map (·.dst)))).map fun rest => cur :: rest

/-- First column of `edges` (graph_ops.py:135-139): every node as often as it has neighbours. -/
def sources : List Int → List Nat → List Int
  | u :: us, c :: cs => List.replicate c u ++ sources us cs
  | _, _ => []

/-- Lexicographic order of rows, used by `np.unique(axis=0)`. -/
def rowLt (a b : Nat × Nat) : Bool := a.1 < b.1 || (a.1 == b.1 && a.2 < b.2)

/-- Insertion into a strictly increasing list of rows. -/
def insertRow (x : Nat × Nat) : List (Nat × Nat) → List (Nat × Nat)
  | [] => [x]
  | y :: ys => if rowLt x y then x :: y :: ys else if x = y then y :: ys else y :: insertRow x ys

/-- `np.unique(edge_idx, axis=0)` (graph_ops.py:164). -/
def uniqueRows (l : List (Nat × Nat)) : List (Nat × Nat) := l.foldr insertRow []

/-- Nodes, edges as pairs of positions and positions of the seeds (graph_ops.py:127-147).  `edges[:, 1] = nb` fails if the lengths
differ; `np.unique` is `sortUnique` and its inverse the positions of the values. -/
def core (g : Graph) (src types : List Int) (numHops : Nat) : Option (List Int × List (Nat × Nat) × List Nat) :=
  (layers g types (numHops - 1) src).bind fun ls =>
    let unodes := sortUnique ls.flatten
    (clientNeighbors g unodes types).bind fun r =>
      let heads := sources unodes r.2
      if heads.length ≠ r.1.length then none
      else
        let edges := heads.zip (r.1.map (·.dst))
        let unique := sortUnique (src ++ edges.flatMap fun e => [e.1, e.2])
        some (unique, edges.map (fun e => (unique.idxOf e.1, unique.idxOf e.2)), src.map unique.idxOf)

/-- The edge list for `return_edges=True` (graph_ops.py:149-166). -/
def edgeList (n : Nat) (selfLoop undirected : Bool) (edges : List (Nat × Nat)) : List (Nat × Nat) :=
  let a := if undirected then edges ++ edges.map fun e => (e.2, e.1) else edges
  let b := if selfLoop then a ++ (List.range n).map fun i => (i, i) else a
  if selfLoop || undirected then uniqueRows b else b

/-- Entry of the adjacency matrix for `return_edges=False` (graph_ops.py:168-177). -/
def adjacency (selfLoop undirected : Bool) (edges : List (Nat × Nat)) (i j : Nat) : Nat :=
  (if (i, j) ∈ edges ∨ (undirected = true ∧ (j, i) ∈ edges) then 1 else 0) + (if selfLoop = true ∧ i = j then 1 else 0)

/-- `sub_graph(return_edges=True)` (graph_ops.py:95-166). -/
def subGraphEdges (g : Graph) (src types : List Int) (numHops : Nat) (selfLoop undirected : Bool) :
    Option (List Int × List (Nat × Nat) × List Nat) :=
  (core g src types numHops).map fun r => (r.1, edgeList r.1.length selfLoop undirected r.2.1, r.2.2)

/-- `sub_graph(return_edges=False)` (graph_ops.py:95-147, 168-179). -/
def subGraphMatrix (g : Graph) (src types : List Int) (numHops : Nat) (selfLoop undirected : Bool) :
    Option (List Int × List (List Nat) × List Nat) :=
  (core g src types numHops).map fun r => (r.1, (List.range r.1.length).map (fun i =>
    (List.range r.1.length).map fun j => adjacency selfLoop undirected r.2.1 i j), r.2.2)

end DeepGNN.SubGraph
