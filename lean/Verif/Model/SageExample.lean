import Verif.Model.Temporal

/-!
Model of the PyTorch GraphSAGE example: `SageDataset` and the edge lists that training and evaluation
give to the model (examples/pytorch/sage.py:20-172).

The graph engine is abstract: neighbor sampling, edge sampling and features are functions that the
other modules model. Random draws are arguments.
-/

namespace DeepGNN.SageExample

/-- `SageDataset.__init__` and the number of calls of `query` in one epoch
(examples/pytorch/sage.py:23-41): the argument `batch_size` is not used. -/
structure Dataset where
  batchSize : Nat
  fanout : Nat × Nat
  numNodes : Nat

/-- `SageDataset.__init__` (examples/pytorch/sage.py:23-37). -/
def Dataset.init (_batchSize : Nat) (fanout : Nat × Nat) (numNodes : Nat) : Dataset :=
  ⟨256, fanout, numNodes⟩

/-- `ndarray.repeat`. -/
def repeatEach (n : Nat) (xs : List Int) : List Int := xs.flatMap fun x => List.replicate n x

/-- A row into a sorted list of rows without duplicates. -/
def insertRow (p : Int × Int) : List (Int × Int) → List (Int × Int)
  | [] => [p]
  | q :: qs =>
    if p = q then q :: qs
    else if p.1 < q.1 ∨ (p.1 = q.1 ∧ p.2 < q.2) then p :: q :: qs
    else q :: insertRow p qs

/-- `np.unique(…, axis=0)` (examples/pytorch/sage.py:60). -/
def uniqueRows (rows : List (Int × Int)) : List (Int × Int) := rows.foldr insertRow []

/-- Distinct values in the order of their first occurrence: `np.unique` with `return_index`,
then sorted by that index (examples/pytorch/sage.py:72-76). First indices are distinct, so sorting them
and looking up the values is the same as `argsort`. -/
def orderedUnique (xs : List Int) : List Int :=
  (sortUnique ((sortUnique xs).map fun x => (xs.idxOf x : Int))).map fun i => xs.getD i.toNat 0

/-- `_make_edge_index`: nodes, columns and rows. `hop1` and `hop2` are the answers to the two calls of
`sample_neighbors`, flattened. `np.stack` and indexing by position fail if lengths differ; here they are cut.
The position of a value is `argmax` of the comparison with all nodes (examples/pytorch/sage.py:43-82). -/
def makeEdgeIndex (fanout : Nat × Nat) (hop1 hop2 : List Int → List Int) (seed : List Int) :
    List Int × List Nat × List Nat :=
  let fst := hop1 seed
  let fstUnique := sortUnique fst
  let snd := uniqueRows ((repeatEach fanout.2 fstUnique).zip (hop2 fstUnique))
  let edges := repeatEach fanout.1 seed ++ snd.map (·.1) ++ (fst ++ snd.map (·.2))
  let nodes := orderedUnique edges
  let inverse := edges.map nodes.idxOf
  let n := edges.length / 2
  (nodes, inverse.take n, inverse.drop n)

/-- One batch. -/
structure Batch (F : Type) where
  nodes : List Int
  feats : List F
  cols : List Nat
  rows : List Nat
  labelSrc : List Nat
  labelDst : List Nat
  labels : List Nat

/-- `query`: `pos` are the sampled edges, `neg` the random nodes (twice as many)
(examples/pytorch/sage.py:84-111). -/
def query {F : Type} (d : Dataset) (hop1 hop2 : List Int → List Int) (feature : Int → F)
    (pos : List (Int × Int)) (neg : List Int) : Batch F :=
  let n := pos.length
  let all := pos.map (·.1) ++ neg.take n ++ (pos.map (·.2) ++ neg.drop n)
  let seed := sortUnique all
  let inverse := all.map seed.idxOf
  let r := makeEdgeIndex d.fanout hop1 hop2 seed
  { nodes := r.1, feats := r.1.map feature, cols := r.2.1, rows := r.2.2,
    labelSrc := inverse.take (2 * n), labelDst := inverse.drop (2 * n),
    labels := List.replicate n 1 ++ List.replicate n 0 }

/-- `edge_index` in `train`: `batch[2]` (rows), then `batch[1]` (columns). In PyTorch Geometric a message goes
from the first to the second line (examples/pytorch/sage.py:119-126). -/
def trainMessages {F : Type} (b : Batch F) : List (Int × Int) :=
  (b.rows.map fun i => b.nodes.getD i 0).zip (b.cols.map fun i => b.nodes.getD i 0)

/-- `edge_index_eval`: each node repeated by its number of neighbors, then the neighbors
(examples/pytorch/sage.py:146-161). -/
def evalMessages (neighbors : Int → List Int) (nodes : List Int) : List (Int × Int) :=
  (nodes.flatMap fun v => List.replicate (neighbors v).length v).zip (nodes.flatMap neighbors)

/-- `np.random.randint(0, num_nodes - 1)`: the upper bound is not included
(examples/pytorch/sage.py:95). -/
def IsNegative (d : Dataset) (v : Int) : Prop := 0 ≤ v ∧ v < (d.numNodes : Int) - 1

end DeepGNN.SageExample
