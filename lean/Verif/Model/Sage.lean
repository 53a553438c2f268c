import Verif.Model.Temporal

/-
GraphSAGE: the query of examples/tensorflow/sage/sage.py, the layers of src/python/deepgnn/tf/nn/sage_conv.py and the encoder of
src/python/deepgnn/pytorch/encoding/gnn_encoder_sage.py with src/python/deepgnn/pytorch/common/aggregators.py.

Numbers are of an arbitrary type with arbitrary operations (no law is assumed of them), so the model covers any fixed arithmetic.
A matrix is the list of its rows.  `none` is an exception.  Dropout is 0, its default.
-/

namespace DeepGNN.Sage

/-- Operations on numbers. -/
class Arith (α : Type) where
  zero : α
  add : α → α → α
  mul : α → α → α
  max : α → α → α
  divNat : α → Nat → α
  isZero : α → Bool

open Arith

abbrev Vec (α : Type) := List α
abbrev Mat (α : Type) := List (Vec α)

section
variable {α : Type} [Arith α]

/-- Sum of numbers from left to right. -/
def total (l : List α) : α := l.foldl add zero

/-- `Dense(use_bias=False)` on one row (sage_conv.py:34-39): the weights are given by output column.  An input of another width
than the weights fails. -/
def dense (w : Mat α) (x : Vec α) : Option (Vec α) :=
  if w.all (fun col => col.length == x.length) then some (w.map fun col => total (List.zipWith mul x col)) else none

/-- `tf.nn.relu`. -/
def relu (x : α) : α := max x zero

/-- `reduce_mean(axis=1)` for one node (sage_conv.py:58): `w` is the width of the tensor. -/
def meanRows (w : Nat) (rows : Mat α) : Vec α :=
  (List.range w).map fun j => divNat (total (rows.map (·.getD j zero))) rows.length

/-- `reduce_max(axis=1)` for one node (sage_conv.py:126). -/
def maxRows (w : Nat) (rows : Mat α) : Vec α :=
  (List.range w).map fun j => (rows.tail.map (·.getD j zero)).foldl max ((rows.map (·.getD j zero)).headD zero)

/-- The consecutive pieces of length `k` of a list. -/
def chunks {β : Type} (k : Nat) (l : List β) : List (List β) :=
  (List.range (l.length / k)).map fun i => (l.drop (i * k)).take k

/-- `tf.reshape(t, [-1, n, w])` (sage_conv.py:256-257): all numbers in order, cut into rows of `w` and these into groups of `n`. -/
def reshape (n w : Nat) (t : Mat α) : Option (List (Mat α)) :=
  let flat := t.flatten
  if n * w = 0 then none
  else if flat.length % (n * w) ≠ 0 then none
  else some ((chunks (n * w) flat).map (chunks w))

/-- `_AGG_CLASS` (sage_conv.py:217-221). -/
inductive Kind where
  | mean
  | maxpool
  | lstm
deriving DecidableEq, Repr

/-- The weights of an aggregator (sage_conv.py:34-39, 101-109, 169-184).  `cell` is the step of the LSTM from a state and an input
to a state and an output. -/
structure Weights (α : Type) where
  neigh : Mat α
  self : Mat α
  mlp : Mat α := []
  mlpBias : Vec α := []
  cell : List α → Vec α → List α × Vec α := fun s _ => (s, [])
  start : List α := []

/-- An aggregator made by `init_aggregators` (sage_conv.py:224-239), `bias` is off. -/
structure Agg (α : Type) where
  kind : Kind
  weights : Weights α
  act : Bool
  concat : Bool

/-- `init_aggregators` (sage_conv.py:224-239): no activation in the last layer. -/
def initAggs (kind : Kind) (ws : List (Weights α)) (concat : Bool) : List (Agg α) :=
  ws.mapIdx fun layer w => ⟨kind, w, layer != ws.length - 1, concat⟩

/-- Creating an aggregator (sage_conv.py:17-47, 83-117, 151-182): the shape of the bias is read from `self.out_dim`, which is
not set, so `bias=True` fails. -/
def createAgg (kind : Kind) (w : Weights α) (act bias concat : Bool) : Option (Agg α) :=
  if bias then none else some ⟨kind, w, act, concat⟩

/-- The outputs of a recurrent layer for one sequence (`RNN(return_sequences=True)`, sage_conv.py:184, 195). -/
def rnn (cell : List α → Vec α → List α × Vec α) : List α → List (Vec α) → List (Vec α)
  | _, [] => []
  | s, x :: xs => (cell s x).2 :: rnn cell (cell s x).1 xs

/-- `length` (sage_conv.py:190-193): the number of rows with some number other than 0, at least 1. -/
def usedRows (rows : Mat α) : Nat := Nat.max (rows.filter fun v => v.any fun x => !isZero x).length 1

/-- `neigh_h` of the LSTM (sage_conv.py:190-200): the outputs of all nodes are put into one list and read at
`i * max_len + (length - 1)`. -/
def lstmRows (w : Weights α) (n : Nat) (neigh : List (Mat α)) : Option (Mat α) :=
  let flat := (neigh.map (rnn w.cell w.start)).flatten
  (List.range neigh.length).mapM fun i => flat[i * n + (usedRows (neigh.getD i []) - 1)]?

/-- What an aggregator makes of the neighbours of all nodes, before `neigh_weight` (sage_conv.py:58, 122-126, 190-200): a tensor
of groups of `n` rows of width `w`. -/
def pooled (a : Agg α) (n w : Nat) (neigh : List (Mat α)) : Option (Mat α) :=
  match a.kind with
  | .mean => some (neigh.map (meanRows w))
  | .maxpool => do
    let h ← neigh.mapM fun rows => rows.mapM fun x => do
      let y ← dense a.weights.mlp x
      if y.length = a.weights.mlpBias.length then some ((List.zipWith add y a.weights.mlpBias).map relu) else none
    some (h.map (maxRows a.weights.mlp.length))
  | .lstm => lstmRows a.weights n neigh

/-- `call` of the aggregators (sage_conv.py:49-73, 119-141, 186-214): `tf.concat` and `tf.add_n` fail for different numbers of
rows, `add_n` for different widths. -/
def call (a : Agg α) (n w : Nat) (self : Mat α) (neigh : List (Mat α)) : Option (Mat α) := do
  let h ← pooled a n w neigh
  let fromNeigh ← h.mapM (dense a.weights.neigh)
  let fromSelf ← self.mapM (dense a.weights.self)
  if fromSelf.length ≠ fromNeigh.length then none
  else if !a.concat && a.weights.self.length != a.weights.neigh.length then none
  else
    let out := List.zipWith (fun s g => if a.concat then s ++ g else List.zipWith add s g) fromSelf fromNeigh
    some (if a.act then out.map (·.map relu) else out)

/-- One pass of the outer loop of `aggregate` (sage_conv.py:251-259). -/
def aggLayer (aggs : List (Agg α)) (counts dims : List Nat) (concat : Bool) (layer : Nat) (hidden : List (Mat α)) :
    Option (List (Mat α)) := do
  let a ← aggs[layer]?
  let d ← dims[layer]?
  let w := (if concat && layer != 0 then 2 else 1) * d
  (List.range (counts.length - layer)).mapM fun hop => do
    let n ← counts[counts.length - hop - 1]?
    let self ← hidden[hop]?
    let below ← hidden[hop + 1]?
    call a n w self (← reshape n w below)

/-- The outer loop of `aggregate` (sage_conv.py:251-259) for the next `n` layers. -/
def aggLoop (aggs : List (Agg α)) (counts dims : List Nat) (concat : Bool) : Nat → Nat → List (Mat α) → Option (List (Mat α))
  | 0, _, hidden => some hidden
  | n + 1, layer, hidden => do aggLoop aggs counts dims concat n (layer + 1) (← aggLayer aggs counts dims concat layer hidden)

/-- `aggregate` (sage_conv.py:242-262). -/
def aggregate (hidden : List (Mat α)) (aggs : List (Agg α)) (counts dims : List Nat) (concat : Bool) : Option (Mat α) := do
  match ← aggLoop aggs counts dims concat counts.length 0 hidden with
  | [out] => some out
  | _ => none

/-- `_sample_n_hop_neighbors` (sage.py:51-75) from hop `k` on: `sample k nodes count` is the answer of `sample_neighbors`, one row
per node. -/
def hopLists (counts : List Nat) (sample : Nat → List Int → Nat → List (List Int)) : Nat → Nat → List Int → List (List Int)
  | 0, _, cur => [cur]
  | n + 1, k, cur => cur :: hopLists counts sample n (k + 1) (sample k cur (counts.getD (counts.length - k - 1) 0)).flatten

/-- The slices of `_query_neighbor` (sage.py:85-90). -/
def slices {β : Type} : List Nat → List β → List (List β)
  | [], _ => []
  | n :: ns, l => l.take n :: slices ns (l.drop n)

/-- `_query_neighbor` (sage.py:77-92): all nodes once, and the positions of the nodes of every hop among them. -/
def queryNeighbor (counts : List Nat) (sample : Nat → List Int → Nat → List (List Int)) (inputs : List Int) :
    List Int × List (List Nat) :=
  let lists := hopLists counts sample counts.length 0 inputs
  let all := lists.flatten
  let nodes := sortUnique all
  (nodes, slices (lists.map List.length) (all.map (nodes.idxOf ·)))

/-- `tf.nn.embedding_lookup`. -/
def lookup {β : Type} (table : List β) (idx : List Nat) : Option (List β) := idx.mapM (table[·]?)

/-- The features of `call` when they are embeddings of the nodes (sage.py:190-198): unknown nodes use the last row. -/
def identityFeatures (emb : Mat α) (nodes : List Int) : Option (Mat α) :=
  nodes.mapM fun n => if 0 ≤ n then emb[n.toNat]? else emb[emb.length - 1]?

/-- `query_training` and `call` up to the output of `aggregate` (sage.py:94-106, 187-203): `features` are the rows of all nodes. -/
def forward (aggs : List (Agg α)) (counts dims : List Nat) (concat : Bool) (features : List Int → Option (Mat α))
    (sample : Nat → List Int → Nat → List (List Int)) (inputs : List Int) : Option (Mat α) := do
  let q := queryNeighbor counts sample inputs
  let feat ← features q.1
  let hidden ← q.2.mapM (lookup feat)
  aggregate hidden aggs counts dims concat

/-- `src_nodes` (sage.py:213-214): the nodes the rows of the output are for. -/
def srcNodes (counts : List Nat) (sample : Nat → List Int → Nat → List (List Int)) (inputs : List Int) : Option (List Int) :=
  let q := queryNeighbor counts sample inputs
  lookup q.1 (q.2.headD [])

end
end DeepGNN.Sage
