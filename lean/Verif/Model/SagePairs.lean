import Verif.Model.Sage
import Verif.Model.Metrics

/-
GraphSAGE trained on pairs of nodes: the unsupervised model (examples/tensorflow/sage/sage_unsupervised.py) and link prediction
(examples/tensorflow/sage/sage_linkprediction.py).

Numbers are as in Model/Sage: of any type, with any operations.  `tf.nn.l2_normalize(x, 1)` is any function `norm` of a row,
the cross entropies are any functions.  `tf.nn.top_k` compares numbers through an integer key, so numbers that are not a number are
left out.  Means of reciprocal ranks are exact.  The layers inside `aggregate` have no dropout.
-/

namespace DeepGNN.SagePairs

open Sage Sage.Arith

section
variable {α : Type} [Arith α]

/-- `_merge_nodes` (sage_unsupervised.py:38-46). -/
def mergeNodes (seeds pos neg : List Int) : List Int × List Nat × List Nat × List Nat :=
  let merged := seeds ++ pos ++ neg
  (merged, List.range' 0 seeds.length, List.range' seeds.length pos.length,
    List.range' (seeds.length + pos.length) (merged.length - (seeds.length + pos.length)))

/-- The sum of the products of two rows (sage_unsupervised.py:162-164, 166-168, sage_linkprediction.py:188). -/
def inner (a b : Vec α) : α := total (List.zipWith mul a b)

/-- `_affinity` (sage_unsupervised.py:162-164): the rows of one tensor times those of the other.  Tensors of different numbers of rows
fail (the broadcast of a single row is not modelled). -/
def affinity (a b : Mat α) : Option (List α) := if a.length = b.length then some (List.zipWith inner a b) else none

/-- `_neg_cost` (sage_unsupervised.py:166-168). -/
def negCost (a n : Mat α) : Mat α := a.map fun x => n.map (inner x)

/-- Insertion of a position by descending value; on equal values the position inserted last comes first. -/
def insertTop (row : List Int) (i : Nat) : List Nat → List Nat
  | [] => [i]
  | j :: l => if row.getD i 0 < row.getD j 0 then j :: insertTop row i l else i :: j :: l

/-- `tf.nn.top_k(row, k=size)[1]`: all positions by descending value, the lower position first on equal values. -/
def topK (row : List Int) : List Nat := (List.range row.length).foldr (insertTop row) []

/-- `ranks[:, -1]` for one source (sage_unsupervised.py:213-222): `neg` are the numbers for the negatives, `p` that for the positive. -/
def rankLast (key : α → Int) (neg : List α) (p : α) : Nat :=
  ((Metrics.ranks topK ((neg ++ [p]).map key)).getLast?).getD 0

/-- `_calc_mrr` (sage_unsupervised.py:206-226). -/
def calcMrr (key : α → Int) (src pos neg : Mat α) : Option Rat := do
  let aff ← affinity src pos
  let r := List.zipWith (rankLast key) (negCost src neg) aff
  some ((r.map fun x : Nat => 1 / ((x : Rat) + 1)).sum / r.length)

/-- `_xent_loss` (sage_unsupervised.py:228-240): `one` and `zero'` are the cross entropies for labels 1 and 0. -/
def xentLoss (one zero' : α → α) (weight : α) (src pos neg : Mat α) : Option α := do
  let aff ← affinity src pos
  some (add (total (aff.map one)) (mul weight (total ((negCost src neg).flatten.map zero'))))

/-- What `call` of the unsupervised model gives, and keeps for `predict_step` (sage_unsupervised.py:190-205, 261-264). -/
structure Unsup (α : Type) where
  nodes : List Int
  emb : Mat α
  loss : α
  mrr : Rat
deriving DecidableEq

/-- `query_training` and `call` of the unsupervised model (sage_unsupervised.py:65-81, 170-205): `pos` and `neg` are the answers of
`sample_neighbors` with `count=1` and of `sample_nodes` (48-63). -/
def unsup (aggs : List (Agg α)) (counts dims : List Nat) (concat : Bool) (features : List Int → Option (Mat α))
    (norm : Vec α → Vec α) (key : α → Int) (one zero' : α → α) (weight : α)
    (sample : Nat → List Int → Nat → List (List Int)) (seeds pos neg : List Int) : Option (Unsup α) := do
  let m := mergeNodes seeds pos neg
  let output := (← forward aggs counts dims concat features sample m.1).map norm
  let srcEmb ← lookup output m.2.1
  let posEmb ← lookup output m.2.2.1
  let negEmb ← lookup output m.2.2.2
  let q := queryNeighbor counts sample m.1
  let nodes ← lookup q.1 (← lookup (q.2.headD []) m.2.1)
  let mrr ← calcMrr key srcEmb posEmb negEmb
  let loss ← xentLoss one zero' weight srcEmb posEmb negEmb
  some ⟨nodes, srcEmb, divNat loss srcEmb.length, mrr⟩

/-- `identity_embed_shape[0] - 1` in the constructors (sage_unsupervised.py:151-152, sage_linkprediction.py:119-120): nothing is read
when the shape is `None`. -/
def initMaxId : Option (List Int) → Option (Option Int)
  | none => some none
  | some [] => none
  | some (d :: _) => some (some (d - 1))

/-! ### Link prediction -/

/-- `set_inference_node` (sage_linkprediction.py:131-134). -/
inductive Side where
  | src
  | dst
deriving DecidableEq, Repr

/-- The parts of the link prediction model that are fixed after training.  `drop` is `tf.nn.dropout` with a rate other than 0 and one
drawing of its random numbers (sage_linkprediction.py:160-161), `none` for rate 0. -/
structure Link (α : Type) where
  srcAggs : List (Agg α)
  dstAggs : List (Agg α)
  table : Mat α
  norm : Vec α → Vec α
  drop : Option (Mat α → Mat α)
  /-- Cross entropy for a label and a number, and the sigmoid. -/
  xent : α → α → α
  sigmoid : α → α

/-- `_sage_embeding` on the answers for some nodes (sage_linkprediction.py:154-162, with the features of 140-141, 175-178). -/
def sageEmbedding (l : Link α) (aggs : List (Agg α)) (counts dims : List Nat) (concat : Bool)
    (sample : Nat → List Int → Nat → List (List Int)) (ids : List Int) : Option (Mat α) := do
  let out := (← forward aggs counts dims concat (identityFeatures l.table) sample ids).map l.norm
  match l.drop with
  | none => some out
  | some f => some (f out)

/-- What a query gives to the model: the answers for edges with their labels (sage_linkprediction.py:22-51), or for nodes (54-79).  The
samplers are the answers of the graph for the nodes on either side. -/
inductive Input (α : Type) where
  | edges (src dst : List Int) (labels : Mat α) (sampleSrc sampleDst : Nat → List Int → Nat → List (List Int))
  | nodes (ids : List Int) (sample : Nat → List Int → Nat → List (List Int))

/-- What `call` gives: three values for edges, two for nodes. -/
inductive Output (α : Type) where
  | scores (predictions : List α) (loss : α)
  | embeddings (ids : List Int) (emb : Mat α)

/-- `inference` (sage_linkprediction.py:136-152). -/
def inference (l : Link α) (counts dims : List Nat) (concat : Bool) (side : Side) : Input α → Option (Output α)
  | .edges .. => none
  | .nodes ids sample => do
    let emb ← sageEmbedding l (if side = .src then l.srcAggs else l.dstAggs) counts dims concat sample ids
    some (.embeddings (← srcNodes counts sample ids) emb)

/-- `call` (sage_linkprediction.py:164-198) for the value `node` of `inference_node`.  Labels and numbers of different shapes fail; the
AUC is not modelled. -/
def linkCall (l : Link α) (counts dims : List Nat) (concat : Bool) (node : Option Side) (training : Bool) (x : Input α) :
    Option (Output α) :=
  match training, node with
  | false, some side => inference l counts dims concat side x
  | _, _ =>
    match x with
    | .nodes .. => none
    | .edges src dst labels sampleSrc sampleDst => do
      let s ← sageEmbedding l l.srcAggs counts dims concat sampleSrc src
      let d ← sageEmbedding l l.dstAggs counts dims concat sampleDst dst
      let logits ← affinity s d
      let flat := labels.flatten
      if flat.length ≠ logits.length then none
      else some (.scores (logits.map l.sigmoid) (divNat (total (List.zipWith l.xent flat logits)) logits.length))

/-- `test_step` (sage_linkprediction.py:211-216): the result is unpacked into three values. -/
def testStep (l : Link α) (counts dims : List Nat) (concat : Bool) (node : Option Side) (x : Input α) : Option α :=
  match linkCall l counts dims concat node false x with
  | some (.scores _ loss) => some loss
  | _ => none

/-- `predict_step` (sage_linkprediction.py:218-221): `kept` are the attributes `node_ids` and `out_emb`, if they were ever set. -/
def predictStep (l : Link α) (counts dims : List Nat) (concat : Bool) (node : Option Side) (kept : Option (List Int × Mat α))
    (x : Input α) : Option (List Int × Mat α) :=
  match linkCall l counts dims concat node false x with
  | none => none
  | some (.embeddings ids emb) => some (ids, emb)
  | some (.scores ..) => kept

end
end DeepGNN.SagePairs
