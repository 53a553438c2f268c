import Verif.Model.Sage
import Verif.Model.SubGraph

/-
The GAT and GCN models: the queries and models of examples/tensorflow/gat/gat.py and examples/tensorflow/gcn/gcn.py, the layers of
src/python/deepgnn/tf/nn/gat_conv.py and src/python/deepgnn/tf/nn/gcn_conv.py.

Numbers are of an arbitrary type with arbitrary operations (no law is assumed of them).  A matrix is the list of its rows and `none`
is an exception.  Dropout is 0, its default; losses and metrics are not modelled.
-/

namespace DeepGNN.Gat

open DeepGNN.Sage

/-- The further operations on numbers used by attention and normalisation. -/
class Analysis (α : Type) extends Arith α where
  one : α
  sub : α → α → α
  div : α → α → α
  exp : α → α
  leaky : α → α
  elu : α → α
  rsqrt : α → α
  isInf : α → Bool

open Arith Analysis

section
variable {α : Type} [Analysis α]

/-- Entries of a sparse matrix: row, column and value, in their order. -/
abbrev Entries (α : Type) := List ((Nat × Nat) × α)

/-- The entries of row `i`. -/
def rowOf {β : Type} (i : Nat) (es : List ((Nat × Nat) × β)) : List ((Nat × Nat) × β) := es.filter (·.1.1 == i)

/-- `tf.sparse.softmax` (gat_conv.py:104): over the entries present in the same row. -/
def sparseSoftmax (es : Entries α) : Entries α :=
  es.map fun (e : (Nat × Nat) × α) =>
    let row := (rowOf e.1.1 es).map (·.2)
    let m := row.tail.foldl Arith.max (row.headD zero)
    (e.1, div (exp (sub e.2 m)) (total (row.map fun v => exp (sub v m))))

/-- `tf.sparse.sparse_dense_matmul` (gat_conv.py:109, gcn_conv.py:69) of an `n` by `n` matrix with a matrix of width `w`. -/
def sparseMatmul (n w : Nat) (es : Entries α) (x : Mat α) : Option (Mat α) :=
  if x.length = n ∧ es.all (fun e => e.1.1 < n && e.1.2 < n) then
    some ((List.range n).map fun i => (List.range w).map fun q =>
      total ((rowOf i es).map fun e => mul e.2 ((x.getD e.1.2 []).getD q zero)))
  else none

/-- The weights of an attention head (gat_conv.py:44-53): `w` by output column, and the two scores with their biases. -/
structure Head (α : Type) where
  w : Mat α
  left : Vec α
  leftBias : α
  right : Vec α
  rightBias : α
  bias : Vec α

/-- `Dense(1)` on one row (gat_conv.py:45-46). -/
def score (ws : Vec α) (b : α) (x : Vec α) : Option α := (dense [ws] x).map fun y => add (y.headD zero) b

/-- `AttnHead.call` with a sparse adjacency matrix (gat_conv.py:55-84, 97-110) and `act=tf.nn.elu`; `embedding_lookup` of an index
out of range fails, and so does a bias of another width than the weights. -/
def head (h : Head α) (n : Nat) (edges : List (Nat × Nat)) (feat : Mat α) : Option (Mat α) :=
  (feat.mapM (dense h.w)).bind fun seq =>
    (seq.mapM (score h.left h.leftBias)).bind fun f1 =>
      (seq.mapM (score h.right h.rightBias)).bind fun f2 =>
        (edges.mapM fun e => (f1[e.1]?).bind fun a => (f2[e.2]?).map fun b => (e, leaky (add a b))).bind fun logits =>
          (sparseMatmul n h.w.length (sparseSoftmax logits) seq).bind fun vals =>
            if h.bias.length = h.w.length then some (vals.map fun v => (List.zipWith add v h.bias).map elu) else none

/-- `attn_aggregate` (gat_conv.py:141). -/
inductive Join where
  | concat
  | average
deriving DecidableEq, Repr

/-- The outputs of the heads for one node, joined (gat_conv.py:169-172). -/
def join (j : Join) (rows : List (Vec α)) : Vec α :=
  match j with
  | .concat => rows.flatten
  | .average => (rows.tail.foldl (List.zipWith add) (rows.headD [])).map fun x => divNat x rows.length

/-- `GATConv.call` (gat_conv.py:163-173); without heads `tf.concat` and `tf.add_n` fail. -/
def gatConv (j : Join) (heads : List (Head α)) (n : Nat) (edges : List (Nat × Nat)) (feat : Mat α) : Option (Mat α) :=
  (heads.mapM fun h => head h n edges feat).bind fun outs =>
    if outs.isEmpty then none
    else some ((List.range n).map fun i => join j (outs.map fun o => o.getD i []))

/-- What the queries return: nodes, their features, the mask of the inputs and the edges (gat.py:40-60, gcn.py:42-65), where `feat` is
the row that `node_features` has for a node.  The values of the edges are 1. -/
def query (g : Graph) (feat : Int → Vec α) (types inputs : List Int) (numHops : Nat) :
    Option (List Int × Mat α × List Bool × List (Nat × Nat)) :=
  (SubGraph.subGraphEdges g inputs types numHops true true).map fun r =>
    (r.1, r.1.map feat, r.2.2.foldl (fun m i => m.set i true) (List.replicate r.1.length false), r.2.1)

/-- `tf.boolean_mask` (gat.py:137-138, gcn.py:130-131). -/
def booleanMask {β : Type} (l : List β) (mask : List Bool) : List β := (l.zip mask).filterMap fun p => if p.2 then some p.1 else none

/-- `GATQuery.query_training` followed by `GAT.forward` and the embeddings of `GAT.call` (gat.py:118-138): `src_nodes` and
`src_emb`. -/
def gatModel (input output : List (Head α)) (g : Graph) (feat : Int → Vec α) (types inputs : List Int) (numHops : Nat) :
    Option (List Int × Mat α) :=
  (query g feat types inputs numHops).bind fun t =>
    (gatConv .concat input t.1.length t.2.2.2 t.2.1).bind fun h1 =>
      (gatConv .average output t.1.length t.2.2.2 h1).map fun out =>
        (booleanMask t.1 t.2.2.1, booleanMask out t.2.2.1)

/-- `gcn_norm_adj` of a sparse matrix (gcn_conv.py:10-23). -/
def gcnNormAdj (n : Nat) (es : Entries α) : Option (Entries α) :=
  if es.all (fun e => e.1.1 < n && e.1.2 < n) then
    let dinv := (List.range n).map fun i =>
      let d := rsqrt (total ((rowOf i es).map (·.2)))
      if isInf d then zero else d
    some (es.map fun e => (e.1, mul (dinv.getD e.1.1 zero) (dinv.getD e.1.2 zero)))
  else none

/-- `GCNConv.call` with a sparse matrix and `use_bias=False` (gcn_conv.py:63-79); its activation function is never applied. -/
def gcnConv (w : Mat α) (n : Nat) (adj : Entries α) (feat : Mat α) : Option (Mat α) :=
  (feat.mapM (dense w)).bind fun x => sparseMatmul n w.length adj x

/-- `GCNQuery.query_training` followed by `GCN.forward` and the embeddings of `GCN.call` (gcn.py:105-131). -/
def gcnModel (w1 w2 : Mat α) (g : Graph) (feat : Int → Vec α) (types inputs : List Int) (numHops : Nat) :
    Option (List Int × Mat α) :=
  (query g feat types inputs numHops).bind fun t =>
    (gcnNormAdj t.1.length (t.2.2.2.map fun e => (e, one))).bind fun adj =>
      (gcnConv w1 t.1.length adj t.2.1).bind fun h1 =>
        (gcnConv w2 t.1.length adj h1).map fun out => (booleanMask t.1 t.2.2.1, booleanMask out t.2.2.1)

end

end DeepGNN.Gat
