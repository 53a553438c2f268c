import Verif.Model.Gat

/-
The dense versions of the GAT and GCN layers: src/python/deepgnn/tf/nn/gat_conv.py:86-95,
src/python/deepgnn/pytorch/nn/gat_conv.py:66-84 and src/python/deepgnn/tf/nn/gcn_conv.py:24-33, 68-71.

A matrix of another size than `n` by `n` fails; broadcasting of a matrix with one row or column is not modelled.
-/

namespace DeepGNN.Gat

open DeepGNN.Sage Arith Analysis

section
variable {α : Type} [Analysis α]

/-- An `n` by `n` matrix. -/
def isSquare (n : Nat) (a : Mat α) : Bool := a.length == n && a.all (fun r => r.length == n)

/-- `tf.matmul` of an `n` by `n` matrix with one of width `w` (gat_conv.py:94, gcn_conv.py:33, 71). -/
def denseMatmul (n w : Nat) (a x : Mat α) : Mat α :=
  a.map fun row => (List.range w).map fun q =>
    total ((List.range n).map fun j => mul (row.getD j zero) ((x.getD j []).getD q zero))

/-- `tf.nn.softmax` of a row (gat_conv.py:89). -/
def softmaxRow (row : List α) : List α :=
  let m := row.tail.foldl Arith.max (row.headD zero)
  row.map fun v => div (exp (sub v m)) (total (row.map fun u => exp (sub u m)))

/-- `AttnHead.call` with a dense adjacency matrix (gat_conv.py:55-95, pytorch/nn/gat_conv.py:45-84); `big` is -1e9. -/
def headDense (big : α) (h : Head α) (n : Nat) (a : Mat α) (feat : Mat α) : Option (Mat α) :=
  (feat.mapM (dense h.w)).bind fun seq =>
    (seq.mapM (score h.left h.leftBias)).bind fun f1 =>
      (seq.mapM (score h.right h.rightBias)).bind fun f2 =>
        if f1.length = n ∧ isSquare n a = true ∧ h.bias.length = h.w.length then
          let coefs := (List.range n).map fun i => softmaxRow ((List.range n).map fun j =>
            add (leaky (add (f1.getD i zero) (f2.getD j zero))) (mul big (sub one ((a.getD i []).getD j zero))))
          some ((denseMatmul n h.w.length coefs seq).map fun v => (List.zipWith add v h.bias).map elu)
        else none

/-- `GATConv.call` with a dense adjacency matrix (gat_conv.py:163-173). -/
def gatConvDense (big : α) (j : Join) (heads : List (Head α)) (n : Nat) (a : Mat α) (feat : Mat α) : Option (Mat α) :=
  (heads.mapM fun h => headDense big h n a feat).bind fun outs =>
    if outs.isEmpty then none
    else some ((List.range n).map fun i => join j (outs.map fun o => o.getD i []))

/-- `tf.linalg.diag` (gcn_conv.py:30). -/
def diag (d : List α) : Mat α :=
  (List.range d.length).map fun i => (List.range d.length).map fun j => if i = j then d.getD i zero else zero

/-- `gcn_norm_adj` of a dense matrix (gcn_conv.py:24-33). -/
def gcnNormAdjDense (n : Nat) (a : Mat α) : Option (Mat α) :=
  if isSquare n a then
    let dinv := a.map fun row =>
      let d := rsqrt (total row)
      if isInf d then zero else d
    some (denseMatmul n n (denseMatmul n n (diag dinv) a) (diag dinv))
  else none

/-- `GCNConv.call` with a dense matrix and `use_bias=False` (gcn_conv.py:63-79). -/
def gcnConvDense (w : Mat α) (n : Nat) (adj : Mat α) (feat : Mat α) : Option (Mat α) :=
  (feat.mapM (dense w)).bind fun x =>
    if x.length = n ∧ isSquare n adj = true then some (denseMatmul n w.length adj x) else none

end

end DeepGNN.Gat
