import Verif.Model.DenseAdj

/-
The encoders of PyTorch for a node and its sampled neighbours: src/python/deepgnn/pytorch/encoding/gnn_encoder_lightgcn.py,
gnn_encoder_gat.py, gnn_encoder_lgcl.py and gnn_encoder_hetgnn.py of the same directory.

Numbers are of an arbitrary type with arbitrary operations, `none` is an exception.  Modules are given with their weights, by output
column.
-/

namespace DeepGNN.Encoders

open DeepGNN.Sage DeepGNN.Gat Arith Analysis

section
variable {α : Type} [Analysis α]

/-- The number of columns. -/
def width (t : Mat α) : Nat := (t.headD []).length

/-- `LightGCNEncoder.forward` (gnn_encoder_lightgcn.py:16-29); the sum of tensors of different shapes fails, broadcasting of a single
row or column is left out. -/
def lightGcn (samples : List (Mat α)) (fanouts : List Nat) : Option (Mat α) :=
  match fanouts with
  | [] => samples[0]?
  | [f] => (samples[0]?).bind fun own => (samples[1]?).bind fun neigh =>
    (reshape f (width neigh) neigh).bind fun groups =>
      let means := groups.map (meanRows (width neigh))
      if own.length = means.length ∧ own.all (fun v => v.length == width neigh) then
        some (List.zipWith (List.zipWith fun a b => divNat (add a b) 2) own means)
      else none
  | _ => none

/-- `GatEncoder.forward` (gnn_encoder_gat.py:37-49) on one matrix of the batch: the softmax is over dimension 1, the first one of the
matrix `coefs`, so that its columns are normalised.  `fc` has no bias, `act` is the identity for `None`. -/
def gatSeq (h : Head α) (act : α → α) (seq : Mat α) : Option (Mat α) :=
  (seq.mapM (dense h.w)).bind fun feats =>
    (feats.mapM (score h.left h.leftBias)).bind fun f1 =>
      (feats.mapM (score h.right h.rightBias)).map fun f2 =>
        let columns := f2.map fun b => softmaxRow (f1.map fun a => leaky (add a b))
        (List.range feats.length).map fun i => (List.range h.w.length).map fun q =>
          act (total (List.zipWith (fun c v => mul (c.getD i zero) (v.getD q zero)) columns feats))

/-- `GatEncoder.forward` (gnn_encoder_gat.py:37-49). -/
def gatEncoder (h : Head α) (act : α → α) (batch : List (Mat α)) : Option (List (Mat α)) := batch.mapM (gatSeq h act)

/-- Insertion into a list in descending order. -/
def insertDesc (le : α → α → Bool) (x : α) : List α → List α
  | [] => [x]
  | y :: l => if le y x then x :: y :: l else y :: insertDesc le x l

/-- The numbers in descending order. -/
def sortDesc (le : α → α → Bool) (l : List α) : List α := l.foldr (insertDesc le) []

/-- `torch.topk(neighbor, k, dim=1).values` for one node (gnn_encoder_lgcl.py:88): the greatest numbers of every column. -/
def topK (le : α → α → Bool) (k w : Nat) (rows : Mat α) : Option (Mat α) :=
  if k ≤ rows.length then
    some ((List.range k).map fun j => (List.range w).map fun q => (sortDesc le (rows.map fun v => v.getD q zero)).getD j zero)
  else none

/-- `torch.transpose(seq, 1, 2)` for one node (gnn_encoder_lgcl.py:92). -/
def transpose (w : Nat) (rows : Mat α) : Mat α := (List.range w).map fun q => rows.map fun v => v.getD q zero

/-- `Conv1d`: for every output channel a matrix with a row of `kernel` numbers for every input channel, and a bias. -/
structure Conv (α : Type) where
  w : List (Mat α)
  b : Vec α
  kernel : Nat

/-- `Conv1d` on one element of the batch, `x` has a row for every channel; a sequence shorter than the kernel fails, and so does
another number of channels. -/
def Conv.apply (c : Conv α) (x : Mat α) : Option (Mat α) :=
  if width x < c.kernel ∨ c.w.any (fun m => m.length != x.length) then none
  else some (List.zipWith (fun m b => (List.range (width x - c.kernel + 1)).map fun t =>
    add (total (List.zipWith mul m.flatten (x.map fun ch => (ch.drop t).take c.kernel).flatten)) b) c.w c.b)

/-- A tensor after `torch.squeeze` (gnn_encoder_lgcl.py:99). -/
inductive Squeezed (α : Type) where
  | scalar : α → Squeezed α
  | vec : Vec α → Squeezed α
  | mat : Mat α → Squeezed α

/-- `torch.squeeze` of a tensor with shape `[n, h, 1]` (gnn_encoder_lgcl.py:99): every dimension of size 1 is dropped.  A tensor with
another last dimension does not occur and fails here. -/
def squeeze (h : Nat) (t : List (Mat α)) : Option (Squeezed α) :=
  if t.any (fun m => m.any fun r => r.length != 1) then none
  else
    let rows := t.map List.flatten
    if rows.length = 1 then
      if h = 1 then some (.scalar ((rows.headD []).headD zero)) else some (.vec (rows.headD []))
    else if h = 1 then some (.vec (rows.map fun r => r.headD zero))
    else some (.mat rows)

/-- The sum of two rows; a row of one number is repeated. -/
def addRow (a b : Vec α) : Option (Vec α) :=
  if a.length = b.length then some (List.zipWith add a b)
  else if b.length = 1 then some (a.map fun x => add x (b.headD zero))
  else if a.length = 1 then some (b.map fun y => add (a.headD zero) y)
  else none

/-- The sum of a squeezed tensor and a matrix; a single row is repeated. -/
def addTensor : Squeezed α → Mat α → Option (Mat α)
  | .scalar a, m => some (m.map fun r => r.map fun y => add a y)
  | .vec v, m => m.mapM fun r => addRow v r
  | .mat s, m =>
    if s.length = m.length then (s.zip m).mapM fun p => addRow p.1 p.2
    else if m.length = 1 then s.mapM fun a => addRow a (m.headD [])
    else if s.length = 1 then m.mapM fun r => addRow (s.headD []) r
    else none

/-- `torch.cat([seq, samples[hop]], dim=-1)` (gnn_encoder_lgcl.py:109): the number of dimensions must agree. -/
def catTensor : Squeezed α → Mat α → Option (Mat α)
  | .mat s, m => if s.length = m.length then some (List.zipWith (· ++ ·) s m) else none
  | _, _ => none

/-- `seq.shape[-1]`. -/
def Squeezed.lastDim : Squeezed α → Option Nat
  | .scalar _ => none
  | .vec v => some v.length
  | .mat m => some (width m)

/-- The `residual` argument. -/
inductive Residual where
  | add
  | concat
deriving DecidableEq, Repr

/-- `LgclEncoder` (gnn_encoder_lgcl.py:23-74): `conv l hop` are the two convolutions, `res l` the linear layer of the residual with its
bias, `out` that of the output, `acts` the activations; `le` compares numbers. -/
structure Lgcl (α : Type) where
  inFeatures : Nat
  ks : List Nat
  hidden : List Nat
  residual : Residual
  conv : Nat → Nat → Conv α × Conv α
  res : Nat → Mat α × Vec α
  out : Mat α × Vec α
  acts : Nat → α → α
  le : α → α → Bool

/-- The kernels of the two convolutions (gnn_encoder_lgcl.py:44-59). -/
def kernels (k : Nat) : Nat × Nat := ((k + 1) / 2 + 1, k / 2 + 1)

/-- `in_features` in the constructor before layer `l` (gnn_encoder_lgcl.py:61-69). -/
def Lgcl.inDim (e : Lgcl α) (l : Nat) : Nat :=
  match e.residual with
  | .add => if l = 0 then e.inFeatures else e.hidden.getD (l - 1) 0
  | .concat => e.inFeatures + (e.hidden.take l).sum

/-- `nn.Linear` on one row. -/
def linear (m : Mat α × Vec α) (x : Vec α) : Option (Vec α) := (dense m.1 x).map fun y => List.zipWith add y m.2

/-- The convolutions for one node (gnn_encoder_lgcl.py:89-98). -/
def Lgcl.convolve (e : Lgcl α) (l hop k w : Nat) (own : Vec α) (neigh : Mat α) : Option (Mat α) :=
  (topK e.le k w neigh).bind fun top =>
    ((e.conv l hop).1.apply (transpose w (own :: top))).bind fun a =>
      ((e.conv l hop).2.apply (a.map fun r => r.map (e.acts l))).map fun b => b.map fun r => r.map (e.acts l)

/-- One pass of the inner loop of `forward` (gnn_encoder_lgcl.py:84-111). -/
def Lgcl.step (e : Lgcl α) (fanouts : List Nat) (l : Nat) (samples : List (Mat α)) (hop : Nat) : Option (Mat α) :=
  (samples[hop]?).bind fun own => (samples[hop + 1]?).bind fun below => (samples[0]?).bind fun first =>
    (fanouts[hop]?).bind fun f => (e.ks[hop]?).bind fun k => (e.hidden[l]?).bind fun h =>
      (reshape f (width below) below).bind fun groups =>
        if groups.length ≠ own.length then none
        else
          ((own.zip groups).mapM fun p => e.convolve l hop k (width below) p.1 p.2).bind fun t =>
            (squeeze h t).bind fun seq =>
              match e.residual with
              | .add => seq.lastDim.bind fun d =>
                if width own ≠ d then
                  if e.inDim l ≠ h then (own.mapM (linear (e.res l))).bind fun r => addTensor seq r else none
                else addTensor seq first
              | .concat => catTensor seq own

/-- The outer loop of `forward` (gnn_encoder_lgcl.py:82-112), layers `l` and following. -/
def Lgcl.loop (e : Lgcl α) (fanouts : List Nat) : Nat → Nat → List (Mat α) → Option (List (Mat α))
  | 0, _, samples => some samples
  | n + 1, l, samples => ((List.range (n + 1)).mapM (e.step fanouts l samples)).bind (Lgcl.loop e fanouts n (l + 1))

/-- `LgclEncoder.forward` (gnn_encoder_lgcl.py:76-119). -/
def Lgcl.forward (e : Lgcl α) (fanouts : List Nat) (samples : List (Mat α)) : Option (Mat α) :=
  (e.loop fanouts fanouts.length 0 samples).bind fun s => (s[0]?).bind fun first =>
    if width first ≠ e.hidden.getLastD 0 then
      if e.inDim e.ks.length ≠ e.hidden.getLastD 0 then
        (first.mapM (linear e.out)).map fun r => r.map fun v => v.map (e.acts (e.hidden.length - 1))
      else none
    else some first

/-- `HetGnnEncoder` (gnn_encoder_hetgnn.py:23-62): the linear layer for the node, the attention with its bias, the activation. -/
structure Het (α : Type) where
  inFeatures : Nat
  outDim : Nat
  node : Mat α × Vec α
  att : Vec α
  attBias : α
  act : α → α

/-- The bi-LSTM for one kind of neighbours (gnn_encoder_hetgnn.py:84-92): `lstm` gives the states for a sequence, `d` is the number of
units in one direction. -/
def lstmEmbed (lstm : Mat α → Mat α) (d f : Nat) (own neigh : Mat α) : Option (Mat α) :=
  (reshape f (width neigh) neigh).bind fun groups =>
    if groups.length ≠ own.length then none
    else some (List.zipWith (fun x g => meanRows (2 * d) (lstm (x :: g))) own groups)

/-- The attention over the kinds of neighbours and the node itself (gnn_encoder_hetgnn.py:97-111), for several kinds. -/
def Het.combine (e : Het α) (embeds : List (Mat α)) (node : Mat α) : Option (Mat α) :=
  (if width node ≠ e.outDim then (node.mapM (linear e.node)).map fun r => r.map fun v => v.map e.act else some node).bind fun node =>
    let all := embeds ++ [node]
    if all.all (fun m => m.length == node.length && m.all fun v => v.length == width node) then
      (List.range node.length).mapM fun b =>
        let own := node.getD b []
        let rows := all.map fun m => m.getD b []
        (rows.mapM fun v => score e.att e.attBias (own ++ v)).map fun scores =>
          let ws := softmaxRow (scores.map leaky)
          (List.range e.outDim).map fun q => total (List.zipWith (fun c v => mul c (v.getD q zero)) ws rows)
    else none

/-- `HetGnnEncoder.forward` (gnn_encoder_hetgnn.py:64-111): `encs i` embeds the neighbours of kind `i`, given `samples[0]` and
`samples[i + 1]`. -/
def Het.forward (e : Het α) (encs : List (List (Mat α) → List (Mat α) → Option (Mat α))) (samples : List (List (Mat α))) : Option (Mat α) :=
  (samples[0]?).bind fun s0 => (s0[0]?).bind fun node =>
    match encs with
    | [] => if width node ≠ e.outDim then (node.mapM (linear e.node)).map fun r => r.map fun v => v.map e.act else some node
    | [enc] => (samples[1]?).bind (enc s0)
    | _ => (encs.zipIdx.mapM fun p => (samples[p.2 + 1]?).bind (p.1 s0)).bind fun embeds => e.combine embeds node

end

end DeepGNN.Encoders
