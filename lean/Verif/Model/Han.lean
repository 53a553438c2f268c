import Verif.Model.DenseAdj
import Verif.Model.Multihop

/-
The attention encoders of TensorFlow and the HAN model: src/python/deepgnn/tf/layers/attention_header.py,
src/python/deepgnn/tf/encoders/att_encoder.py, src/python/deepgnn/tf/encoders/han_encoder.py and examples/tensorflow/han/han.py.

Numbers are of an arbitrary type with arbitrary operations.  A tensor of three dimensions is the list of its matrices, `none` is an
exception.  A header is given with its weights, `Conv1D` with a kernel of 1 is a dense layer on every row.  The loss, the metrics and
the gradient are not modelled.
-/

namespace DeepGNN.Han

open DeepGNN.Sage DeepGNN.Gat Arith Analysis

section
variable {α : Type} [Analysis α]

/-- `AttentionHeader.call` (attention_header.py:29-56) on one matrix of the batch, with `act=tf.nn.elu`; the softmax is over the last
axis. -/
def attSeq (h : Head α) (seq : Mat α) : Option (Mat α) :=
  (seq.mapM (dense h.w)).bind fun fts =>
    (fts.mapM (score h.left h.leftBias)).bind fun f1 =>
      (fts.mapM (score h.right h.rightBias)).bind fun f2 =>
        if h.bias.length = h.w.length then
          let coefs := f1.map fun a => softmaxRow (f2.map fun b => leaky (add a b))
          let vals := coefs.map fun row => (List.range h.w.length).map fun q => total (List.zipWith (fun c v => mul c (v.getD q zero)) row fts)
          some (vals.map fun v => (List.zipWith add v h.bias).map elu)
        else none

/-- `AttentionHeader.call` (attention_header.py:29-56). -/
def attHeader (h : Head α) (batch : List (Mat α)) : Option (List (Mat α)) := batch.mapM (attSeq h)

/-- `tf.concat(hidden, -1)` of tensors of the same shape (att_encoder.py:72, han_encoder.py:125). -/
def concatLast : List (List (Mat α)) → Option (List (Mat α))
  | [] => none
  | t :: ts => some (ts.foldl (List.zipWith (List.zipWith (· ++ ·))) t)

/-- The outputs of several headers, each reshaped to `[-1, n, w]` and joined (att_encoder.py:66-72, han_encoder.py:112-125). -/
def multiHead (n w : Nat) (heads : List (Head α)) (inputs : List (Mat α)) : Option (List (Mat α)) :=
  (heads.mapM fun h => (attHeader h inputs).bind fun t => reshape n w t.flatten).bind concatLast

/-- `tf.add_n` of tensors of the same shape (att_encoder.py:78). -/
def addN : List (List (Mat α)) → Option (List (Mat α))
  | [] => none
  | t :: ts => some (ts.foldl (List.zipWith (List.zipWith (List.zipWith add))) t)

/-- `AttEncoder.call` (att_encoder.py:60-82): the features of the nodes and of their neighbours are joined along the second axis. -/
def attEncoder (hidden output : List (Head α)) (nbNum hiddenDim outDim : Nat) (node neigh : List (Mat α)) : Option (Mat α) :=
  if node.length ≠ neigh.length then none
  else
    (multiHead (nbNum + 1) hiddenDim hidden (List.zipWith (· ++ ·) node neigh)).bind fun h1 =>
      (output.mapM fun h => (attHeader h h1).bind fun t => reshape (nbNum + 1) outDim t.flatten).bind fun outs =>
        (addN outs).bind fun s =>
          (reshape (nbNum + 1) outDim (s.map fun m => m.map fun v => v.map fun x => divNat x output.length).flatten).map fun out =>
            out.map fun m => m.headD []

/-- The weights of `SimpleAttLayer` (han_encoder.py:22-30): `w_omega` by column; `tanh` is the function it applies. -/
structure Semantic (α : Type) where
  w : Mat α
  b : Vec α
  u : Vec α
  tanh : α → α

/-- `SimpleAttLayer.call` (han_encoder.py:32-55) for one node: a row for every metapath. -/
def simpleAtt (s : Semantic α) (rows : Mat α) : Option (Vec α) :=
  (rows.mapM (dense s.w)).bind fun v =>
    ((v.map fun x => (List.zipWith add x s.b).map s.tanh).mapM (dense [s.u])).map fun vu =>
      let alphas := softmaxRow (vu.map fun y => y.headD zero)
      (List.range (rows.headD []).length).map fun q => total (List.zipWith (fun x a => mul (x.getD q zero) a) rows alphas)

end

/-- `att_headers[i][layer_id].append` for the headers made for one metapath and layer (han_encoder.py:107-110): `cell` is the list of
layers. -/
def appendLayer {β : Type} (cell : List (List β)) (layer : Nat) (made : List β) : Option (List (List β)) :=
  if made.isEmpty then some cell
  else if layer < cell.length then some (cell.modify layer (· ++ made))
  else none

/-- The headers of `HANEncoder.__init__` (han_encoder.py:74-110): `mk i l j` is the header made for metapath `i`, layer `l`, number `j`.
`[[[]]] * n` is a list with `n` times the same list of layers, so that every `append` is seen in all of them. -/
def initHeaders {β : Type} (mk : Nat → Nat → Nat → β) (metapaths : Nat) (headNum hiddenDim : List Nat) : Option (List (List (List β))) :=
  if headNum = [] ∨ hiddenDim = [] ∨ headNum.length ≠ hiddenDim.length then none
  else
    let steps := (List.range metapaths).flatMap fun i => headNum.zipIdx.map fun x => (x.2, (List.range x.1).map (mk i x.2))
    (steps.foldlM (fun cell s => appendLayer cell s.1 s.2) [[]]).map fun cell => List.replicate metapaths cell

/-- Parameters of the model and of its query (han.py:14-24, 97-128). -/
structure Params where
  edgeTypes : List (List Int)
  nbNum : List Nat
  headNum : List Nat
  hiddenDim : List Nat
  featureDim : Nat
  maxId : Int

/-- `metapath_num` (han.py:35, han_encoder.py:101). -/
def Params.metapathNum (p : Params) : Option Nat := if p.nbNum.length = 0 then none else some (p.edgeTypes.length / p.nbNum.length)

/-- `np.prod`. -/
def prod (l : List Nat) : Nat := l.foldl (· * ·) 1

section
variable {α : Type} [Analysis α]

/-- `_multi_head_layer` (han_encoder.py:112-125). -/
def layer (p : Params) (headers : List (List (List (Head α)))) (i l : Nat) (inputs : List (Mat α)) : Option (List (Mat α)) :=
  (p.headNum[l]?).bind fun k => (p.hiddenDim[l]?).bind fun w =>
    ((List.range k).mapM fun j => (headers[i]?).bind fun c => (c[l]?).bind fun r => r[j]?).bind fun hs =>
      multiHead (p.nbNum.sum + 1) w hs inputs

/-- The vectors of the nodes for one metapath (han_encoder.py:132-145). -/
def metapathRows (p : Params) (headers : List (List (List (Head α)))) (i : Nat) (node neigh : List (Mat α)) : Option (Mat α) :=
  if node.length ≠ neigh.length then none
  else
    ((List.range p.headNum.length).foldlM (fun t l => layer p headers i l t) (List.zipWith (· ++ ·) node neigh)).bind fun h1 =>
      (reshape (prod p.nbNum + 1) (p.hiddenDim.getLastD 0 * p.headNum.getLastD 0) h1.flatten).map fun out => out.map fun m => m.headD []

/-- `HANEncoder.call` (han_encoder.py:127-151). -/
def encode (p : Params) (metapaths : Nat) (headers : List (List (List (Head α)))) (s : Semantic α)
    (node neigh : List (List (Mat α))) : Option (Mat α) :=
  ((List.range metapaths).mapM fun i => (node[i]?).bind fun a => (neigh[i]?).bind fun b => metapathRows p headers i a b).bind fun embeds =>
    match embeds with
    | [] => none
    | e :: es =>
      if es.all (fun m => m.length == e.length) then
        (List.range e.length).mapM fun b => simpleAtt s ((e :: es).map fun m => m.getD b [])
      else none

/-- What a query returns (han.py:72-75): nodes, and the features of nodes and neighbours for every metapath. -/
structure Batch (α : Type) where
  nodes : List Int
  node : List (List (Mat α))
  neigh : List (List (Mat α))

/-- `query_trainning` (han.py:37-91) without the labels.  `sample d i` answers the calls of `sample_neighbors` for metapath `i` with
the default node `d`. -/
def query (p : Params) (feat : Int → Vec α) (sample : Int → Nat → Nat → List Int → List Int → Nat → Option (List (List Int)))
    (inputs : List Int) : Option (Batch α) :=
  p.metapathNum.bind fun m =>
    let hops := p.nbNum.length
    let total := prod p.nbNum
    ((List.range m).mapM fun i =>
      (Multihop.sampleFanout id (sample (p.maxId + 1) i) inputs ((p.edgeTypes.drop (i * hops)).take hops) p.nbNum).bind fun layers =>
        let last := (inputs :: layers).getLastD []
        if total = 0 ∨ last.length % total ≠ 0 then none
        else
          (reshape 1 p.featureDim (inputs.map feat)).bind fun a =>
            (reshape total p.featureDim (last.map feat)).map fun b => (a, b)).map fun arr =>
      ⟨inputs, arr.map (·.1), arr.map (·.2)⟩

/-- `HAN` (han.py:94-156): creating the model and embedding a batch; the nodes and their vectors, as returned by `predict_step`
(han.py:208-211). -/
def predict (p : Params) (mk : Nat → Nat → Nat → Head α) (s : Semantic α) (feat : Int → Vec α)
    (sample : Int → Nat → Nat → List Int → List Int → Nat → Option (List (List Int))) (inputs : List Int) : Option (List Int × Mat α) :=
  p.metapathNum.bind fun m => (initHeaders mk m p.headNum p.hiddenDim).bind fun headers =>
    (query p feat sample inputs).bind fun b => (encode p m headers s b.node b.neigh).map fun e => (b.nodes, e)

/-- What `HAN.call` returns (han.py:141-156): three values in training, the embeddings alone otherwise. -/
inductive Output (α : Type) where
  | training : Mat α → α → α → Output α
  | embedding : Mat α → Output α

/-- `HAN.call` on the embeddings of a batch (han.py:141-156); `decoder` gives loss and F1 score. -/
def call (decoder : Mat α → α × α) (training : Bool) (e : Mat α) : Output α :=
  if training then .training e (decoder e).1 (decoder e).2 else .embedding e

/-- `_, loss, metrics = ...` and `result.update(metrics)` (han.py:193, 203-205): metrics is a dictionary in training only. -/
def unpack : Output α → Option (α × α)
  | .training _ loss f1 => some (loss, f1)
  | .embedding _ => none

/-- `train_step` without the update of the variables (han.py:190-199). -/
def trainStep (decoder : Mat α → α × α) (e : Mat α) : Option (α × α) := unpack (call decoder true e)

/-- `test_step` (han.py:201-206). -/
def testStep (decoder : Mat α → α × α) (e : Mat α) : Option (α × α) := unpack (call decoder false e)

end

end DeepGNN.Han
