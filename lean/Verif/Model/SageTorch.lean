import Verif.Model.Sage

/-
The GraphSAGE encoder for PyTorch (src/python/deepgnn/pytorch/encoding/gnn_encoder_sage.py) with the mean aggregator
(src/python/deepgnn/pytorch/common/aggregators.py).  An encoder of several layers is an encoder whose features and query function are
those of the encoder of the layer before; encoders are listed from the last layer to the first one.  The batch dimension added and
removed by the data loader is left out.
-/

namespace DeepGNN.Sage

open Arith

variable {α : Type} [Arith α]

/-- The parameters of `SageEncoder` (gnn_encoder_sage.py:17-71): the weights are given by output column. -/
structure Enc (α : Type) where
  num : Nat
  weight : Mat α
  act : α → α

/-- What a query returns: an array, or a dictionary with `node_feats`, `neighbor_feats` and `node_count`. -/
inductive Ctx (α : Type) where
  | feats : Mat α → Ctx α
  | dict : Ctx α → Ctx α → Nat → Ctx α

/-- `query` (gnn_encoder_sage.py:73-117), and `query_feature` (119-132) for the features of the graph.  `sample l` answers for the
encoder with `l` layers below it.  Indexing a dictionary with an array, or reshaping it, fails. -/
def query (feat : Int → Vec α) (dim : Nat) (sample : Nat → List Int → Nat → List (List Int)) :
    List (Enc α) → List Int → Option (List Int) → Option (Ctx α)
  | [], nodes, _ => some (.feats (nodes.map feat))
  | e :: es, nodes, neigh? => do
    let neigh := neigh?.getD (sample es.length nodes e.num).flatten
    let unique := sortUnique neigh
    let idx := neigh.map (unique.idxOf ·)
    let nodeFeats ← query feat dim sample es nodes (some neigh)
    match ← query feat dim sample es unique none with
    | .feats m => do
      let m' ← lookup m idx
      some (.dict nodeFeats (.feats m') nodes.length)
    | .dict (.feats own) (.feats below) _ => do
      let groups ← reshape e.num dim below
      let own' ← lookup own idx
      let groups' ← lookup groups idx
      some (.dict nodeFeats (.dict (.feats own') (.feats groups'.flatten) idx.length) nodes.length)
    | .dict _ _ _ => none

/-- `MeanAggregator.forward` (aggregators.py:25-35) after `self.features`. -/
def meanAggregator (rows : Mat α) (count : Nat) : Option (Mat α) :=
  if count = 0 then none
  else
    let nb := rows.length / count
    if count * nb ≠ rows.length then none
    else some ((List.range count).map fun i => meanRows (rows.headD []).length ((rows.drop (i * nb)).take nb))

/-- `forward` (gnn_encoder_sage.py:134-143). -/
def encode : List (Enc α) → Ctx α → Option (Mat α)
  | [], .feats m => some m
  | e :: es, .dict node neigh count => do
    let neighFeats ← meanAggregator (← encode es neigh) count
    let self ← encode es node
    if self.length ≠ neighFeats.length then none
    else
      let out ← (List.zipWith (· ++ ·) self neighFeats).mapM (dense e.weight)
      some (out.map (·.map e.act))
  | _, _ => none

end DeepGNN.Sage
