import Verif.Model.BertLoad

/-!
# Which variable of a checkpoint belongs where
-/

namespace DeepGNN.Spec

open DeepGNN.BertLoad (Name Path Seg Model)

/-- The sixteen variables of one layer of a Hugging Face BERT checkpoint. -/
inductive LayerVar where
  | queryWeight | queryBias | keyWeight | keyBias | valueWeight | valueBias
  | attnOutWeight | attnOutBias | attnNormWeight | attnNormBias
  | interWeight | interBias | outWeight | outBias | normWeight | normBias
  deriving DecidableEq, Repr

/-- What follows the number of the layer in the name. -/
def LayerVar.suffix : LayerVar → Name
  | .queryWeight => ".attention.self.query.weight".toList
  | .queryBias => ".attention.self.query.bias".toList
  | .keyWeight => ".attention.self.key.weight".toList
  | .keyBias => ".attention.self.key.bias".toList
  | .valueWeight => ".attention.self.value.weight".toList
  | .valueBias => ".attention.self.value.bias".toList
  | .attnOutWeight => ".attention.output.dense.weight".toList
  | .attnOutBias => ".attention.output.dense.bias".toList
  | .attnNormWeight => ".attention.output.LayerNorm.weight".toList
  | .attnNormBias => ".attention.output.LayerNorm.bias".toList
  | .interWeight => ".intermediate.dense.weight".toList
  | .interBias => ".intermediate.dense.bias".toList
  | .outWeight => ".output.dense.weight".toList
  | .outBias => ".output.dense.bias".toList
  | .normWeight => ".output.LayerNorm.weight".toList
  | .normBias => ".output.LayerNorm.bias".toList

/-- The name of a variable of layer `i`. -/
def layerName (i : Nat) (v : LayerVar) : Name :=
  "bert.encoder.layer.".toList ++ Nat.toDigits 10 i ++ v.suffix

/-- The parameter `a` of layer `i` of the model. -/
def layerParam (i : Nat) (a : String) : Path :=
  [.attr "bert".toList, .attr "encoder".toList, .attr "layer".toList, .item i, .attr a.toList]

/-- The parameter a variable is stored in as it is; `none` for the pieces of the attention weights. -/
def LayerVar.own : LayerVar → Option String
  | .attnOutWeight => some "attn_ow"
  | .attnOutBias => some "attn_ob"
  | .attnNormWeight => some "attn_nw"
  | .attnNormBias => some "attn_nb"
  | .interWeight => some "inter_w"
  | .interBias => some "inter_b"
  | .outWeight => some "output_w"
  | .outBias => some "output_b"
  | .normWeight => some "norm_w"
  | .normBias => some "norm_b"
  | _ => none

/-- A model with DeepSpeed's transformer layers. -/
structure KernelModel (m : Model) : Prop where
  bert : m.attrs [.attr "bert".toList] = true
  encoder : m.attrs [.attr "bert".toList, .attr "encoder".toList] = true
  layer : m.attrs [.attr "bert".toList, .attr "encoder".toList, .attr "layer".toList] = true
  weight : ∀ i, i < m.layers → m.attrs (layerParam i "attn_qkvw") = true
  bias : ∀ i, i < m.layers → m.attrs (layerParam i "attn_qkvb") = true
  own : ∀ i v a, i < m.layers → LayerVar.own v = some a → m.attrs (layerParam i a) = true

/-- The variables of layer `i` in a checkpoint: each of the sixteen once, in some order, with arrays
that fit the model. -/
structure LayerVars {α : Type} (m : Model) (i : Nat) (E : List (LayerVar × List α)) : Prop where
  once : (E.map (·.1)).Nodup
  all : ∀ v : LayerVar, ∃ x, (v, x) ∈ E
  own : ∀ v x a, (v, x) ∈ E → v.own = some a → m.size (layerParam i a) = some x.length
  weight : ∀ q k v, (.queryWeight, q) ∈ E → (.keyWeight, k) ∈ E → (.valueWeight, v) ∈ E →
    m.size (layerParam i "attn_qkvw") = some (q ++ k ++ v).length
  bias : ∀ q k v, (.queryBias, q) ∈ E → (.keyBias, k) ∈ E → (.valueBias, v) ∈ E →
    m.size (layerParam i "attn_qkvb") = some (q ++ k ++ v).length

/-- Layer `i` holds its variables: the pieces of the attention weights one after the other, everything
else as it is. -/
structure LayerLoaded {α : Type} (value : Path → Option (List α)) (i : Nat)
    (E : List (LayerVar × List α)) : Prop where
  own : ∀ v x a, (v, x) ∈ E → v.own = some a → value (layerParam i a) = some x
  weight : ∀ q k v, (.queryWeight, q) ∈ E → (.keyWeight, k) ∈ E → (.valueWeight, v) ∈ E →
    value (layerParam i "attn_qkvw") = some (q ++ k ++ v)
  bias : ∀ q k v, (.queryBias, q) ∈ E → (.keyBias, k) ∈ E → (.valueBias, v) ∈ E →
    value (layerParam i "attn_qkvb") = some (q ++ k ++ v)

/-- The variables of one layer as they stand in the checkpoint. -/
def layerEntries {α : Type} (i : Nat) (E : List (LayerVar × List α)) : List (Name × List α) :=
  E.map fun e => (layerName i e.1, e.2)

/-- The name with these parts. -/
def dotted : List Name → Name
  | [] => []
  | [w] => w
  | w :: ws => w ++ '.' :: dotted ws

/-- What is stored for an array: the word embeddings get `diff` more rows of zeros. -/
def padded {α : Type} (zero : α) (diff : Nat) (name : Name) (x : List α) : List α :=
  if "embeddings.word_embeddings".toList <:+: name then x ++ List.replicate diff zero else x

/-- A variable outside the layers that the model has a place for (and that is not called `dense`,
see `C111_pooler_refuted`). -/
structure PlainVar {α : Type} (m : Model) (zero : α) (diff : Nat) (parts : List Name) (x : List α) :
    Prop where
  some : parts ≠ []
  dotFree : ∀ w ∈ parts, '.' ∉ w
  noLayer : "layer".toList ∉ parts
  noDense : "dense".toList ∉ parts
  there : ∀ k, 0 < k → k ≤ parts.length → m.attrs ((parts.take k).map .attr) = true
  fits : m.size (parts.map .attr) = Option.some (padded zero diff (dotted parts) x).length

/-- A part of a checkpoint: the variables of a layer, or one variable outside the layers. -/
inductive Item (α : Type) where
  | layer (i : Nat) (E : List (LayerVar × List α))
  | plain (parts : List Name) (x : List α)

/-- The variables of an item, with their names. -/
def Item.entries {α : Type} : Item α → List (Name × List α)
  | .layer i E => layerEntries i E
  | .plain parts x => [(dotted parts, x)]

/-- The item fits the model. -/
def Item.Fits {α : Type} (m : Model) (zero : α) (diff : Nat) : Item α → Prop
  | .layer i E => i < m.layers ∧ LayerVars m i E
  | .plain parts x => PlainVar m zero diff parts x

/-- The item has been loaded. -/
def Item.Loaded {α : Type} (value : Path → Option (List α)) (zero : α) (diff : Nat) : Item α → Prop
  | .layer i E => LayerLoaded value i E
  | .plain parts x => value (parts.map .attr) = some (padded zero diff (dotted parts) x)

/-- Different layers, or different variables. -/
def Item.Differ {α : Type} : Item α → Item α → Prop
  | .layer i _, .layer j _ => i ≠ j
  | .plain a _, .plain b _ => a ≠ b
  | _, _ => True

end DeepGNN.Spec
