import Verif.Model.PyClient

/-
The PyTorch Geometric example (examples/pytorch/pyg_interface.py): the stores of features and edges it puts on top of a
client, and its training script.
-/

namespace DeepGNN.Pyg

open PyClient

/-- `np.loadtxt(path, dtype=np.int64)` (pyg_interface.py:62) of a file with one number per line: a single number gives an
array without dimensions. -/
def loadtxt (ids : List Int) : Arr Int :=
  match ids with
  | [n] => ⟨[], [n]⟩
  | ids => ⟨[ids.length], ids⟩

/-- `torch.Tensor(l).long()` of integers (pyg_interface.py:72-73): `torch.Tensor` has 32-bit floats. -/
def tensorLong (l : List Int) : List Int := l.map f32

/-- The loop over the counts (pyg_interface.py:69-70); `none` in an array is an element that was not written. -/
def sources : List Int → List (Option Nat) → Res (List Int)
  | _, [] => .ok []
  | n :: ids, some e :: es => (sources ids es).map fun l => List.replicate e n ++ l
  | [], _ :: _ => .raised
  | _ :: _, none :: _ => .corrupt

/-- `DeepGNNGraphStore._get_edge_index` (pyg_interface.py:64-75) for the edge type `t`. -/
def edgeIndex (g : Graph) (nodeIds : Arr Int) (t : Int) : Res (List Int × List Int) :=
  (neighbors g nodeIds (SamplerCache.checkTypes (.int t)) none).bind fun edge =>
    (sources nodeIds.data edge.counts.data).map fun srcs => (tensorLong srcs, tensorLong edge.ids.data)

/-- The requested feature and its number of elements (pyg_interface.py:33). -/
def feature (name : String) : Nat × Nat := if name = "x" then (0, 121) else (1, 1)

/-- `squeeze()`: dimensions of size 1 are removed (the last one, the bytes of an element, is not a dimension in torch). -/
def squeeze (shape : List Nat) : List Nat := shape.dropLast.filter (· ≠ 1) ++ shape.drop (shape.length - 1)

/-- `DeepGNNFeatureStore._get_tensor` (pyg_interface.py:31-36) for the nodes `index`. -/
def getTensor (g : Graph) (index : List Int) (name : String) : Res (Arr UInt8) :=
  (nodeFeatures g 4 ⟨[index.length], index⟩ [feature name] none).map fun a => ⟨squeeze a.shape, a.data⟩

/-- `size` of the edges in `get_all_edge_attrs` (pyg_interface.py:80-84): numbers of source and destination nodes. -/
def edgeSize (nodesPerType : List Nat) : Res (Nat × Nat) :=
  (typeCount nodesPerType [0]).bind fun a => (typeCount nodesPerType [0, 1, 2, 3]).map fun b => (a, b)

/-- `edge_label_index` (pyg_interface.py:145-149, 164-168): the first two columns of the sampled edges. -/
def labelIndex (edges : List (Int × Int × Int)) : List Int × List Int :=
  (tensorLong (edges.map (·.1)), tensorLong (edges.map (·.2.1)))

/-- `train` (pyg_interface.py:97-120) for the losses of the examples of each batch (`binary_cross_entropy_with_logits` is
their mean): the loss it returns; no examples: division by zero. -/
def trainLoss (batches : List (List Rat)) : Option Rat :=
  let total := batches.foldl (fun (s : Rat) b => s + b.sum / (b.length : Rat) * (b.length : Rat)) 0
  let examples := batches.foldl (fun (s : Nat) b => s + b.length) 0
  if examples = 0 then none else some (total / (examples : Rat))

/-- `test` (pyg_interface.py:123-133): `score` is the fraction of right predictions in a batch.  It reads the variable `loader`
and returns in the first iteration. -/
def test {β : Type} (score : β → Rat) (loader _testLoader : List β) : Option Rat := loader.head?.map score

end DeepGNN.Pyg
