import Verif.Model.RawGraph

/-
The citation datasets (src/python/deepgnn/graph_engine/data/citation.py): how the published files of Cora and Citeseer become features,
labels, training/validation/test nodes and an edge list.  Simplifications: unpickled matrices are lists of rows, all of the same width;
feature values are rational numbers; `str` of a float is a parameter; `np.random.permutation` is any function on lists; indices are not
negative; an assignment to rows needs as many rows as indices (numpy also repeats a single row).  Not modelled: unzipping.
-/

namespace DeepGNN.Citation

open EdgeList (Str)
open RawGraph (Block showInt)

/-- One step of `np.sort`. -/
def insertSorted (a : Nat) : List Nat → List Nat
  | [] => [a]
  | b :: l => if a ≤ b then a :: b :: l else b :: insertSorted a l

/-- `np.sort(test_idx_reorder)` (citation.py:83). -/
def sort : List Nat → List Nat
  | [] => []
  | a :: l => insertSorted a (sort l)

/-- `rows[idx] = vals` (citation.py:32, 90, 93, 97, 101): an index out of bounds raises an exception, the last value of an index wins. -/
def assign {α : Type} (rows : List α) (idx : List Nat) (vals : List α) : Option (List α) :=
  if idx.length = vals.length ∧ idx.all (fun i => decide (i < rows.length)) then
    some ((idx.zip vals).foldl (fun r x => r.set x.1 x.2) rows)
  else none

/-- `tx_extended` and `ty_extended` (citation.py:85-94): rows of zeros for the indices that are missing. -/
def extend {α : Type} (zero : α) (sorted : List Nat) (tx : List α) : Option (List α) :=
  match sorted.head?, sorted.getLast? with
  | some lo, some hi => assign (List.replicate (hi + 1 - lo) zero) (sorted.map fun i => i - lo) tx
  | _, _ => none

/-- `features` and `labels` (citation.py:81-101); `isolated` is `dataset_str == "citeseer"`. -/
def reorder {α : Type} (isolated : Bool) (zero : α) (allx tx : List α) (test : List Nat) : Option (List α) :=
  let sorted := sort test
  (if isolated then extend zero sorted tx else some tx).bind fun tx =>
  (sorted.mapM fun i => (allx ++ tx)[i]?).bind fun vals =>
  assign (allx ++ tx) test vals

/-- `sample_mask` (citation.py:29-33). -/
def sampleMask (idx : List Nat) (size : Nat) : Option (List Bool) := assign (List.replicate size false) idx (idx.map fun _ => true)

/-- `train_mask, val_mask, test_mask`. -/
structure Masks where
  train : List Bool
  val : List Bool
  test : List Bool
deriving DecidableEq

/-- The public split (citation.py:103-109); `labelled` is `len(y)`. -/
def publicMasks (labelled : Nat) (test : List Nat) (size : Nat) : Option Masks :=
  (sampleMask (List.range labelled) size).bind fun train =>
  (sampleMask (List.range' labelled 500) size).bind fun val =>
  (sampleMask (sort test) size).map fun test => ⟨train, val, test⟩

/-- `mask.nonzero()[0]`. -/
def positions (mask : List Bool) : List Nat := (List.range mask.length).filter fun i => mask[i]? = some true

/-- `(labels == cl).nonzero()[0]` (citation.py:168). -/
def members (labels : List Nat) (cl : Nat) : List Nat := (List.range labels.length).filter fun i => labels[i]? = some cl

/-- `random_split` (citation.py:156-180): `perm cl` permutes the nodes of class `cl`, `perm num_classes` the remaining ones; the
parameter `num_train_per_class` is overwritten; concatenating nothing raises an exception. -/
def randomSplit (perm : Nat → List Nat → List Nat) (labels : List Nat) (classes _perClass numVal numTest : Nat) : Option Masks :=
  let perClass := 20
  if classes = 0 then none else
  let train := (List.range classes).flatMap fun cl => (perm cl (members labels cl)).take perClass
  (sampleMask train labels.length).bind fun trainMask =>
  let remaining := perm classes (positions (trainMask.map (! ·)))
  (sampleMask (remaining.take numVal) labels.length).bind fun valMask =>
  (sampleMask ((remaining.drop numVal).take numTest) labels.length).map fun testMask => ⟨trainMask, valMask, testMask⟩

/-- A row of `preprocess_features` (citation.py:131-138). -/
def normalize (row : List Rat) : List Rat :=
  let rowsum := row.sum
  let inv := if rowsum = 0 then 0 else rowsum⁻¹
  row.map fun x => inv * x

/-- `np.argmax` of a row (citation.py:218): the first position of the largest value. -/
def argmax (row : List Int) : Option Nat := row.findIdx? fun x => row.all fun y => decide (y ≤ x)

/-- `get_node_types` (citation.py:260-274) with the numbers of `NODE_TYPE_ID` (citation.py:298); the masks have the same length. -/
def splitTypes (m : Masks) : List Nat :=
  (List.range m.train.length).map fun i =>
    if m.train[i]? = some true then 0 else if m.val[i]? = some true then 1 else if m.test[i]? = some true then 2 else 3

/-- `graph`, a dictionary of lists, in the order of its keys. -/
abbrev Dict := List (Nat × List Nat)

/-- The nodes of `nx.from_dict_of_lists(graph)` in the order of the adjacency matrix (citation.py:98): keys first, then neighbours that
are no keys. -/
def order (graph : Dict) : List Nat := (graph.map (·.1) ++ graph.flatMap (·.2)).eraseDups

/-- The edges of that (undirected) graph. -/
def linked (graph : Dict) (a b : Nat) : Bool := graph.any fun e => (e.1 = a && e.2.contains b) || (e.1 = b && e.2.contains a)

/-- `adj.getrow(nid).nonzero()[1]` (citation.py:294). -/
def adjRow (graph : Dict) (i : Nat) : List Nat :=
  (List.range (order graph).length).filter fun j =>
    match (order graph)[i]?, (order graph)[j]? with
    | some a, some b => linked graph a b
    | _, _ => false

/-- The blocks of `_write_edge_list_graph` and `to_edge_list_node` (citation.py:276-316; the format is that of `blockLines`). -/
def writeGraph (str : Rat → Str) (graph : Dict) (features : List (List Rat)) (labels types : List Nat) : Option (List Block) :=
  let n := (order graph).length
  if n = features.length ∧ n = labels.length ∧ features.all (fun f => !f.isEmpty) then
    (List.range n).mapM fun i =>
      match features[i]?, labels[i]?, types[i]? with
      | some f, some l, some t =>
        some ⟨(i : Nat), (t : Nat), f.map str, [showInt (l : Nat)], (adjRow graph i).map fun j => ((j : Nat) : Int), []⟩
      | _, _, _ => none
  else none

/-- The unpickled files (citation.py:70-82): `labelled` is `len(y)`, `dim` and `classes` are the widths of `x` and `y`. -/
structure Raw where
  labelled : Nat
  dim : Nat
  classes : Nat
  tx : List (List Rat)
  ty : List (List Int)
  allx : List (List Rat)
  ally : List (List Int)
  graph : Dict
  test : List Nat

/-- The edge list and the files `train.nodes`, `test.nodes` and `test.nodes.hetgnn`. -/
structure Files where
  blocks : List Block
  train : List Nat
  test : List Nat
  hetgnn : List (Nat × Nat)
deriving DecidableEq

/-- The masks that are used (citation.py:219, 235-239): `split` is `none` for the public split and has the permutations of a random one. -/
def chosen (split : Option (Nat → List Nat → List Nat)) (labels : List Nat) (pub : Masks) : Option Masks :=
  match split with
  | none => some pub
  | some perm => randomSplit perm labels (labels.foldl max 0 + 1) 20 (pub.val.count true) (pub.test.count true)

/-- `_load_raw_graph` (citation.py:213-222), the disabled rest of `_build_graph` (citation.py:231-256) and `_write_node_files`
(citation.py:318-327). -/
def build (str : Rat → Str) (isolated : Bool) (split : Option (Nat → List Nat → List Nat)) (raw : Raw) : Option Files :=
  (reorder isolated (List.replicate raw.dim 0) raw.allx raw.tx raw.test).bind fun features =>
  (reorder isolated (List.replicate raw.classes 0) raw.ally raw.ty raw.test).bind fun onehot =>
  (publicMasks raw.labelled raw.test onehot.length).bind fun pub =>
  (onehot.mapM argmax).bind fun labels =>
  (chosen split labels pub).bind fun masks =>
  let types := splitTypes masks
  (writeGraph str raw.graph (features.map normalize) labels types).map fun blocks =>
    { blocks := blocks
      train := (List.range types.length).filter fun i => types[i]? = some 0
      test := (List.range types.length).filter fun i => types[i]? = some 2
      hetgnn := ((List.range types.length).filter fun i => types[i]? = some 2).map fun i => (i, 2) }

/-- `CitationGraph.__init__` and `_build_graph` as they run (citation.py:186-207, 224-229, 258): the packaged files are unpacked; the code
that would use `split` is in a string. -/
def install {α : Type} (packaged : α) (split : String) : Option α :=
  if split = "public" ∨ split = "random" then some packaged else none

end DeepGNN.Citation
