import Verif.Model.EdgeList

/-
The bundled datasets: how raw files of papers and citations become an edge list (src/python/deepgnn/graph_engine/data/data_util.py,
cora.py, citeseer.py) and how protein graphs (ppi.py) and posts of Reddit (reddit.py) do.  Lines of the raw files are given as their columns (`line.strip().split()`).
Simplifications: `float(x)` followed by `str` is a parameter on texts; `int(len(nodeids) * train_node_ratio)` is a parameter;
`random.shuffle` is any function on lists.  Reddit (reddit.py) reuses the code for proteins.  Not modelled: downloading and unpacking.
-/

namespace DeepGNN.RawGraph

open EdgeList (Str)

/-- `str` of an integer in an f-string. -/
def showInt (n : Int) : Str := if n < 0 then '-' :: Nat.toDigits 10 n.natAbs else Nat.toDigits 10 n.toNat

/-- `','.join(texts)` (data_util.py:48). -/
def commaJoin : List Str → Str
  | [] => []
  | [t] => t
  | t :: ts => t ++ ',' :: commaJoin ts

/-- `sorted(ids)` (data_util.py:49-51, 76; ppi.py:184-186). -/
def sortIds : List Int → List Int
  | [] => []
  | a :: l => (sortIds l).takeWhile (· < a) ++ a :: (sortIds l).dropWhile (· < a)

/-- What is written for a node: two features and the neighbours over edges of type 0 and 1. -/
structure Block where
  id : Int
  typ : Int
  first : List Str
  second : List Str
  train : List Int
  other : List Int
deriving DecidableEq

/-- `get_edge_list_node` (data_util.py:31-53; the second feature is the label) and `_to_edge_list_node` (ppi.py:173-187; the first one
is the label), without line ends. -/
def blockLines (b : Block) : List Str :=
  (showInt b.id ++ ",-1,".toList ++ showInt b.typ ++ ",1.0,float32,".toList ++ showInt b.first.length ++ ',' :: commaJoin b.first ++
    ",float32,".toList ++ showInt b.second.length ++ ',' :: commaJoin b.second) ::
  ((sortIds b.train).map (fun n => showInt b.id ++ ",0,".toList ++ showInt n ++ ",1.0".toList) ++
   (sortIds b.other).map (fun n => showInt b.id ++ ",1,".toList ++ showInt n ++ ",1.0".toList))

/-- `paper_nodeid`, `labelid` (in order of insertion, so ids are positions) and `nodes` (cora.py:64-66). -/
structure Loaded where
  papers : List Str
  labels : List Str
  nodes : List (List Str × Nat)

/-- Body of the loop over the papers (cora.py:70-81, citeseer.py:73-84). -/
def addNode (num : Str → Option Str) (dim : Nat) (s : Loaded) (col : List Str) : Option Loaded :=
  if col.length ≠ 1 + dim + 1 then none else
  match col.head?, col.getLast? with
  | some paper, some lb =>
    if paper ∈ s.papers then none else
    (((col.drop 1).take dim).mapM num).map fun feat =>
      let labels := if lb ∈ s.labels then s.labels else s.labels ++ [lb]
      ⟨s.papers ++ [paper], labels, s.nodes ++ [(feat, labels.idxOf lb)]⟩
  | _, _ => none

/-- `select_training_test_nodes` (data_util.py:65-79) for nodes `1, …, n`: whether each of them is a training node; `k` is
`int(n * train_node_ratio)`. -/
def selectNodes (n : Nat) (k : Int) (shuffle : List Bool → List Bool) : Option (List Bool) :=
  let types := shuffle (List.replicate k.toNat true ++ List.replicate ((n : Int) - k).toNat false)
  if n = types.length then some types else none

/-- `node_types[id] == "train"`. -/
def isTrain (types : List Bool) (id : Int) : Bool := types.getD (id - 1).toNat false

/-- A `defaultdict(set)`. -/
abbrev Adj := Int → List Int

/-- `adj[x].add(y)`. -/
def putAdj (s : Adj) (x y : Int) : Adj := fun z => if z = x then (s x).insert y else s z

/-- `paper_nodeid[paper]`. -/
def paperId (papers : List Str) (paper : Str) : Int := papers.idxOf paper + 1

/-- Body of the loop over the citations (cora.py:91-100, `strict`; citeseer.py:94-107, which skips unknown papers). -/
def addLink (strict : Bool) (papers : List Str) (types : List Bool) (adj : Adj × Adj) (info : List Str) : Option (Adj × Adj) :=
  match info with
  | [] => none
  | [a] => if strict ∨ a ∈ papers then none else some adj
  | a :: b :: _ =>
    if a ∈ papers ∧ b ∈ papers then
      let x := paperId papers a
      let y := paperId papers b
      if isTrain types x ∧ isTrain types y then some (putAdj (putAdj adj.1 x y) y x, adj.2)
      else some (adj.1, putAdj (putAdj adj.2 x y) y x)
    else if strict then none else some adj

/-- The files that are written: the edge list, in blocks, the training nodes and the test nodes. -/
structure Files where
  blocks : List Block
  train : List Int
  test : List Int
deriving DecidableEq

/-- `_load_raw_graph` (cora.py:58-102, citeseer.py:56-109) and the rest of `_build_graph_impl` (data_util.py:137-159):
`get_edge_list_node` fails without features (data_util.py:44), the final statistics without training nodes (data_util.py:172-175). -/
def build (num : Str → Option Str) (dim : Nat) (strict : Bool) (k : Int) (shuffle : List Bool → List Bool) (content cites : List (List Str)) :
    Option Files :=
  (content.foldlM (addNode num dim) ⟨[], [], []⟩).bind fun s =>
  (selectNodes s.nodes.length k shuffle).bind fun types =>
  (cites.foldlM (addLink strict s.papers types) (fun _ => [], fun _ => [])).bind fun adj =>
  let ids : List Int := (List.range s.nodes.length).map fun i : Nat => (i : Int) + 1
  let train := ids.filter fun n => isTrain types n
  if s.nodes.any (·.1.isEmpty) ∨ train = [] then none
  else some
    { blocks := (ids.zip s.nodes).map fun x =>
        ⟨x.1, if isTrain types x.1 then 0 else 1, x.2.1, [showInt x.2.2], adj.1 x.1, adj.2 x.1⟩
      train := train
      test := ids.filter fun n => !isTrain types n }

/-- A node of the raw protein graph (ppi.py:69-80): its id, whether it is for tests or for validation. -/
structure RawNode where
  id : Int
  test : Bool
  val : Bool

/-- The type of a node (ppi.py:70-76). -/
def ppiType (n : RawNode) : Int := if n.test then 2 else if n.val then 1 else 0

/-- `l[x].append(y)` (ppi.py:92-98). -/
def appendAdj (s : Adj) (x y : Int) : Adj := fun z => if z = x then s x ++ [y] else s z

/-- Body of the loop over the edges (ppi.py:88-98); `mask` says which positions are training nodes, indexing outside of it fails (a
negative index is not modelled), as does a neighbour list of an id that is no node. -/
def addPpiLink (idMap : Int → Option Int) (ids : List Int) (mask : List Bool) (adj : Adj × Adj) (e : Int × Int) : Option (Adj × Adj) :=
  (idMap e.1).bind fun src => (idMap e.2).bind fun tgt =>
    if src < 0 ∨ tgt < 0 then none else
    (mask[src.toNat]?).bind fun a => (mask[tgt.toNat]?).bind fun b =>
      if src ∉ ids ∨ tgt ∉ ids then none else
      let app (s : Adj) : Adj := if tgt ≠ src then appendAdj (appendAdj s src tgt) tgt src else appendAdj s src tgt
      some (if a && b then (app adj.1, adj.2) else (adj.1, app adj.2))

/-- `train_mask[train_nodes] = True` (ppi.py:86-87). -/
def trainMask (ids train : List Int) : Option (List Bool) :=
  if train.all (fun x => decide (0 ≤ x ∧ x < (ids.length : Int))) then
    some ((List.range ids.length).map fun i : Nat => decide ((i : Int) ∈ train))
  else none

/-- The training, validation and test nodes and the blocks (ppi.py:60-171); `feat` and `label` are the rows of features and labels. -/
structure PpiFiles where
  blocks : List Block
  train : List Int
  val : List Int
  test : List Int

/-- `PPI._load_raw_graph`, `_build_graph` and `_write_node_files` (ppi.py:60-171); the scaler needs a training node (ppi.py:107-109). -/
def buildPpi (idMap : Int → Option Int) (feat label : Int → List Str) (nodes : List RawNode) (links : List (Int × Int)) : Option PpiFiles :=
  (nodes.mapM fun n => (idMap n.id).map fun i => (i, ppiType n)).bind fun typed =>
  let ids := typed.map (·.1)
  (trainMask ids ((typed.filter (·.2 = 0)).map (·.1))).bind fun mask =>
  (links.foldlM (addPpiLink idMap ids mask) (fun _ => [], fun _ => [])).bind fun adj =>
    if (typed.filter (·.2 = 0)).isEmpty then none else some
    { blocks := typed.map fun x => ⟨x.1, x.2, label x.1, feat x.1, adj.1 x.1, adj.2 x.1⟩
      train := (typed.filter (·.2 = 0)).map (·.1)
      val := (typed.filter (·.2 = 1)).map (·.1)
      test := (typed.filter (·.2 = 2)).map (·.1) }

/-- A node of `reddit-G.json` (reddit.py:81-92). -/
structure RedditNode where
  name : Str
  test : Bool
  val : Bool

/-- The type of a node (reddit.py:83-91). -/
def redditType (n : RedditNode) : Int := if n.test then 2 else if n.val then 1 else 0

/-- `_onehot` (reddit.py:17-21) as texts: a value that is too large is an error. -/
def onehot (value size : Nat) : Option (List Str) :=
  if value < size then some ((List.range size).map fun i => if i = value then "1".toList else "0".toList) else none

/-- `class_map` (reddit.py:115-117): by number, a later entry replaces an earlier one. -/
def redditLabels (idMap : List (Str × Int)) (classes : List (Str × Nat)) : Option (List (Int × List Str)) :=
  classes.mapM fun c => (idMap.lookup c.1).bind fun i => (onehot c.2 50).map fun l => (i, l)

/-- `Reddit._load_raw_graph` (reddit.py:72-126) and, from PPI, `_build_graph` and `_write_node_files` (ppi.py:112-171): `keep` is
`edge_downsample_mask`; sources and targets of links are taken as numbers of nodes (reddit.py:103-104), the first class is
looked up (ppi.py:127) and the scaler needs a training node. -/
def buildReddit (idMap : List (Str × Int)) (classes : List (Str × Nat)) (feat : Int → List Str) (nodes : List RedditNode)
    (links : List (Int × Int)) (keep : List Bool) : Option PpiFiles :=
  (nodes.mapM fun n => (idMap.lookup n.name).map fun i => (i, redditType n)).bind fun typed =>
  let keys := idMap.map (·.2)
  let train := (typed.filter (·.2 = 0)).map (·.1)
  (trainMask keys train).bind fun mask =>
  ((((links.zip keep).filter (·.2)).map (·.1)).foldlM (addPpiLink some keys mask) (fun _ => [], fun _ => [])).bind fun adj =>
  (redditLabels idMap classes).bind fun labels =>
  if (labels.reverse.lookup 0).isNone ∨ train.isEmpty then none else
  (typed.mapM fun x => (labels.reverse.lookup x.1).map fun l =>
    (⟨x.1, x.2, l, feat x.1, adj.1 x.1, adj.2 x.1⟩ : Block)).map fun blocks =>
    { blocks := blocks
      train := train
      val := (typed.filter (·.2 = 1)).map (·.1)
      test := (typed.filter (·.2 = 2)).map (·.1) }

/-- The lines of `graph.csv`: after the block of a node PPI writes an empty line (ppi.py:139-140), the others do not
(data_util.py:205-214). -/
def graphLines (blank : Bool) (blocks : List Block) : List Str :=
  blocks.flatMap fun b => blockLines b ++ if blank then [[]] else []

end DeepGNN.RawGraph
