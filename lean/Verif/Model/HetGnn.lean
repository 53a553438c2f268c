/-
The HetGNN example (examples/pytorch/hetgnn: graph.py, sampler.py, model.py).  Random choices are parameters; vectors,
recurrent networks and the attention are abstract.
-/
import Verif.Model.PyClient

namespace DeepGNN.HetGnn

/-- `_node_base_index` (graph.py:11). -/
def base : Nat := 1000000

/-! `MockGraph` -/

/-- `_map_node_id` (graph.py:82-88): a node is given by its type (0 author, 1 paper, 2 venue) and its number. -/
def mapNodeId (x : Nat × Nat) : Int := x.2 + base * (x.1 + 1)

/-- `nbs` and `nb_start_end` of one type (graph.py:54-65): all neighbours one after the other, an interval per node.
Simplification: there is an adjacency list for every node, so no interval is left uninitialised. -/
def intervals : (start : Nat) → List (List (Nat × Nat)) → List (Nat × Nat)
  | _, [] => []
  | start, nb :: adj => (start, start + nb.length) :: intervals (start + nb.length) adj

structure MockGraph where
  nbs : List (List Int)
  ends : List (List (Nat × Nat))

/-- `MockGraph.__init__` (graph.py:46-65) for the adjacency lists of all types, without features. -/
def MockGraph.init (adj : List (List (List (Nat × Nat)))) : MockGraph :=
  ⟨adj.map fun a => (a.flatten).map mapNodeId, adj.map (intervals 0)⟩

/-- An index of Python: negative ones count from the end. -/
def pyGet {α : Type} (l : List α) (i : Int) : Option α :=
  if 0 ≤ i then l[i.toNat]? else if 0 ≤ i + l.length then l[(i + l.length).toNat]? else none

/-- One row of `MockGraph.sample_neighbors` (graph.py:104-133): sampled nodes and their types; `choice` gives the position
chosen for each of the `count` samples.  `none`: IndexError.  Types are not looked at; weights are left out. -/
def MockGraph.sample1 (g : MockGraph) (count : Nat) (choice : Nat → Nat) (node : Int) : Option (List (Int × Int)) :=
  if node = -1 then some (List.replicate count (-1, -1))
  else
    let t := node / base - 1
    (pyGet g.ends t).bind fun ends => (pyGet ends (node % base)).bind fun i =>
      if i.1 = i.2 then some (List.replicate count (-1, -1))
      else (pyGet g.nbs t).bind fun nbs => (List.range count).mapM fun k =>
        (((nbs.drop i.1).take (i.2 - i.1))[choice k % (i.2 - i.1)]?).map fun x => (x, if x ≠ -1 then x / base - 1 else -1)

/-! `HetGnnDataSampler` -/

/-- The columns of the walks (sampler.py:72-83): `step hop nodes` is the answer of `sample_neighbors` for one neighbour of
each node, node and type. -/
def columns (step : Nat → List Int → List (Int × Int)) : (hops : Nat) → (hop : Nat) → List (Int × Int) → List (List (Int × Int))
  | 0, _, col => [col]
  | n + 1, hop, col => col :: columns step n (hop + 1) (step hop (col.map (·.1)))

/-- `np.reshape(l, (walk_length + 1, -1)).T` (sampler.py:85-88) for columns of equal length `n`. -/
def transpose (n : Nat) (cols : List (List (Int × Int))) : List (List (Int × Int)) :=
  (List.range n).map fun k => cols.filterMap fun c => c[k]?

/-- The triples of one walk (sampler.py:91-103), without negatives: index of the list, central node, other node. -/
def walkPairs (T : Nat) : List (Int × Int) → List (Int × Int × Int)
  | [] => []
  | c :: ws => (ws.filter fun w => w.2 ≠ -1).map fun w => (c.2 * T + w.2, c.1, w.1)

/-- `triple_list[index].append(…)`; `none`: IndexError. -/
def append (lists : List (List (Int × Int))) (x : Int × Int × Int) : Option (List (List (Int × Int))) :=
  let i := if 0 ≤ x.1 then x.1 else x.1 + lists.length
  if 0 ≤ i ∧ i < lists.length then some (lists.modify i.toNat (· ++ [x.2])) else none

/-- Start nodes and answers of the graph for one call of `_generate_random_walk`. -/
structure Answers where
  /-- start nodes of a type -/
  starts : Nat → List Int
  /-- neighbours sampled for the walks from nodes of a type, at a hop -/
  step : Nat → Nat → List Int → List (Int × Int)
  /-- negatives: list number, number of nodes, type -/
  negatives : Nat → Nat → Nat → List Int

/-- The walks that start at nodes of type `i` (sampler.py:60-88). -/
def walks (a : Answers) (L i : Nat) : List (List (Int × Int)) :=
  transpose (a.starts i).length (columns (a.step i) L 0 ((a.starts i).map fun n => (n, (i : Int))))

/-- The first loop of `_generate_random_walk` (sampler.py:56-103). -/
def pairs (a : Answers) (T L : Nat) : Option (List (List (Int × Int))) :=
  (List.range T).foldlM (fun lists i => ((walks a L i).flatMap (walkPairs T)).foldlM append lists) (List.replicate (T * T) [])

/-- `_generate_random_walk` (sampler.py:53-115). -/
def generate (a : Answers) (T L : Nat) : Option (List (List (Int × Int × Int))) :=
  (pairs a T L).map fun lists => lists.zipIdx.map fun x =>
    if x.1.length > 0 then x.1.zip (a.negatives x.2 x.1.length (x.2 % T)) |>.map fun y => (y.1.1, y.1.2, y.2) else []

/-- `sample_neighbors` of one neighbour of any of the `T` types (sampler.py:74-78) with a graph of DeepGNN: local.py:98-188
with the default strategy, by weight.  An exception is an empty answer. -/
def engineStep (g : Graph) (watermark : Int) (T : Nat) (D : Nat → Nat → WDraws) (R : Draws) (hop : Nat) (nodes : List Int) :
    List (Int × Int) :=
  match PyClient.sampleNeighbors g watermark (D hop) R ⟨[nodes.length], nodes⟩ (.array ((List.range T).map Int.ofNat)) 1
      .byweight ⟨-1, -1, 0⟩ none with
  | .ok r => (r.ids.data.zip r.types.data).map fun x => (x.1.getD 0, x.2.getD 0)
  | _ => []

/-- The number of batches of an epoch (sampler.py:121-133). -/
def epochBatches (nodes batch : Nat) : Nat → Nat
  | 0 => 0
  | fuel + 1 => if nodes = 0 then 0 else epochBatches (nodes - batch) batch fuel + 1

/-! `MockHetGnnFileNodeLoader` -/

/-- A line of the file (graph.py:188-190): number and type. -/
def fileNode (line : Nat × Int) : Int × Int := ((line.1 : Int) + base, line.2)

/-- One batch (graph.py:199-213): inputs and node type.  `rest`: the nodes from `start_pos` on; `last`: `end_pos` is -1.
`none`: IndexError. -/
def fileBatch (b : Nat) (rest : List (Int × Int)) : Option (List Int × Int) :=
  let s := if b ≥ rest.length then rest.dropLast else rest.take b
  s.head?.map fun x => (s.map (·.1), x.2)

/-- The iterator (graph.py:199-217). -/
def fileLoader (b : Nat) : (fuel : Nat) → List (Int × Int) → Option (List (List Int × Int))
  | 0, _ => some []
  | fuel + 1, rest =>
    if rest = [] then some []
    else (fileBatch b rest).bind fun x => (fileLoader b fuel (rest.drop b)).map (x :: ·)

/-! `HetGnnModel` -/

/-- The layers: content of a node of a type (LSTM over one element and mean), neighbours of a type (LSTM over their contents
and mean), and the attention of a node type over the content and the aggregated neighbours of all types. -/
structure Net (V : Type) where
  content : Nat → V → V
  neigh : Nat → List V → V
  att : Nat → V → List V → V
  zero : V

/-- `content_agg` (model.py:165-178).  `collated`: the batch has an outer dimension of size 1, added by the data loader.
Without it `squeeze(0)` removes the dimension of the nodes if there is one node, and `view` fails (`none`). -/
def contentAgg {V : Type} (net : Net V) (collated : Bool) (t : Nat) (feats : List V) : Option (List V) :=
  if !collated && feats.length = 1 then none else some (feats.map (net.content t))

/-- `view(batch_s, neighbor_count, embed_d)`: rows of `count`. -/
def rowsOf {V : Type} (count : Nat) : (n : Nat) → List V → List (List V)
  | 0, _ => []
  | n + 1, l => l.take count :: rowsOf count n (l.drop count)

/-- `node_neigh_agg` (model.py:144-163). -/
def neighAgg {V : Type} (net : Net V) (collated : Bool) (count t : Nat) (feats : List V) : Option (List V) :=
  (contentAgg net collated t feats).bind fun c =>
    if c.length = c.length / count * count then some ((rowsOf count (c.length / count) c).map (net.neigh t)) else none

/-- What `build_node_context` (model.py:259-286) fetches: features of the nodes, for each type features of their neighbours. -/
structure Context (V : Type) where
  node : List V
  neigh : List (List V)

/-- `build_node_context` (model.py:259-286): `nbrs i` is the answer of `sample_neighbors` for edge type `i`, a row per node. -/
def buildContext {V : Type} (features : Int → V) (T : Nat) (nbrs : Nat → List Int → List (List Int)) (ids : List Int) : Context V :=
  ⟨ids.map features, (List.range T).map fun i => (nbrs i ids).flatten.map features⟩

/-- `node_het_agg` (model.py:97-142) for nodes of type `t`. -/
def hetAgg {V : Type} (net : Net V) (collated : Bool) (T count t : Nat) (ctx : Context V) : Option (List V) :=
  ((List.range T).mapM fun i => neighAgg net collated count i (ctx.neigh.getD i [])).bind fun aggs =>
    (contentAgg net collated t ctx.node).bind fun cs =>
      if aggs.all (fun a => decide (a.length = cs.length)) then
        some (cs.zipIdx.map fun x => net.att t x.1 (aggs.filterMap fun a => a[x.2]?))
      else none

/-- The triples of one list as `build_triple_context` splits them (model.py:288-301), embedded by `het_agg` (model.py:80-95). -/
def tripleEmbeddings {V : Type} (net : Net V) (features : Int → V) (T count : Nat)
    (nbrs : Nat → Nat → List Int → List (List Int)) (f : Nat) (triples : List (Int × Int × Int)) :
    Option (List V × List V × List V) :=
  (hetAgg net false T count (f / T) (buildContext features T (nbrs 0) (triples.map (·.1)))).bind fun c =>
    (hetAgg net false T count (f % T) (buildContext features T (nbrs 1) (triples.map (·.2.1)))).bind fun p =>
      (hetAgg net false T count (f % T) (buildContext features T (nbrs 2) (triples.map (·.2.2)))).map fun n => (c, p, n)

/-- `forward` (model.py:225-249) and the mean of `cross_entropy_loss` (model.py:185-212): every list is filled with zero
vectors up to the longest; `loss c p n` is the loss of a triple. -/
def forward {V : Type} (net : Net V) (loss : V → V → V → Rat) (lists : List (List (V × V × V))) : Rat :=
  let size := (lists.map (·.length)).foldl max 0
  let rows := lists.flatMap fun l => l ++ List.replicate (size - l.length) (net.zero, net.zero, net.zero)
  (rows.map fun x => loss x.1 x.2.1 x.2.2).sum / (rows.length : Rat)

end DeepGNN.HetGnn
