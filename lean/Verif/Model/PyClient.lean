import Verif.Model.Features
import Verif.Model.Remote
import Verif.Model.Sampling
import Verif.Model.WeightedTime
import Verif.Model.RandomWalk
import Verif.Model.SamplerCache

/-
The Python client (src/python/deepgnn/graph_engine/snark/client.py `MemoryGraph`, `NodeSampler`, `EdgeSampler`; local.py
`Client`) and the C functions behind it (src/cc/lib/py_graph.cc) on a local graph: the arrays Python allocates, the pointers
and sizes it passes, what C++ reads and writes through them.  What the engine computes is in the other modules.  Float
parameters, sparse features and the creation times of returned edges (except that of `lastn_neighbors`) are left out.
-/

namespace DeepGNN.PyClient

/-- How a call ends: it returns, it raises an exception, or it has accessed memory outside of the arrays it was given. -/
inductive Res (α : Type)
  | ok (a : α)
  | raised
  | corrupt
deriving DecidableEq

def Res.bind {α β : Type} : Res α → (α → Res β) → Res β
  | .ok a, f => f a
  | .raised, _ => .raised
  | .corrupt, _ => .corrupt

def Res.map {α β : Type} (f : α → β) (r : Res α) : Res β := r.bind fun a => .ok (f a)

/-- A numpy array: its shape and its elements in row-major order. -/
structure Arr (β : Type) where
  shape : List Nat
  data : List β
deriving DecidableEq

/-- Number of elements of an array with this shape. -/
def vol (shape : List Nat) : Nat := shape.foldr (· * ·) 1

/-- `len(a)`: an array without dimensions raises TypeError. -/
def Arr.len {β : Type} (a : Arr β) : Res Nat :=
  match a.shape with
  | [] => .raised
  | n :: _ => .ok n

/-- `np.full`. -/
def full {β : Type} (shape : List Nat) (v : β) : Arr (Option β) := ⟨shape, List.replicate (vol shape) (some v)⟩

/-- `np.empty`: the elements are whatever was in memory. -/
def empty {β : Type} (shape : List Nat) : Arr (Option β) := ⟨shape, List.replicate (vol shape) none⟩

/-- `std::span(pointer, n)` over the elements of an array, all of which C++ reads. -/
def span {β : Type} (a : Arr β) (n : Nat) : Res (List β) := if n ≤ a.data.length then .ok (a.data.take n) else .corrupt

/-- C++ writes `out` to an array. -/
def put {β : Type} (a : Arr (Option β)) (out : List β) : Res (Arr (Option β)) :=
  if out.length ≤ a.data.length then .ok ⟨a.shape, out.map some ++ a.data.drop out.length⟩ else .corrupt

/-- A computation of the engine; `none` is an access out of range there. -/
def native {β : Type} : Option β → Res β
  | some b => .ok b
  | none => .corrupt

/-- Conversion to `c_int32` (ctypes does not check for overflow; the same for numpy's int32). -/
def toI32 (x : Int) : Int := (x + 2 ^ 31) % 2 ^ 32 - 2 ^ 31

/-- `_make_sorted_list` and the array made from it (client.py:197-200, 867-869 and the other calls). -/
def etypes (types : List Int) : List Int := (sortUnique types).map toI32

/-- The argument for timestamps (client.py:875-881 and the other calls): a null pointer if there are none, then C++ uses an
empty span, otherwise a span with one timestamp per node (py_graph.cc:686 and the other calls). -/
def tsSpan (ts : Option (Arr Int)) (n : Nat) : Res (Option (List Int)) :=
  match ts with
  | none => .ok none
  | some a => a.len.bind fun k => if k = 0 then .ok none else (span a n).map some

/-! `MemoryGraph` -/

/-- `node_types` (client.py:1318-1344, py_graph.cc:331-358). -/
def nodeTypes (g : Graph) (nodes : Arr Int) (default : Int) : Res (Arr (Option Int)) :=
  nodes.len.bind fun n => (span nodes n).bind fun ids =>
    (native (ids.mapM (g.nodeType1 default))).bind fun out => put (empty [n]) out

/-- `neighbor_counts` (client.py:844-883, py_graph.cc:672-707). -/
def neighborCounts (g : Graph) (nodes : Arr Int) (types : List Int) (ts : Option (Arr Int)) : Res (Arr (Option Nat)) :=
  nodes.len.bind fun n => (span nodes nodes.data.length).bind fun ids => (tsSpan ts nodes.data.length).bind fun t =>
    (native (g.getCounts ids t (etypes types))).bind fun out => put (empty [n]) out

/-- What `neighbors` returns: ids, weights and types of the neighbours, and their number per node. -/
structure Neighbors where
  ids : Arr Int
  weights : Arr Int
  types : Arr Int
  counts : Arr (Option Nat)
deriving DecidableEq

/-- `neighbors` without creation times (client.py:885-946, 107-123, py_graph.cc:709-728): the callback copies the vectors. -/
def neighbors (g : Graph) (nodes : Arr Int) (types : List Int) (ts : Option (Arr Int)) : Res Neighbors :=
  nodes.len.bind fun n => (span nodes nodes.data.length).bind fun ids => (tsSpan ts nodes.data.length).bind fun t =>
    (native (g.fullNeighbor ids t (etypes types))).bind fun r => (put (empty [n]) r.2).map fun counts =>
      ⟨⟨[r.1.length], r.1.map (·.dst)⟩, ⟨[r.1.length], r.1.map (·.weight)⟩, ⟨[r.1.length], r.1.map (·.typ)⟩, counts⟩

/-- Arrays of sampled neighbours; `times` is only there if it is returned. -/
structure Sample where
  ids : Arr (Option Int)
  weights : Arr (Option Int)
  types : Arr (Option Int)
  times : Option (Arr (Option Int)) := none
deriving DecidableEq

/-- The arrays of a weighted sample. -/
def putNbrs (n count : Nat) (default : Nbr) (out : List Nbr) : Res Sample :=
  (put (full [n, count] default.dst) (out.map (·.dst))).bind fun ids =>
    (put (full [n, count] default.typ) (out.map (·.typ))).bind fun types =>
      (put (full [n, count] default.weight) (out.map (·.weight))).map fun weights => { ids, weights, types }

/-- `weighted_sample_neighbors` without creation times (client.py:948-1025, py_graph.cc:730-778). -/
def weighted (g : Graph) (D : Nat → WDraws) (nodes : Arr Int) (types : List Int) (count : Nat) (default : Nbr)
    (ts : Option (Arr Int)) : Res Sample :=
  nodes.len.bind fun n => (span nodes nodes.data.length).bind fun ids => (tsSpan ts nodes.data.length).bind fun t =>
    (native (match t with
      | none => g.weightedSample D (etypes types) count default (ids.map fun i => (i, List.replicate count default)) 0
      | some t => g.weightedSampleAt D (etypes types) count default
          ((ids.zip t).map fun i => (i, List.replicate count default)) 0)).bind fun out =>
      putNbrs n count default out.1.flatten

/-- `uniform_sample_neighbors` (client.py:1027-1105, py_graph.cc:780-830), the creation times are not modelled, but the null
pointer for them is: with `created` and without timestamps (client.py:1091-1097) it is written through for nodes that are
not in the graph (graph.cc:502-509), for nodes without neighbours and by sampling without replacement (graph.cc:538-542). -/
def uniform (g : Graph) (R : Draws) (without created temporal : Bool) (nodes : Arr Int) (types : List Int) (count : Nat)
    (default : Int × Int) (ts : Option (Arr Int)) : Res (Arr (Option Int) × Arr (Option Int)) :=
  nodes.len.bind fun n => if created && !temporal then .raised else
    (span nodes nodes.data.length).bind fun ids => (tsSpan ts nodes.data.length).bind fun t =>
    if created ∧ t = none ∧ 0 < count ∧ ∃ i ∈ ids, (g.nodeMap i).isNone ∨ without = true ∨
      g.getCounts [i] none (etypes types) = some [0] then .corrupt else
    (native (g.uniformSample R without (etypes types) count default
      ((ids.zip (tsList t ids.length)).map fun i => (i, List.replicate count default)) 0)).bind fun out =>
      (put (full [n, count] default.1) (out.1.flatten.map (·.1))).bind fun ids =>
        (put (full [n, count] default.2) (out.1.flatten.map (·.2))).map fun types => (ids, types)

/-- `lastn_neighbors` (client.py:1165-1237, py_graph.cc:832-879). -/
def lastn (g : Graph) (watermark : Int) (nodes : Arr Int) (types : List Int) (ts : Arr Int) (count : Nat) (default : Slot)
    (created : Bool) : Res Sample :=
  if watermark < 0 then .raised else
  nodes.len.bind fun n => ts.len.bind fun k => if n ≠ k then .raised else
    (span nodes nodes.data.length).bind fun ids => (span ts nodes.data.length).bind fun t =>
    (native (g.lastN ids t (etypes types) count default)).bind fun out =>
    (put (full [n, count] default.dst) (out.map (·.dst))).bind fun ids =>
    (put (full [n, count] default.typ) (out.map (·.typ))).bind fun types =>
    (put (full [n, count] default.weight) (out.map (·.weight))).bind fun weights =>
    (put (full [n, count] default.created) (out.map (·.created))).map fun times =>
      { ids, weights, types, times := if created then some times else none }

/-- `random_walk` without timestamps (client.py:1262-1316, py_graph.cc:881-1022). -/
def randomWalk (g : Graph) (D : Nat → Nat → Rat) (nodes : Arr Int) (types : List Int) (len : Nat) (p q : Rat) (default : Int) :
    Res (Arr (Option Int)) :=
  nodes.len.bind fun n => (span nodes nodes.data.length).bind fun ids =>
    (native (RandomWalk.randomWalk g ids (etypes types) len p q default D)).bind fun rows =>
      put (empty [n, len + 1]) rows.flatten

/-- `node_features` (client.py:540-584, py_graph.cc:360-392): `item` is the number of bytes of an element; the elements of
the result are shown by their bytes, as a third dimension. -/
def nodeFeatures (g : Graph) (item : Nat) (nodes : Arr Int) (feats : List (Nat × Nat)) (ts : Option (Arr Int)) : Res (Arr UInt8) :=
  nodes.len.bind fun n => (span nodes n).bind fun ids => (tsSpan ts n).bind fun t =>
    (native (g.nodeFeature ids t (feats.map fun f => (f.1, f.2 * item))
      (List.replicate (n * ((feats.map (·.2)).sum * item)) 0))).map fun out => ⟨[n, (feats.map (·.2)).sum, item], out⟩

/-- `edge_features` (client.py:675-730, py_graph.cc:486-523). -/
def edgeFeatures (g : Graph) (item : Nat) (src dst tp : Arr Int) (feats : List (Nat × Nat)) (ts : Option (Arr Int)) :
    Res (Arr UInt8) :=
  src.len.bind fun n => dst.len.bind fun nd => tp.len.bind fun nt => if n ≠ nd ∨ n ≠ nt then .raised else
    (span src n).bind fun s => (span dst n).bind fun d => (span tp n).bind fun y => (tsSpan ts n).bind fun t =>
    (native (g.edgeFeature ((s.zip (d.zip y)).map fun x => ⟨x.1, x.2.1, toI32 x.2.2⟩) t
      (feats.map fun f => (f.1, f.2 * item)))).map fun out => ⟨[n, (feats.map (·.2)).sum, item], out⟩

/-- `node_string_features` (client.py:631-673, py_graph.cc:448-484): the values and their lengths. -/
def nodeStrings (g : Graph) (item : Nat) (nodes : Arr Int) (feats : List Nat) (ts : Option (Arr Int)) :
    Res (Arr UInt8 × Arr Nat) :=
  nodes.len.bind fun n => (span nodes n).bind fun ids => (tsSpan ts n).bind fun t =>
    (native (g.nodeString feats (ids.zip (tsList t ids.length)) [])).map fun r =>
      (⟨[r.2.length / item, item], r.2⟩,
        ⟨[nodes.data.length, feats.length],
          (r.1 ++ List.replicate (nodes.data.length * feats.length - r.1.length) 0).map (· / item)⟩)

/-- `get_node_type_count`, `get_edge_type_count` (client.py:1244-1260) with the counts of the metadata. -/
def typeCount (perType : List Nat) (types : List Int) : Res Nat :=
  if types = [] then .raised
  else .ok (((sortUnique types).filter fun t => decide (0 ≤ t ∧ t < (perType.length : Int))).map fun t => perType.getD t.toNat 0).sum

/-- The types a sampler is created with (client.py:1454-1478, 1572-1592): an int or a list. -/
def samplerTypes (perType : List Nat) (types : Int ⊕ List Int) : Res (List Int) :=
  let l := match types with
    | .inl t => if t = -1 then (List.range perType.length).map Int.ofNat else [t]
    | .inr l => l
  let l := (sortUnique l).filter fun t => decide (0 ≤ t ∧ t < (perType.length : Int) ∧ 0 < perType.getD t.toNat 0)
  if l = [] then .raised else .ok l

/-! `Client` of local.py -/

open SamplerCache (Types checkTypes)

/-- `strategy` of `sample_neighbors`. -/
inductive Strategy
  | byweight | random | randomwithoutreplacement | lastn | other
deriving DecidableEq

/-- `sample_neighbors` (local.py:98-188) without creation times, except for `lastn`; `ppr-go` is in Verif/Model/Ppr.lean. -/
def sampleNeighbors (g : Graph) (watermark : Int) (D : Nat → WDraws) (R : Draws) (nodes : Arr Int) (types : Types) (count : Nat)
    (strategy : Strategy) (default : Nbr) (ts : Option (Arr Int)) : Res Sample :=
  match strategy with
  | .byweight => (weighted g D nodes (checkTypes types) count { default with typ := -1 } ts).map fun r =>
      { r with times := some (full r.ids.shape (-1)) }
  | .random => (uniform g R false false (decide (0 ≤ watermark)) nodes (checkTypes types) count (default.dst, default.typ) ts).map
      fun r => ⟨r.1, empty r.1.shape, r.2, some (full r.1.shape (-1))⟩
  | .randomwithoutreplacement =>
      (uniform g R true false (decide (0 ≤ watermark)) nodes (checkTypes types) count (default.dst, default.typ) ts).map
      fun r => ⟨r.1, empty r.1.shape, r.2, some (full r.1.shape (-1))⟩
  | .lastn => match ts with
    | none => .raised
    | some t => lastn g watermark nodes (checkTypes types) t count ⟨default.dst, default.typ, default.weight, -1⟩ false
  | .other => .raised

/-- `sample_nodes` (local.py:62-79): the types of the sampler it creates. -/
def sampleNodesTypes (perType : List Nat) (types : Types) : Res (List Int) := samplerTypes perType (.inr (checkTypes types))

/-- `edge_features` (local.py:274-299): an array of triples. -/
def edgeFeaturesOf (g : Graph) (item : Nat) (edges : List (Int × Int × Int)) (feats : List (Nat × Nat)) (ts : Option (Arr Int)) :
    Res (Arr UInt8) :=
  edgeFeatures g item ⟨[edges.length], edges.map (·.1)⟩ ⟨[edges.length], edges.map (·.2.1)⟩ ⟨[edges.length], edges.map (·.2.2)⟩
    feats ts

/-- `_SparseFeatureCallback.__call__` (client.py:144-164) with the dimension, the coordinates and the values of each feature: the arrays
of coordinates and of values it has appended.  An exception in the callback (coordinates that do not fill their rows, values that do not
fill their elements) is printed and ignored by ctypes, the remaining arrays are missing. -/
def sparseArrays (item : Nat) : List (Nat × List Int × Bytes) → List (Arr Int) × List (Arr UInt8)
  | [] => ([], [])
  | (dim, idx, vals) :: rest =>
    if idx = [] then (⟨[0], []⟩ :: (sparseArrays item rest).1, ⟨[0, item], []⟩ :: (sparseArrays item rest).2)
    else if idx.length % (dim + 1) ≠ 0 then ([], [])
    else if vals.length % item ≠ 0 then ([⟨[idx.length / (dim + 1), dim + 1], idx⟩], [])
    else (⟨[idx.length / (dim + 1), dim + 1], idx⟩ :: (sparseArrays item rest).1,
      ⟨[vals.length / item, item], vals⟩ :: (sparseArrays item rest).2)

/-- The arrays of coordinates, the arrays of values and the dimensions. -/
structure SparseReply where
  indices : List (Arr Int)
  values : List (Arr UInt8)
  dims : Arr Nat
deriving DecidableEq

def sparseReply (item : Nat) (r : List (Nat × List Int × Bytes)) : SparseReply :=
  ⟨(sparseArrays item r).1, (sparseArrays item r).2, ⟨[r.length], r.map (·.1)⟩⟩

/-- `node_sparse_features` (client.py:586-629, py_graph.cc:394-446) without timestamps. -/
def nodeSparse (g : Graph) (item : Nat) (nodes : Arr Int) (feats : List Nat) : Res SparseReply :=
  nodes.len.bind fun n => (span nodes n).bind fun ids => (native (g.nodeSparse feats ids)).map (sparseReply item)

/-- `edge_sparse_features` (client.py:732-784, py_graph.cc:525-583) without timestamps. -/
def edgeSparse (g : Graph) (item : Nat) (src dst tp : Arr Int) (feats : List Nat) : Res SparseReply :=
  src.len.bind fun n => dst.len.bind fun nd => tp.len.bind fun nt => if n ≠ nd ∨ n ≠ nt then .raised else
    (span src n).bind fun s => (span dst n).bind fun d => (span tp n).bind fun y =>
    (native (g.edgeSparse feats ((s.zip (d.zip y)).map fun x => ⟨x.1, x.2.1, toI32 x.2.2⟩))).map (sparseReply item)

/-- `edge_string_features` (client.py:786-840, py_graph.cc:585-626). -/
def edgeStrings (g : Graph) (item : Nat) (src dst tp : Arr Int) (feats : List Nat) (ts : Option (Arr Int)) :
    Res (Arr UInt8 × Arr Nat) :=
  src.len.bind fun n => dst.len.bind fun nd => tp.len.bind fun nt => if n ≠ nd ∨ n ≠ nt then .raised else
    (span src n).bind fun s => (span dst n).bind fun d => (span tp n).bind fun y => (tsSpan ts n).bind fun t =>
    (native (g.edgeString feats (((s.zip (d.zip y)).map fun x => (⟨x.1, x.2.1, toI32 x.2.2⟩ : EdgeId)).zip (tsList t n)) [])).map fun r =>
      (⟨[r.2.length / item, item], r.2⟩,
        ⟨[src.data.length, feats.length],
          (r.1 ++ List.replicate (src.data.length * feats.length - r.1.length) 0).map (· / item)⟩)

end DeepGNN.PyClient
