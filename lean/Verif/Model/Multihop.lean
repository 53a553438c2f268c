import Verif.Model.Sampling
import Verif.Model.Temporal
import Verif.Model.Weighted

/-
Multi-hop queries (src/python/deepgnn/graph_engine/multihop.py) and the client calls they make
(src/python/deepgnn/graph_engine/snark/local.py, client.py).  Retries and the transport are not modelled here.
-/

namespace DeepGNN.Multihop

/-- `sample_neighbors(strategy="random")` (local.py:135-157, client.py:1058-1106): outputs are filled with the defaults, the
default type is -1.  `R i`: draws of the `i`-th call, every call has a seed of its own.  The weights returned are those of an
uninitialised array (`np.empty`, local.py:150) and are not modelled. -/
def sampleRandom (g : Graph) (R : Nat → Draws) (default : Int) (i : Nat) (nodes types : List Int) (count : Nat) :
    Option (List (List (Int × Int))) :=
  (g.uniformSample (R i) false types count (default, -1)
    (nodes.map fun n => ((n, none), List.replicate count (default, -1))) 0).map (·.1)

/-- `sample_neighbors(strategy="byweight")` (local.py:116-134, client.py:979-1025): the default weight is 0, the default type -1.
`D i`: draws of the `i`-th call. -/
def sampleByWeight (g : Graph) (D : Nat → Nat → WDraws) (default : Int) (i : Nat) (nodes types : List Int) (count : Nat) :
    Option (List (List Nbr)) :=
  (g.weightedSample (D i) types count ⟨default, -1, 0⟩
    (nodes.map fun n => (n, List.replicate count ⟨default, -1, 0⟩)) 0).map (·.1)

/-- The loop of `sample_fanout` (multihop.py:40-50): `sample` is `graph.sample_neighbors`, one row per node, `i` the number of calls
made so far, `nodes` the last entry of `neighbors_list`.  The result are the flattened rows, `neighbors_list[1:]`,
`weights_list` and `types_list` together. -/
def fanoutLoop {α : Type} (dst : α → Int) (sample : Nat → List Int → List Int → Nat → Option (List (List α))) :
    Nat → List Int → List (List Int × Nat) → Option (List (List α))
  | _, _, [] => some []
  | i, nodes, hop :: hops => (sample i nodes hop.1 hop.2).bind fun rows =>
      (fanoutLoop dst sample (i + 1) (rows.flatten.map dst) hops).map fun rest => rows.flatten :: rest

/-- `sample_fanout` (multihop.py:10-51); `zip` stops with the shorter list. -/
def sampleFanout {α : Type} (dst : α → Int) (sample : Nat → List Int → List Int → Nat → Option (List (List α)))
    (nodes : List Int) (metapath : List (List Int)) (fanouts : List Nat) : Option (List (List α)) :=
  fanoutLoop dst sample 0 nodes (metapath.zip fanouts)

/-- `neighbors` of the client (client.py:885-946): the types are sorted and made unique before the call. -/
def clientNeighbors (g : Graph) (nodes types : List Int) : Option (List Nbr × List Nat) :=
  g.fullNeighbor nodes none (sortUnique types)

/-- `_full_neighbor` (multihop.py:54-78): neighbours and pairs (index of the node, index among its neighbours). -/
def fullNeighbor (g : Graph) (nodes types : List Int) : Option (List Nbr × List (Nat × Nat)) :=
  if nodes = [] then some ([], [])
  else (clientNeighbors g nodes types).map fun r =>
    (r.1, r.2.zipIdx.flatMap fun x => (List.range x.1).map fun j => (x.2, j))

/-- An entry of `nodes_list` (multihop.py:97, 146): a padded array and the number of nodes in it. -/
structure Layer where
  nodes : List Int
  len : Nat
deriving DecidableEq

/-- An entry of `adj_list` (multihop.py:118-139). -/
structure Adj where
  indices : List (Nat × Nat)
  values : List Int
  shape : Nat × Nat
  len : Nat
deriving DecidableEq

/-- `np.pad` at the end with zeros (multihop.py:119-145). -/
def pad {α : Type} (zero : α) (n : Nat) (l : List α) : List α := l ++ List.replicate (n - l.length) zero

/-- The body of the loop of `get_neighbor` (multihop.py:101-147): `none` is an exception, `np.unique` is `sortUnique` and its
inverse the positions of the values.  `np.stack` fails if the lengths differ. -/
def hop (g : Graph) (max : Nat) (types : List Int) (prev : Layer) : Option (Layer × Adj) :=
  let cur := prev.nodes.take prev.len
  (fullNeighbor g cur types).bind fun r =>
    let next := sortUnique (r.1.map (·.dst))
    let inverse := r.1.map fun x => next.idxOf x.dst
    if r.2.length ≠ inverse.length then none
    else
      let indices := (r.2.map (·.1)).zip inverse
      let room := max * prev.nodes.length
      if indices.length > room then none
      else some (⟨pad 0 room next, next.length⟩,
        ⟨pad (0, 0) room indices, pad 0 room (r.1.map (·.weight)), (cur.length, next.length), indices.length⟩)

/-- The loop of `get_neighbor` (multihop.py:100-149) from the last layer on. -/
def hops (g : Graph) (max : Nat) : List (List Int) → Layer → Option (List (Layer × Adj))
  | [], _ => some []
  | types :: rest, prev => (hop g max types prev).bind fun x => (hops g max rest x.1).map fun xs => x :: xs

/-- `get_neighbor` (multihop.py:81-149): the layers after the first one, each with its adjacency. -/
def getNeighbor (g : Graph) (nodes : List Int) (edgeTypes : List (List Int)) (max : Nat) : Option (List (Layer × Adj)) :=
  hops g max edgeTypes ⟨nodes, nodes.length⟩

end DeepGNN.Multihop
