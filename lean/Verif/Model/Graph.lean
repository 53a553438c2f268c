import Verif.Model.Partition

/-
The graph as a set of loaded partitions (src/cc/lib/graph/graph.cc).
-/

namespace DeepGNN

/-- Fields of `Graph` (src/cc/lib/graph/graph.h:98-112). The hash map `m_node_map` is a
partial function. -/
structure Graph where
  parts : List Partition := []
  nodeMap : Int → Option Nat := fun _ => none
  internal : List Nat := []
  partIdx : List Nat := []
  counts : List Nat := []

/-- Loop body of `Graph::ReadNodeMap` (graph.cc:653-686) for a node map record
`(id, internal)`. `none`: out-of-range access. -/
def Graph.addNode (g : Graph) (index : Nat) (r : Int × Nat) : Option Graph :=
  match g.nodeMap r.1 with
  | none => some { g with
      nodeMap := fun k => if k = r.1 then some g.internal.length else g.nodeMap k
      internal := g.internal ++ [r.2]
      partIdx := g.partIdx ++ [index]
      counts := g.counts ++ [1] }
  | some old => do
    let c ← g.counts[old]?
    if old + c > g.internal.length ∨ old + c > g.partIdx.length then none
    some { g with
      nodeMap := fun k => if k = r.1 then some g.internal.length else g.nodeMap k
      internal := g.internal ++ (g.internal.drop old).take c ++ [r.2]
      partIdx := g.partIdx ++ (g.partIdx.drop old).take c ++ [index]
      counts := g.counts ++ List.replicate (c + 1) (c + 1) }

/-- The `(node id, internal id)` pairs of a node map file; ids are read as `uint64_t` and
converted to `NodeId` (graph.cc:646-660). -/
def parseNodeMap (b : Bytes) : List (Int × Nat) :=
  (records 20 b).map fun r => (rdI64 (r.take 8), rdU64 ((r.drop 8).take 8))

/-- `Graph::ReadNodeMap` (graph.cc:633-694). -/
def Graph.readNodeMap (g : Graph) (b : Bytes) (index : Nat) : Option Graph :=
  (parseNodeMap b).foldlM (fun g r => g.addNode index r) g

/-- Constructor body for one partition folder with its files in suffix order
(graph.cc:96-100): `index` is the position in the `partitions` argument. -/
def Graph.loadSuffixes (C : WeightCodec) (m : Meta) (index : Nat) (g : Graph)
    (fs : List PartitionFiles) : Option Graph :=
  fs.foldlM (fun g f => do
    let p ← loadPartition C m f
    let g := { g with parts := g.parts ++ [p] }
    g.readNodeMap f.nodeMap index) g

/-- `Graph::Graph` (graph.cc:39-102); the directory listing is an argument: for every
requested partition, the files found for it, in suffix order. -/
def loadGraph (C : WeightCodec) (m : Meta) (fss : List (List PartitionFiles)) : Option Graph :=
  fss.zipIdx.foldlM (fun g (fs, i) => g.loadSuffixes C m i fs) {}

/-- The partitions and internal ids a node is looked up in
(`m_node_map`, `m_counts`, `m_partitions_indices`, `m_internal_indices`;
graph.cc:402-413 and the same pattern in every query). -/
def Graph.entries (g : Graph) (node : Int) : Option (List (Partition × Nat)) :=
  match g.nodeMap node with
  | none => some []
  | some off => do
    let c ← g.counts[off]?
    (List.range' off c).mapM fun i => do
      let k ← g.partIdx[i]?
      let p ← g.parts[k]?
      let id ← g.internal[i]?
      return (p, id)

/-- One iteration of `Graph::FullNeighbor` (graph.cc:400-420). -/
def Graph.fullNeighbor1 (g : Graph) (ts : Option Int) (types : List Int) (node : Int) :
    Option (List Nbr × Nat) := do
  let es ← g.entries node
  let rs ← es.mapM fun (p, id) => p.fullNeighbor id ts types
  return ((rs.map (·.1)).flatten, (rs.map (·.2)).sum)

/-- `Graph::FullNeighbor` (graph.cc:392-426): all neighbours one after another and one
count per input node. `ts = none` for an empty timestamp list, otherwise one timestamp
per node. -/
def Graph.fullNeighbor (g : Graph) (nodes : List Int) (ts : Option (List Int)) (types : List Int) :
    Option (List Nbr × List Nat) := do
  let rs ← match ts with
    | none => nodes.mapM (g.fullNeighbor1 none types)
    | some ts => (nodes.zip ts).mapM fun (n, t) => g.fullNeighbor1 (some t) types n
  return ((rs.map (·.1)).flatten, rs.map (·.2))

/-- One iteration of `Graph::NeighborCount` without timestamps (graph.cc:368-389). -/
def Graph.neighborCount1 (g : Graph) (types : List Int) (node : Int) : Option Nat := do
  let es ← g.entries node
  let rs ← es.mapM fun (p, id) => p.neighborCount id types
  return rs.sum

/-- `Graph::NeighborCount` without timestamps (graph.cc:361-390). -/
def Graph.neighborCount (g : Graph) (nodes : List Int) (types : List Int) : Option (List Nat) :=
  nodes.mapM (g.neighborCount1 types)

/-- One iteration of `Graph::GetNodeType` (graph.cc:108-130): the last type read wins if
all of them are the placeholder `-1`. -/
def Graph.nodeType1 (g : Graph) (default : Int) (node : Int) : Option Int :=
  match g.nodeMap node with
  | none => some default
  | some _ => do
    let es ← g.entries node
    let ts ← es.mapM fun (p, id) => p.nodeTypes[id]?
    match ts.find? (· ≠ -1) with
    | some t => return t
    | none => ts.getLast?

end DeepGNN
