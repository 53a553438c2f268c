import Verif.Model.Metadata

/-
What the metadata of a graph says.
-/

namespace DeepGNN.Spec

/-- A complete metadata file: partitions numbered from 0 in any order, at least one, with a weight for every type that
is a float; counts for every type. -/
structure MetaOk (f : MetaFile) : Prop where
  version : minVersion ≤ f.version
  pos : f.partitions ≠ []
  keys : (f.partitions.map (·.1)).Perm (List.range f.partitions.length)
  nodeWeights : ∀ p ∈ f.partitions, p.2.node.length = f.nodeTypes
  edgeWeights : ∀ p ∈ f.partitions, p.2.edge.length = f.edgeTypes
  nodeFloats : ∀ p ∈ f.partitions, ∀ w ∈ p.2.node, f32 w = w
  edgeFloats : ∀ p ∈ f.partitions, ∀ w ∈ p.2.edge, f32 w = w
  nodeCounts : f.nodePerType.length = f.nodeTypes
  edgeCounts : f.edgePerType.length = f.edgeTypes

/-- Weight of type `t` over all partitions. -/
def weightOfType (rows : List (List Int)) (t : Nat) : Int := (rows.map fun r => r.getD t 0).sum

/-- The metadata a python client shows for a graph whose file is `f`. -/
structure Shows (f : MetaFile) (p : PyMeta) : Prop where
  nodeCount : p.nodeCount = f.nodeCount
  edgeCount : p.edgeCount = f.edgeCount
  nodeTypes : p.nodeTypes = f.nodeTypes
  edgeTypes : p.edgeTypes = f.edgeTypes
  nodeFeatures : p.nodeFeatures = f.nodeFeatures
  edgeFeatures : p.edgeFeatures = f.edgeFeatures
  partitionCount : p.partitionCount = f.partitions.length
  nodeWeights : p.nodeWeights = (List.range f.nodeTypes).map (weightOfType (f.partitions.map (·.2.node)))
  edgeWeights : p.edgeWeights = (List.range f.edgeTypes).map (weightOfType (f.partitions.map (·.2.edge)))
  nodePerType : p.nodePerType = f.nodePerType
  edgePerType : p.edgePerType = f.edgePerType
  watermark : p.watermark = f.watermark

/-- Files of the workers of one conversion, worker after worker: the same version, feature counts and watermark,
consecutive partitions, weights and counts for the types of the file. -/
structure WorkersOk (fs : List MetaFile) : Prop where
  version : ∀ f ∈ fs, ∀ g ∈ fs, f.version = g.version
  nodeFeatures : ∀ f ∈ fs, ∀ g ∈ fs, f.nodeFeatures = g.nodeFeatures
  edgeFeatures : ∀ f ∈ fs, ∀ g ∈ fs, f.edgeFeatures = g.edgeFeatures
  watermark : ∀ f ∈ fs, ∀ g ∈ fs, f.watermark = g.watermark
  ids : (fs.flatMap (·.partitions)).map (·.1) = List.range (fs.flatMap (·.partitions)).length
  nodeWeights : ∀ f ∈ fs, ∀ p ∈ f.partitions, p.2.node.length = f.nodeTypes
  edgeWeights : ∀ f ∈ fs, ∀ p ∈ f.partitions, p.2.edge.length = f.edgeTypes
  nodeCounts : ∀ f ∈ fs, f.nodePerType.length = f.nodeTypes
  edgeCounts : ∀ f ∈ fs, f.edgePerType.length = f.edgeTypes

/-- Count of type `t` over all workers. -/
def countOfType (counts : List (List Nat)) (t : Nat) : Nat := (counts.map fun c => c.getD t 0).sum

/-- The metadata of the whole conversion. -/
structure Merged (fs : List MetaFile) (m : MetaFile) : Prop where
  nodeCount : m.nodeCount = (fs.map (·.nodeCount)).sum
  edgeCount : m.edgeCount = (fs.map (·.edgeCount)).sum
  nodeTypes : (∃ f ∈ fs, m.nodeTypes = f.nodeTypes) ∧ ∀ f ∈ fs, f.nodeTypes ≤ m.nodeTypes
  edgeTypes : (∃ f ∈ fs, m.edgeTypes = f.edgeTypes) ∧ ∀ f ∈ fs, f.edgeTypes ≤ m.edgeTypes
  common : ∀ f ∈ fs, m.version = f.version ∧ m.nodeFeatures = f.nodeFeatures ∧ m.edgeFeatures = f.edgeFeatures ∧
    m.watermark = f.watermark
  partitions : m.partitions = fs.flatMap (·.partitions)
  nodePerType : m.nodePerType = (List.range m.nodeTypes).map (countOfType (fs.map (·.nodePerType)))
  edgePerType : m.edgePerType = (List.range m.edgeTypes).map (countOfType (fs.map (·.edgePerType)))

end DeepGNN.Spec
