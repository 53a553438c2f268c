import Verif.Model.Convert

namespace DeepGNN.Spec

open Convert

/-- The partitions numbered below `partitions` are written, each once, and hold every line of the files exactly once. -/
structure ConvertedOnce {α : Type} (files : List (File α)) (partitions : Nat) (out : List (Nat × List α)) : Prop where
  ids : out.map (·.1) = List.range partitions
  lines : (out.flatMap (·.2)).Perm (files.flatMap (·.2))

/-- A report as a process makes it: counts and weights for every type it has seen. -/
structure OutputOk (o : Output) : Prop where
  nodeWeight : o.nodeWeight.length = o.nodeTypes
  nodePerType : o.nodePerType.length = o.nodeTypes
  edgeWeight : o.edgeWeight.length = o.edgeTypes
  edgePerType : o.edgePerType.length = o.edgeTypes

/-- The metadata of partitions `outs`. -/
structure Totals (watermark : Option Int) (outs : List Output) (m : MetaFile) : Prop where
  nodeCount : m.nodeCount = (outs.map (·.nodeCount)).sum
  edgeCount : m.edgeCount = (outs.map (·.edgeCount)).sum
  nodeTypes : ∀ n, (∀ o ∈ outs, o.nodeTypes ≤ n) ↔ m.nodeTypes ≤ n
  edgeTypes : ∀ n, (∀ o ∈ outs, o.edgeTypes ≤ n) ↔ m.edgeTypes ≤ n
  nodeFeatures : ∀ n, (∀ o ∈ outs, o.nodeFeatures ≤ n) ↔ m.nodeFeatures ≤ n
  edgeFeatures : ∀ n, (∀ o ∈ outs, o.edgeFeatures ≤ n) ↔ m.edgeFeatures ≤ n
  watermark : m.watermark = watermark.getD (-1)
  /-- One entry per partition, in the order of the numbers, with a weight for every type. -/
  ids : (m.partitions.map (·.1)).Perm (outs.map (·.id)) ∧ (m.partitions.map (·.1)).Pairwise (· < ·)
  weights : ∀ p ∈ m.partitions, p.2.node.length = m.nodeTypes ∧ p.2.edge.length = m.edgeTypes ∧
    ∃ o ∈ outs, o.id = p.1 ∧ (∀ t, p.2.node.getD t 0 = o.nodeWeight.getD t 0) ∧ (∀ t, p.2.edge.getD t 0 = o.edgeWeight.getD t 0)
  nodePerType : m.nodePerType = (List.range m.nodeTypes).map fun t => (outs.map fun o => o.nodePerType.getD t 0).sum
  edgePerType : m.edgePerType = (List.range m.edgeTypes).map fun t => (outs.map fun o => o.edgePerType.getD t 0).sum

end DeepGNN.Spec
