import Verif.Model.Folders
import Verif.Spec.Download

namespace DeepGNN.Spec

open Download (Dir)

/-- A file name: kind of data, partition, what follows the partition, extension. -/
def fileName (kind : String) (p : Nat) (i : List Char) (ext : String) : List Char :=
  kind.toList ++ Nat.toDigits 10 p ++ ['_'] ++ i ++ ext.toList

/-- The directory holds partition `p` in exactly one set of files, with the contents `f`; `i` is what follows the partition in their
names.  It may hold other partitions and other files. -/
structure HoldsPartition (m : Meta) (d : Dir Bytes) (p : Nat) (i : List Char) (f : PartitionFiles) : Prop where
  distinct : DistinctNames d
  converted : ConvertedNames d
  plain : '.' ∉ i
  once : ∀ x ∈ d, ∀ j, x.1 = fileName "neighbors_" p j ".index" → j = i
  nodeMap : (fileName "node_" p i ".map", f.nodeMap) ∈ d
  nodeIndex : (fileName "node_" p i ".index", f.nodeIndex) ∈ d
  nodeFeatureIndex : (fileName "node_features_" p i ".index", f.nodeFeatureIndex) ∈ d
  nodeFeatureData : (fileName "node_features_" p i ".data", f.nodeFeatureData) ∈ d
  neighborsIndex : (fileName "neighbors_" p i ".index", f.neighborsIndex) ∈ d
  edgeIndex : (fileName "edge_" p i ".index", f.edgeIndex) ∈ d
  edgeFeatureIndex : (fileName "edge_features_" p i ".index", f.edgeFeatureIndex) ∈ d
  edgeFeatureData : (fileName "edge_features_" p i ".data", f.edgeFeatureData) ∈ d
  edgeTimestamps : 0 ≤ m.watermark → (fileName "edge_" p i ".timestamp", f.edgeTimestamps) ∈ d

/-- No name of a path on HDFS contains "neighbors_", except at the start of the names of files. -/
structure PlainPaths {α} (folder : List Char) (d : Dir α) : Prop where
  folder : ¬ "neighbors_".toList <:+: folder
  start : ∀ f ∈ d, "neighbors_".toList <:+: f.1 → "neighbors_".toList <+: f.1
  slash : ∀ f ∈ d, '/' ∉ f.1

end DeepGNN.Spec
