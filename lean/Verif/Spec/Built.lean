import Verif.Model.Graph
import Verif.Spec.Stream

/-
What it means that a graph was produced by converting the user's records and loading the files.
-/

namespace DeepGNN

/-- All files are shorter than `2^64` bytes, the limit of the offsets stored in them. -/
def FilesFit (f : PartitionFiles) : Prop :=
  f.nodeMap.length < 2 ^ 64 ∧ f.nodeFeatureIndex.length < 2 ^ 64 ∧ f.nodeFeatureData.length < 2 ^ 64 ∧
  f.edgeIndex.length < 2 ^ 64 ∧ f.edgeFeatureIndex.length < 2 ^ 64 ∧ f.edgeFeatureData.length < 2 ^ 64

instance (f : PartitionFiles) : Decidable (FilesFit f) := by unfold FilesFit; infer_instance

/-- `g` is the graph loaded from the files the converter wrote for `parts` (one list of `add` calls
per partition).  `wm` is the converter's watermark (`none`: not temporal), `m` the metadata: its
feature counts are the maxima over the partitions and it is temporal only if the files are
(snark/dispatcher.py:120-217). -/
structure Built (C : WeightCodec) (wm : Option Nat) (m : Meta) (parts : List (List (List Rec)))
    (g : Graph) : Prop where
  convert : ∃ fs, parts.mapM (convertPartition C wm) = some fs ∧
    (∀ f ∈ fs, FilesFit f ∧ f.nodeFeatureCount ≤ m.nodeFeatureCount ∧
      f.edgeFeatureCount ≤ m.edgeFeatureCount) ∧
    loadGraph C m (fs.map fun f => [f]) = some g
  records : ∀ r ∈ Spec.allRecords parts, RecOk C r
  temporal : 0 ≤ m.watermark → wm ≠ none

end DeepGNN
