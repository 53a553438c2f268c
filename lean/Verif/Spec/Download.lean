import Verif.Model.Download

namespace DeepGNN.Spec

/-- Names in a directory are different. -/
def DistinctNames {α} (d : Download.Dir α) : Prop := (d.map (·.1)).Nodup

/-- Files with neighbours are named as the converter does: neighbors_{partition}_{iteration}.index. -/
def ConvertedNames {α} (d : Download.Dir α) : Prop :=
  ∀ f ∈ d, (∃ r, f.1 = Download.neighbors ++ r) → ∃ (q : Nat) (i : List Char), '.' ∉ i ∧
    f.1 = Download.neighbors ++ Nat.toDigits 10 q ++ ['_'] ++ i ++ Download.dotIndex

/-- The directory holds data of partition `p`: some file with neighbours. -/
def HasPartition {α} (d : Download.Dir α) (p : Nat) : Prop :=
  ∃ f ∈ d, ∃ i : List Char, '.' ∉ i ∧ f.1 = Download.neighbors ++ Nat.toDigits 10 p ++ ['_'] ++ i ++ Download.dotIndex

/-- The metadata and all partitions are on one remote file system (number `k`), a partition is listed from one directory only,
and files are named as the converter names them. -/
structure RemoteGraph {α} (w : Download.World α) (k : Nat) (path : String) (parts : List (String × Nat)) : Prop where
  remote : k ≠ 0
  metadata : w.protocol path = k
  data : ∀ y ∈ parts, w.protocol y.1 = k
  once : ∀ y ∈ parts, ∀ z ∈ parts, y.2 = z.2 → y.1 = z.1
  distinct : ∀ y ∈ parts, DistinctNames (w.files k y.1)
  converted : ∀ y ∈ parts, ConvertedNames (w.files k y.1)

end DeepGNN.Spec
