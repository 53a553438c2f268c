import Verif.Spec.Features

/-
Specification of the feature files of a partition: what the user gave, in input order.
-/

namespace DeepGNN.Spec

/-- The features of the node records of a partition, in input order (`none`: no value was given). -/
def nodeSlots (c : List (List Rec)) : List (Option Bytes) :=
  (c.flatten.filter (fun r => r.dst = -1)).flatMap (·.features)

/-- The features of the edge records of a partition, in input order. -/
def edgeSlots (c : List (List Rec)) : List (Option Bytes) :=
  (c.flatten.filter (fun r => r.dst ≠ -1)).flatMap (·.features)

/-- Total size of these values. -/
def slotBytes (l : List (Option Bytes)) : Nat := (l.map fun v => (v.getD []).length).sum

/-- No feature file of the graph is larger than 2 GiB. -/
def FilesUpTo2G (parts : List (List (List Rec))) : Prop :=
  ∀ c ∈ parts, slotBytes (nodeSlots c) ≤ 2 ^ 31 ∧ slotBytes (edgeSlots c) ≤ 2 ^ 31

/-- The last value, if there is any, is not empty. -/
def EndsNonEmpty (l : List (Option Bytes)) : Prop := ∀ v, l.getLast? = some v → v.getD [] ≠ []

end DeepGNN.Spec
