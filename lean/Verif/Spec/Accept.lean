import Verif.Spec.Stream

/-
Valid input of the converter.
-/

namespace DeepGNN.Spec

/-- A time that fits into 64 bits. -/
def TimeFits (t : Option Int) : Prop := ∀ v, t = some v → -(2 ^ 63) ≤ v ∧ v < 2 ^ 63

/-- Ids, types and times of a record are in range. -/
structure RecordFits (r : Rec) : Prop where
  src : 0 ≤ r.src ∧ r.src < 2 ^ 63
  dst : r.dst = -1 ∨ (0 ≤ r.dst ∧ r.dst < 2 ^ 63)
  typ : 0 ≤ r.typ ∧ r.typ < 2 ^ 31
  created : TimeFits r.created
  removed : TimeFits r.removed

/-- Edges of a node that follow each other have non-decreasing types. -/
def TypesOrdered (rs : List Rec) : Prop :=
  ∀ a r s b, rs = a ++ r :: s :: b → r.dst ≠ -1 → s.dst ≠ -1 → r.src = s.src → r.typ ≤ s.typ

/-- Every edge exists only while its node, the last node record before it in the call, does; `nc`, `nr`: lifetime of this node. -/
def LifetimesNested (nc : Int) (nr : Option Int) : List Rec → Prop
  | [] => True
  | r :: rs =>
    if r.dst = -1 then LifetimesNested (r.created.getD 0) (removalTime none r.removed) rs
    else (nc ≤ r.created.getD nc ∧ removalLe (removalTime nr r.removed) nr) ∧ LifetimesNested nc nr rs

/-- Input of one partition, call by call. -/
structure ValidPart (calls : List (List Rec)) : Prop where
  fits : ∀ r ∈ calls.flatten, RecordFits r
  types : TypesOrdered calls.flatten
  lifetimes : ∀ call ∈ calls, LifetimesNested 0 none call

/-- Bytes needed for a record, at most. -/
def recordSize (r : Rec) : Nat := 24 + (r.features.map fun f => 8 + (f.getD []).length).sum

/-- Bytes needed for the input of a partition, at most. -/
def inputSize (calls : List (List Rec)) : Nat := (calls.flatten.map recordSize).sum

end DeepGNN.Spec
