import Verif.Spec.Features

/-
Specification of sparse features with a history.
-/

namespace DeepGNN.Spec

/-- In a record with the features `fl`, feature `fid` is empty (`hist = []`), or the serialised history of sparse
values, each stored as the converter stores a sparse value. -/
def HasSparseHist (fl : List (Option Bytes)) (fid : Nat) (hist : List (Int × Sparse)) : Prop :=
  ((fl[fid]?.join).getD [] = [] ∧ hist = []) ∨
  ∃ enc : Sparse → Bytes,
    (∀ x ∈ hist, x.2.Ok ∧ ∃ raw, Describes raw x.2 ∧ convertFeature raw = some (some (enc x.2))) ∧
    fl[fid]? = some (some (serializeTemporal (hist.map fun x => (x.1, enc x.2)))) ∧
    HistOk (hist.map fun x => (x.1, enc x.2))

/-- The version of a history `hist` in force at `t` is `x`: the one with the greatest creation time not after `t`,
none if all are newer. -/
def InForce (hist : List (Int × Sparse)) (t : Int) : Option Sparse → Prop
  | none => ∀ y ∈ hist, t < y.1
  | some x => ∃ c, (c, x) ∈ hist ∧ c ≤ t ∧ ∀ y ∈ hist, y.1 ≤ t → y.1 ≤ c

/-- All versions of feature `fid` in the records `rs`. -/
def versions (H : Nat → List (Option Bytes) → List (Int × Sparse)) (fid : Nat) (rs : List Rec) : List (Int × Sparse) :=
  rs.flatMap fun r => H fid r.features

end DeepGNN.Spec
