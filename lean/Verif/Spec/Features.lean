import Verif.Model.Features
import Verif.Spec.Stream

/-
Specification of features: what the user gave to the converter.
-/

namespace DeepGNN.Spec

/-- A value in a field of `size` bytes: truncated, or followed by zeros. -/
def fit (size : Nat) (v : Bytes) : Bytes := v.take size ++ List.replicate (size - v.length) 0

/-- The value of feature `fid` in a record, empty if there is none. -/
def featureOf (r : Rec) (fid : Nat) : Bytes := (r.features[fid]?.join).getD []

/-- The node records of `n`, in input order. -/
def nodeRecords (parts : List (List (List Rec))) (n : Int) : List Rec :=
  (allRecords parts).filter (fun r => r.dst = -1 ∧ r.src = n)

/-- The edge records from `src` to `dst` of type `typ`, in input order. -/
def edgesBetween (parts : List (List (List Rec))) (src dst typ : Int) : List Rec :=
  (edgeRecords parts).filter (fun r => r.src = src ∧ r.dst = dst ∧ r.typ = typ)

/-- The value of feature `fid` of node `n`: given by the first record of `n` with that many features;
nothing if there is no such record. -/
def nodeFeature (parts : List (List (List Rec))) (n : Int) (fid : Nat) : Bytes :=
  match (nodeRecords parts n).find? (fun r => fid < r.features.length) with
  | some r => featureOf r fid
  | none => []

end DeepGNN.Spec

namespace DeepGNN.Spec

/-- `(c, v)` is a value of the history `hist` with the greatest creation time not after `t`. -/
def IsLatest (hist : List (Int × Bytes)) (t : Int) (x : Int × Bytes) : Prop :=
  x ∈ hist ∧ x.1 ≤ t ∧ ∀ y ∈ hist, y.1 ≤ t → y.1 ≤ x.1

/-- `v` is what a query at `t` has to return: the latest value not after `t`, or nothing if all values
are newer. -/
def LatestValue (hist : List (Int × Bytes)) (t : Int) (v : Bytes) : Prop :=
  (∃ c, IsLatest hist t (c, v)) ∨ (v = [] ∧ ∀ y ∈ hist, t < y.1)

/-- A history of values that fits the file format: 64-bit non-negative times and offsets. -/
structure HistOk (hist : List (Int × Bytes)) : Prop where
  times : ∀ x ∈ hist, 0 ≤ x.1 ∧ x.1 < 2 ^ 63
  count : hist.length < 2 ^ 32
  size : 4 + 8 * (2 * hist.length + 1) + (hist.map (·.2.length)).sum < 2 ^ 63

end DeepGNN.Spec

namespace DeepGNN.Spec

/-- `row` consists of one value per requested feature `(id, size)`, each truncated or padded to its
size, and value `v` of feature `id` satisfies `ok id v`. -/
def Row (feats : List (Nat × Nat)) (ok : Nat → Bytes → Prop) (row : Bytes) : Prop :=
  ∃ vs : List Bytes, vs.length = feats.length ∧
    row = (List.zipWith (fun f v => fit f.2 v) feats vs).flatten ∧ ∀ x ∈ feats.zip vs, ok x.1.1 x.2

/-- In a record with the features `fl`, feature `fid` is either absent (`hist = []`) or the serialised
history `hist`. -/
def HasHist (fl : List (Option Bytes)) (fid : Nat) (hist : List (Int × Bytes)) : Prop :=
  (fl[fid]? = none ∧ hist = []) ∨ (fl[fid]? = some (some (serializeTemporal hist)) ∧ HistOk hist)

end DeepGNN.Spec

namespace DeepGNN.Spec

/-- A sparse value: dimension of the coordinates, one tuple of coordinates per value, the values. -/
structure Sparse where
  dim : Nat
  coords : List (List Int)
  values : List Bytes
deriving DecidableEq, Repr

/-- Input of the converter that describes the sparse value `x` in one of the accepted shapes: a matrix
with one row of coordinates per value, or a vector with one coordinate per value. -/
inductive Describes : RawFeature → Sparse → Prop where
  | mat (d : Nat) (rows : List (List Int)) (vs : List Bytes) :
      Describes (.sparse (.mat d rows) vs) ⟨d, rows, vs⟩
  | vec (l : List Int) (vs : List Bytes) : Describes (.sparse (.vec l) vs) ⟨1, l.map fun a => [a], vs⟩

/-- A well-formed sparse value that fits the file format. -/
structure Sparse.Ok (x : Sparse) : Prop where
  dim_pos : 0 < x.dim
  rows : ∀ row ∈ x.coords, row.length = x.dim
  count : x.coords.length = x.values.length
  nonempty : x.values ≠ []
  range : ∀ row ∈ x.coords, ∀ a ∈ row, -(2 ^ 63) ≤ a ∧ a < 2 ^ 63
  size : x.dim * x.coords.length < 2 ^ 32

/-- In a record with the features `fl`, feature `fid` is the converted sparse value `x`, or empty. -/
def HasSparse (fl : List (Option Bytes)) (fid : Nat) (x : Option Sparse) : Prop :=
  match x with
  | none => (fl[fid]?.join).getD [] = []
  | some x => x.Ok ∧ ∃ raw, Describes raw x ∧ ∃ b, convertFeature raw = some b ∧ fl[fid]? = some b

end DeepGNN.Spec
