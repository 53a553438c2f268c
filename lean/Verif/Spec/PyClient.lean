import Verif.Model.PyClient
import Verif.Spec.Features

/-
C76: the arrays that calls of the Python client take and return.
-/

namespace DeepGNN.Spec

open PyClient

/-- A one-dimensional array. -/
def vector {β : Type} (l : List β) : Arr β := ⟨[l.length], l⟩

/-- A one-dimensional array with all elements written. -/
def filled {β : Type} (l : List β) : Arr (Option β) := vector (l.map some)

/-- A two-dimensional array with all elements written. -/
def table {β : Type} (width : Nat) (rows : List (List β)) : Arr (Option β) := ⟨[rows.length, width], rows.flatten.map some⟩

/-- Types that fit 32 bits. -/
def Int32 (types : List Int) : Prop := ∀ t ∈ types, -(2 ^ 31) ≤ t ∧ t < 2 ^ 31

/-- No timestamps are given. -/
def NoTimes (ts : Option (Arr Int)) : Prop := ts = none ∨ ts = some (vector [])

/-- The arrays of ids, weights and types of rows of neighbours. -/
def sampleOf (count : Nat) (rows : List (List Nbr)) : Sample :=
  { ids := table count (rows.map (·.map (·.dst))), weights := table count (rows.map (·.map (·.weight))),
    types := table count (rows.map (·.map (·.typ))) }

/-- The answer of `neighbors` that lists `answers`, one element per node. -/
def neighborsOf (answers : List (List Nbr)) : Neighbors :=
  ⟨vector (answers.flatten.map (·.dst)), vector (answers.flatten.map (·.weight)), vector (answers.flatten.map (·.typ)),
    filled (answers.map (·.length))⟩

/-- `perType` counts the elements of each type in `all`, for the types `0, 1, …`. -/
def CountsOf (all perType : List Nat) : Prop :=
  perType = (List.range perType.length).map (fun t => all.count t) ∧ ∀ t ∈ all, t < perType.length

/-- The coordinates of a sparse feature: one row per value, the position of the node or edge in the request and the coordinates of
the value; an empty vector if there are no values. -/
def coordinates (dim : Nat) (vals : List (Option Sparse)) : Arr Int :=
  let rows := vals.zipIdx.flatMap fun (v, i) => v.toList.flatMap fun x => x.coords.map fun row => (i : Int) :: row
  if rows = [] then ⟨[0], []⟩ else ⟨[rows.length, dim + 1], rows.flatten⟩

/-- The values of a sparse feature, one per row of coordinates, by their bytes. -/
def sparseValues (item : Nat) (vals : List (Option Sparse)) : Arr UInt8 :=
  let all := vals.flatMap fun v => v.toList.flatMap fun x => x.values
  ⟨[all.length, item], all.flatten⟩

/-- The answer of a query of sparse features: `dim f` is the number of coordinates of feature `f`, `val f` its values. -/
def sparseOf (item : Nat) (feats : List Nat) (dim : Nat → Nat) (val : Nat → List (Option Sparse)) : SparseReply :=
  ⟨feats.map fun f => coordinates (dim f) (val f), feats.map fun f => sparseValues item (val f),
    vector (feats.map fun f => if ∃ v ∈ val f, v.isSome then dim f else 0)⟩

end DeepGNN.Spec
