import Verif.Model.Citation

/-
What the published files of a citation dataset mean: nodes are numbered from 0; the first ones are described by `allx`, a node for tests
by the row of `tx` at its position in `test`; other nodes are isolated and have no description.
-/

namespace DeepGNN.Spec

open Citation (Dict Raw)

/-- Files that number all nodes `0, …, N - 1`: the `n` rows of `allx` come first; the other nodes are for tests, or, in a dataset with
isolated nodes, between the smallest and the largest one for tests. -/
structure IndexOk (isolated : Bool) (n N : Nat) (test : List Nat) : Prop where
  nodup : test.Nodup
  range : ∀ t ∈ test, n ≤ t ∧ t < N
  le : n < N
  ends : isolated = true → n ∈ test ∧ N - 1 ∈ test
  all : isolated = false → ∀ i, n ≤ i → i < N → i ∈ test

/-- The row that describes node `i`. -/
def citationRow {α : Type} (zero : α) (allx tx : List α) (test : List Nat) (i : Nat) : α :=
  if i < allx.length then allx.getD i zero else if i ∈ test then tx.getD (test.idxOf i) zero else zero

/-- Two papers cite each other, in one direction or the other. -/
def CitesEither (graph : Dict) (a b : Nat) : Prop := ∃ e ∈ graph, (e.1 = a ∧ b ∈ e.2) ∨ (e.1 = b ∧ a ∈ e.2)

/-- Published files: consistent numbers of rows, at least one feature and one class, 500 nodes for validation among those of `allx`, and a
dictionary with the nodes in order. -/
structure PublishedOk (isolated : Bool) (N : Nat) (raw : Raw) : Prop where
  index : IndexOk isolated raw.allx.length N raw.test
  ally : raw.ally.length = raw.allx.length
  tx : raw.tx.length = raw.test.length
  ty : raw.ty.length = raw.test.length
  dim : 0 < raw.dim ∧ ∀ r ∈ raw.allx ++ raw.tx, r.length = raw.dim
  classes : 0 < raw.classes ∧ ∀ r ∈ raw.ally ++ raw.ty, r.length = raw.classes
  val : raw.labelled + 500 ≤ raw.allx.length
  keys : raw.graph.map (·.1) = List.range N
  nbrs : ∀ e ∈ raw.graph, ∀ b ∈ e.2, b < N
  size : N < 2 ^ 63

/-- The type of a node in the public split: 0 for training, 1 for validation, 2 for tests, 3 for the others. -/
def publicType (raw : Raw) (i : Nat) : Nat :=
  if i < raw.labelled then 0 else if i < raw.labelled + 500 then 1 else if i ∈ raw.test then 2 else 3

/-- A row divided by its sum; a row with sum 0 becomes a row of zeros. -/
def unitRow (row : List Rat) : List Rat := if row.sum = 0 then row.map fun _ => 0 else row.map fun x => x / row.sum

/-- A position of the largest value of a row, no later than any other one. -/
def FirstMax (row : List Int) (p : Nat) : Prop :=
  ∃ x, row[p]? = some x ∧ (∀ y ∈ row, y ≤ x) ∧ ∀ q y, row[q]? = some y → (∀ z ∈ row, z ≤ y) → p ≤ q

end DeepGNN.Spec
