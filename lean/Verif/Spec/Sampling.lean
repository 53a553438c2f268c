import Verif.Spec.Stream

/-
Specification of sampling results.
-/

namespace DeepGNN.Spec

/-- `out` holds `chosen` elements of `stream` taken from distinct positions, as many as fit, followed by
the remaining elements of `rest`, a list as long as `out`. -/
def Selection {α} (stream rest out : List α) : Prop :=
  ∃ (chosen : List α) (positions : List Nat),
    out = chosen ++ rest.drop chosen.length ∧
    chosen.length = min rest.length stream.length ∧
    positions.Nodup ∧ positions.map (fun p => stream[p]?) = chosen.map some

end DeepGNN.Spec

namespace DeepGNN.Spec

/-- `out` has `count` entries, all of them elements of `nbrs` if there are any, else the default. -/
def Sampled {α} (nbrs : List α) (count : Nat) (default : α) (out : List α) : Prop :=
  out.length = count ∧ (nbrs ≠ [] → ∀ x ∈ out, x ∈ nbrs) ∧ (nbrs = [] → out = List.replicate count default)

/-- What sampling reports of a neighbour. -/
def reported (x : Nbr) : Int × Int := (x.dst, x.typ)

/-- No edge type of node `n` outside the request lies below a requested type that is followed by a
larger requested type of the node. -/
def NoGap (parts : List (List (List Rec))) (n : Int) (types : List Int) : Prop :=
  ∀ x ∈ edgeRecords parts, ∀ y ∈ edgeRecords parts, x.src = n → y.src = n →
    y.typ ∈ types → (∃ t ∈ types, x.typ < t ∧ t < y.typ) → x.typ ∈ types

instance (parts : List (List (List Rec))) (n : Int) (types : List Int) : Decidable (NoGap parts n types) := by
  unfold NoGap; infer_instance

end DeepGNN.Spec
