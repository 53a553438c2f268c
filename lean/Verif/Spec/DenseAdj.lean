import Verif.Model.DenseAdj
import Verif.Spec.Gat

/-
Dense matrices of zeros and ones, and what is assumed of numbers.
-/

namespace DeepGNN.Spec

open DeepGNN.Sage DeepGNN.Gat Arith Analysis

variable {α : Type} [Analysis α]

/-- The matrix with 1 at the edges and 0 elsewhere. -/
def zeroOne (n : Nat) (edges : List (Nat × Nat)) : Mat α :=
  (List.range n).map fun i => (List.range n).map fun j => if (i, j) ∈ edges then one else zero

/-- The edges of a graph on `n` nodes: each once, by source and then by destination. -/
def EdgesOf (n : Nat) (edges : List (Nat × Nat)) : Prop :=
  edges.Pairwise (fun a b => a.1 < b.1 ∨ (a.1 = b.1 ∧ a.2 < b.2)) ∧ ∀ e ∈ edges, e.1 < n ∧ e.2 < n

/-- The laws of 0 and 1 that hold for finite numbers. -/
structure ZeroOne (α : Type) [Analysis α] : Prop where
  add_zero : ∀ x : α, add x zero = x
  zero_add : ∀ x : α, add zero x = x
  mul_zero : ∀ x : α, mul x zero = zero
  zero_mul : ∀ x : α, mul zero x = zero
  mul_one : ∀ x : α, mul x one = x
  zero_div : ∀ x : α, div zero x = zero
  one_sub_one : sub (one : α) one = zero
  one_sub_zero : sub (one : α) zero = one

/-- `big` swamps the numbers with `small`: after adding it a number is below all of them and its exponential is 0. -/
structure Swamps (big : α) (small : α → Prop) : Prop where
  small_max : ∀ x y, small x → small y → small (max x y)
  choice : ∀ x y, max (add x big) (add y big) = add x big ∨ max (add x big) (add y big) = add y big
  above : ∀ x y, small x → small y → max (add x big) y = y ∧ max y (add x big) = y
  vanishes : ∀ x y, small x → small y → exp (sub (add x big) y) = zero

/-- The logits of a head are small for all pairs of nodes. -/
def SmallLogits (small : α → Prop) (h : Head α) (feat : Mat α) : Prop :=
  ∀ x ∈ feat, ∀ y ∈ feat, small (leaky (add (add (total (List.zipWith mul (linear h.w x) h.left)) h.leftBias)
    (add (total (List.zipWith mul (linear h.w y) h.right)) h.rightBias)))

end DeepGNN.Spec
