import Verif.Model.Samplers

namespace DeepGNN.Spec

open Samplers

/-- Batches `outs w` of the data-parallel workers `w < num`: all are full, together they have every element of `wanted`
as often as it occurs there, and fewer than `batch` times the backfill value. -/
def AllOnce {α : Type} (num batch : Nat) (backfill : α) (outs : Nat → List (List α)) (wanted : List α) : Prop :=
  (∀ w < num, ∀ b ∈ outs w, b.length = batch) ∧
    ∃ k, k < batch ∧ ((List.range num).flatMap fun w => (outs w).flatten).Perm (wanted ++ List.replicate k backfill)

/-- Batches that miss fewer than `batch` elements of `wanted`, without backfill. -/
def AllButLast {α : Type} (num batch : Nat) (outs : Nat → List (List α)) (wanted : List α) : Prop :=
  (∀ w < num, ∀ b ∈ outs w, b.length = batch) ∧
    ∃ dropped : List α, dropped.length < batch ∧
      (((List.range num).flatMap fun w => (outs w).flatten) ++ dropped).Perm wanted

end DeepGNN.Spec
