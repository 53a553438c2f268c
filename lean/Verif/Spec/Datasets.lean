import Verif.Model.Datasets

namespace DeepGNN.Spec

/-- Everything in the batches of the `loaders` loader processes of each of the `workers` training workers. -/
def everything {α : Type} (workers loaders : Nat) (outs : Nat → Nat → List (List α)) : List α :=
  (List.range workers).flatMap fun w => (List.range loaders).flatMap fun i => (outs w i).flatten

/-- The batches divide `wanted`: all are full; without `dropLast` together they have every element of `wanted` as often as
it occurs there and at most `spare` backfill values, with `dropLast` all but at most `spare` elements. -/
def Divided {α : Type} (dropLast : Bool) (workers loaders batch spare : Nat) (backfill : α)
    (outs : Nat → Nat → List (List α)) (wanted : List α) : Prop :=
  (∀ w < workers, ∀ i < loaders, ∀ b ∈ outs w i, b.length = batch) ∧
    match dropLast with
    | false => ∃ k, k ≤ spare ∧ (everything workers loaders outs).Perm (wanted ++ List.replicate k backfill)
    | true => ∃ dropped : List α, dropped.length ≤ spare ∧ (everything workers loaders outs ++ dropped).Perm wanted

/-- A dataset is asked for batches of `batch` over `epochs` epochs; the numbers of loader processes are not given by
hand. -/
structure Asked (call : Datasets.Args) (batch epochs : Nat) (dropLast : Bool) : Prop where
  batch : call .batchSize = some (batch : Int)
  epochs : (call .epochs).getD 1 = epochs
  dropLast : decide ((call .dropLast).getD 0 ≠ 0) = dropLast
  num : call .parallelNum = none
  index : call .parallelIndex = none

/-- No shuffling, or loaders without more than one process. -/
def Ordered (call : Datasets.Args) (n : Nat) : Prop := (call .shuffle).getD 0 = 0 ∨ n ≤ 1

end DeepGNN.Spec
