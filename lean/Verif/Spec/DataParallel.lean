import Verif.Model.DataParallel

/-!
What data-parallel training should compute: what one process would compute that takes the `k`-th
batch of every worker in its `k`-th step, averages their gradients, clips the average and updates
the one set of parameters.
-/

namespace DeepGNN.Spec

open DeepGNN.DataParallel (Learner Worker Mode)

variable {P O D G : Type}

/-- The batches that the workers take in step `k` (counted from 0), if each has one. -/
def jointBatch (batches : List (List D)) (k : Nat) : Option (List D) :=
  batches.mapM fun bs => bs[k]?

/-- Parameters and optimizer state of one process after `k` steps with joint batches. -/
def oneProcess (L : Learner P O D G) (batches : List (List D)) (p : P) (o : O) : Nat → Option (P × O)
  | 0 => some (p, o)
  | k + 1 =>
    (oneProcess L batches p o k).bind fun s =>
      (jointBatch batches k).map fun ds =>
        L.update s.1 s.2 (L.clip (L.average (ds.map (L.grad s.1))))

/-- The number of updates that a worker has made: the step that it is in does not count. -/
def updates (w : Worker P O D G) : Nat :=
  match w.pc with
  | .sent _ | .got _ => w.steps - 1
  | _ => w.steps

/-- The worker has trained all its epochs. -/
def Finished (w : Worker P O D G) : Prop := w.pc = .ready ∧ w.todo = []

/-- In every epoch all workers have the same number of batches. -/
def SameCounts (data : List (List (List D))) : Prop :=
  ∀ xs ∈ data, ∀ ys ∈ data, xs.map List.length = ys.map List.length

/-- Gradients are clipped after they are averaged, or clipping is off. -/
def ClipsTheAverage (m : Mode) (L : Learner P O D G) : Prop :=
  m.early = false ∨ ∀ g, L.clip g = g

/-- A bound for the number of actions of all workers together. -/
def actionBound (data : List (List (List D))) : Nat :=
  (data.map fun es => 6 * es.flatten.length + 2 * es.length + 1).sum

end DeepGNN.Spec
