import Verif.Model.DataParallel

/-!
Training with Horovod and TensorFlow: `HorovodTFTrainer` (src/python/deepgnn/tf/common/horovod_trainer.py), which runs graphs, and
`HorovodEagerTrainer` (src/python/deepgnn/tf/common/tf2_horovod_trainer.py).

Parameters, optimizer state, batches and gradients are abstract as in `Model/DataParallel.lean`; gradients are not clipped.  A run is any
interleaving of the actions of the workers; collective operations take effect at one moment for all of them.  Not modelled: the files by
which workers wait for each other at the end of a session (`Model/DistSync.lean`), summaries, evaluation and inference.
-/

namespace DeepGNN.HorovodTf

open DataParallel (Learner Worker Mode Act)

variable {P O D G : Type}

/-- What a training step does: no clipping (horovod_trainer.py:84-93, src/python/deepgnn/tf/common/trainer.py:148-189). -/
def unclipped (L : Learner P O D G) : Learner P O D G := { L with clip := id }

/-- A step of a session waits for the averages of the gradients (`hvd.DistributedOptimizer`, horovod_trainer.py:84) and there is no
`hvd.join`. -/
def graphMode : Mode := ⟨false, false⟩

/-- `hvd.BroadcastGlobalVariablesHook(0)` (horovod_trainer.py:127): all variables, also those of the optimizer. -/
def broadcastVariables : List (Worker P O D G) → List (Worker P O D G)
  | [] => []
  | w :: ws => w :: ws.map fun v => { v with params := w.params, opt := w.opt }

/-- The sessions of the workers when they start: each has its own variables, rank 0 may have restored them (horovod_trainer.py:60-62), then
comes the broadcast.  All epochs are one dataset (`repeat`, src/python/deepgnn/tf/common/trainer.py:455-456). -/
def graphLaunch (L : Learner P O D G) (own : List (P × O)) (data : List (List D)) : List (Worker P O D G) :=
  broadcastVariables (List.zipWith (fun s ds => ⟨s.1, s.2, L.zero, 0, [ds], .ready⟩) own data)

/-- A worker in `model.fit` (tf2_horovod_trainer.py:96-102): its variables, the batches left, epoch by epoch, and where it is with the
broadcast of variables: before its first batch, waiting for the others after it, or past it. -/
inductive Cast where
  | first
  | waiting
  | done
deriving DecidableEq

structure Eager (P O D : Type) where
  params : P
  opt : O
  todo : List (List D)
  cast : Cast
deriving DecidableEq

/-- The job: its workers and the checkpoint file. -/
structure Job (P O D : Type) where
  workers : List (Eager P O D)
  saved : Option (P × O)
deriving DecidableEq

/-- Every worker has built its own model (tf2_horovod_trainer.py:73-78). -/
def eagerLaunch (own : List (P × O)) (data : List (List (List D))) : Job P O D :=
  ⟨List.zipWith (fun s es => ⟨s.1, s.2, es, .first⟩) own data, none⟩

/-- `train_step` of Keras with the optimizer that was given to `compile` (tf2_horovod_trainer.py:78): the worker updates its own variables
with the gradient of its own batch.  After its first batch it waits for the broadcast (`BroadcastGlobalVariablesCallback.on_batch_end`,
tf2_horovod_trainer.py:87). -/
def trainBatch (L : Learner P O D G) (w : Eager P O D) : Option (Eager P O D) :=
  match w.cast, w.todo with
  | .waiting, _ => none
  | c, (d :: ds) :: rest =>
    let u := L.update w.params w.opt (L.grad w.params d)
    some ⟨u.1, u.2, ds :: rest, if c = .first then .waiting else .done⟩
  | _, _ => none

/-- The end of an epoch. -/
def leaveEpoch (w : Eager P O D) : Option (Eager P O D) :=
  match w.cast, w.todo with
  | .waiting, _ => none
  | _, [] :: rest => some { w with todo := rest }
  | _, _ => none

inductive Move where
  | batch (r : Nat)
  | broadcast
  | epoch (r : Nat)
deriving DecidableEq

/-- One action; `none` if it cannot happen now.  At the end of an epoch rank 0 saves its variables (`ModelCheckpoint`,
tf2_horovod_trainer.py:91-95). -/
def move (L : Learner P O D G) (j : Job P O D) : Move → Option (Job P O D)
  | .batch r => (j.workers[r]?).bind fun w => (trainBatch L w).map fun w' => { j with workers := j.workers.set r w' }
  | .broadcast =>
    match j.workers with
    | [] => none
    | w :: ws =>
      if (w :: ws).all (fun v => v.cast = .waiting) then
        some { j with workers := (w :: ws).map fun v => { v with params := w.params, opt := w.opt, cast := .done } }
      else none
  | .epoch r => (j.workers[r]?).bind fun w => (leaveEpoch w).map fun w' =>
      { workers := j.workers.set r w', saved := if r = 0 then some (w'.params, w'.opt) else j.saved }

def moves (L : Learner P O D G) : List Move → Job P O D → Option (Job P O D)
  | [], j => some j
  | a :: as, j => (move L j a).bind (moves L as)

end DeepGNN.HorovodTf
