/-!
Model of data-parallel training: `DDPTrainer` (src/python/deepgnn/pytorch/training/trainer_ddp.py),
`HVDTrainer` (src/python/deepgnn/pytorch/training/trainer_hvd.py) and the training steps they
inherit (src/python/deepgnn/pytorch/training/trainer.py:167-290, trainer_fp16.py:72-107).

Several worker processes train copies of one model, each on its own batches. They only meet in
collective operations: the broadcast of rank 0's parameters, the all-reduce of the gradients and,
with Horovod, `join`. Between them each worker runs at its own pace, so a run is an arbitrary
interleaving of the workers' actions.

Simplifications:
* Parameters, optimizer state (with the learning rate schedule), batches and gradients are
  abstract types. The forward and backward passes are one function of the parameters and the batch.
  Random layers (dropout) are not modelled.
* The batches of an epoch are those that the loop really trains on: those skipped after a restart
  and those after `max_steps` are left out (src/python/deepgnn/pytorch/training/trainer.py:172-187).
* All gradients of a model are reduced in one operation. It takes effect at one moment for all
  workers.
* Evaluation during training, logging and checkpoints do not touch parameters and are left out.
-/

namespace DeepGNN.DataParallel

/-- What the training step of one worker is made of: the gradient of the loss on a batch, the
average that the all-reduce computes, the gradient that a joined Horovod worker stands in with,
`clip_grad_norm_` (the identity unless `clip_grad` is set) and `optimizer.step` followed by
`lr_scheduler.step` (src/python/deepgnn/pytorch/training/trainer.py:193-203,277-287). -/
structure Learner (P O D G : Type) where
  grad : P → D → G
  average : List G → G
  zero : G
  clip : G → G
  update : P → O → G → P × O

/-- How the workers are coupled.

`join`: `HVDTrainer._train_one_epoch` calls `hvd.join()` after the batches of an epoch: the worker
waits for all others to get there and takes part in their all-reduces with zeros
(src/python/deepgnn/pytorch/training/trainer_hvd.py:66-68).

`early`: `loss.backward()` returns before the all-reduce of the gradients is over, so that
`clip_grad_norm_` runs beside it on the same tensors. This is what Horovod does without mixed
precision, where `optimizer.step` is the first to wait for the all-reduce
(src/python/deepgnn/pytorch/training/trainer.py:282-286). With mixed precision `HVDTrainer` calls
`optimizer.synchronize` before clipping (trainer_hvd.py:74-86) and DDP waits in `backward`. -/
structure Mode where
  join : Bool
  early : Bool

/-- `DDPTrainer` (src/python/deepgnn/pytorch/training/trainer_ddp.py:20-100). -/
def ddp : Mode := ⟨false, false⟩

/-- `HVDTrainer` without mixed precision (src/python/deepgnn/pytorch/training/trainer_hvd.py:14). -/
def hvd : Mode := ⟨true, true⟩

/-- `HVDTrainer` with mixed precision
(src/python/deepgnn/pytorch/training/trainer_hvd.py:74-91). -/
def hvdFp16 : Mode := ⟨true, false⟩

/-- Where a worker is in its loop: between two steps, in a step with its gradient handed to the
all-reduce, in a step with the averaged gradient, or waiting in `join`. The flag says if
`clip_grad_norm_` already ran in this step. -/
inductive Pc where
  | ready
  | sent (clipped : Bool)
  | got (clipped : Bool)
  | joined
  deriving DecidableEq

/-- One worker process: its parameters, optimizer state, the `.grad` tensors, `global_step`, the
batches it still has to train on, epoch by epoch, and its place in the loop
(src/python/deepgnn/pytorch/training/trainer.py:40-75,167-205). -/
structure Worker (P O D G : Type) where
  params : P
  opt : O
  grad : G
  steps : Nat
  todo : List (List D)
  pc : Pc
  deriving DecidableEq

variable {P O D G : Type}

/-- `_broadcast_model_state` and `hvd.broadcast_parameters`: all workers take the parameters of
rank 0 (src/python/deepgnn/pytorch/training/trainer_ddp.py:82-87, trainer_hvd.py:45-48). -/
def broadcast : List (Worker P O D G) → List (Worker P O D G)
  | [] => []
  | w :: ws => w :: ws.map fun v => { v with params := w.params }

/-- `_initialize`: every process has built the model with its own random parameters and a new
optimizer (its state is not part of a checkpoint), rank 0 may have loaded a checkpoint; then comes
the broadcast (src/python/deepgnn/pytorch/training/trainer.py:117-150,446-470,
trainer_ddp.py:63-80, trainer_hvd.py:45-63). -/
def launch (L : Learner P O D G) (own : List P) (o : O) (data : List (List (List D))) :
    List (Worker P O D G) :=
  broadcast (List.zipWith (fun p es => ⟨p, o, L.zero, 0, es, .ready⟩) own data)

/-- What can happen next: rank `r` takes a batch and runs forward and backward (`compute`), clips
its gradients (`clip`), updates its parameters (`apply`) or leaves the loop over the batches of an
epoch (`endEpoch`); the all-reduce of all workers takes place (`reduce`); all workers return from
`join` (`release`). -/
inductive Act where
  | compute (r : Nat)
  | clip (r : Nat)
  | apply (r : Nat)
  | endEpoch (r : Nat)
  | reduce
  | release
  deriving DecidableEq

/-- The worker has handed its gradient to the all-reduce and waits for it. -/
def isSent (w : Worker P O D G) : Bool := match w.pc with | .sent _ => true | _ => false

/-- The worker waits in `hvd.join` (src/python/deepgnn/pytorch/training/trainer_hvd.py:66-68). -/
def isJoined (w : Worker P O D G) : Bool := match w.pc with | .joined => true | _ => false

/-- `_increment_step`, `zero_grad`, forward and backward on the next batch; the gradients are handed
to the all-reduce (src/python/deepgnn/pytorch/training/trainer.py:193-198,280-282,402-404). -/
def compute (L : Learner P O D G) (w : Worker P O D G) : Option (Worker P O D G) :=
  match w.pc, w.todo with
  | .ready, (d :: ds) :: rest =>
    some { w with grad := L.grad w.params d, steps := w.steps + 1, todo := ds :: rest, pc := .sent false }
  | _, _ => none

/-- `torch.nn.utils.clip_grad_norm_` on the `.grad` tensors. If the all-reduce does not end within
`backward` this may come before it
(src/python/deepgnn/pytorch/training/trainer.py:283-285, trainer_fp16.py:83-86,96-100). -/
def clip (m : Mode) (L : Learner P O D G) (w : Worker P O D G) : Option (Worker P O D G) :=
  match w.pc with
  | .got false => some { w with grad := L.clip w.grad, pc := .got true }
  | .sent false => if m.early then some { w with grad := L.clip w.grad, pc := .sent true } else none
  | _ => none

/-- `optimizer.step` and `lr_scheduler.step`, with the averaged gradients and after clipping
(src/python/deepgnn/pytorch/training/trainer.py:286,201-202). -/
def apply (L : Learner P O D G) (w : Worker P O D G) : Option (Worker P O D G) :=
  match w.pc with
  | .got true =>
    let u := L.update w.params w.opt w.grad
    some { w with params := u.1, opt := u.2, pc := .ready }
  | _ => none

/-- The loop over the batches ends. With Horovod the worker then waits in `join`, otherwise it
starts its next epoch (src/python/deepgnn/pytorch/training/trainer.py:152-187,
trainer_hvd.py:66-68). -/
def endEpoch (m : Mode) (w : Worker P O D G) : Option (Worker P O D G) :=
  match w.pc, w.todo with
  | .ready, [] :: rest => some { w with todo := rest, pc := if m.join then .joined else .ready }
  | _, _ => none

/-- The result of the all-reduce is written to the `.grad` tensors of those that wait for it. -/
def receive (a : G) (w : Worker P O D G) : Worker P O D G :=
  match w.pc with
  | .sent c => { w with grad := a, pc := .got c }
  | _ => w

/-- What a worker puts into the all-reduce: its gradient, or zeros if it is in `join`. -/
def contribution (L : Learner P O D G) (w : Worker P O D G) : G :=
  if isJoined w then L.zero else w.grad

/-- The all-reduce takes place once each worker has handed in a gradient or has joined. -/
def reduce (L : Learner P O D G) (ws : List (Worker P O D G)) : Option (List (Worker P O D G)) :=
  if ws.all (fun w => isSent w || isJoined w) && ws.any isSent then
    some (ws.map (receive (L.average (ws.map (contribution L)))))
  else none

/-- `hvd.join` returns in all workers once all have called it
(src/python/deepgnn/pytorch/training/trainer_hvd.py:66-68). -/
def release (ws : List (Worker P O D G)) : Option (List (Worker P O D G)) :=
  if ws.all isJoined && ws.any isJoined then
    some (ws.map fun w => { w with pc := .ready })
  else none

/-- Rank `r` alone acts. -/
def onRank (ws : List (Worker P O D G)) (r : Nat) (f : Worker P O D G → Option (Worker P O D G)) :
    Option (List (Worker P O D G)) :=
  ws[r]?.bind fun w => (f w).map fun w' => ws.set r w'

/-- One action; `none` if it cannot happen now. -/
def step (m : Mode) (L : Learner P O D G) (ws : List (Worker P O D G)) :
    Act → Option (List (Worker P O D G))
  | .compute r => onRank ws r (compute L)
  | .clip r => onRank ws r (clip m L)
  | .apply r => onRank ws r (apply L)
  | .endEpoch r => onRank ws r (endEpoch m)
  | .reduce => reduce L ws
  | .release => release ws

/-- A schedule: one action after the other. -/
def run (m : Mode) (L : Learner P O D G) :
    List Act → List (Worker P O D G) → Option (List (Worker P O D G))
  | [], ws => some ws
  | a :: as, ws => (step m L ws a).bind (run m L as)

end DeepGNN.DataParallel
