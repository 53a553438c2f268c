import Verif.Model.Checkpoint

/-
Training loop with checkpoints (src/python/deepgnn/pytorch/training/trainer.py) of the worker with rank 0.  A process may be killed at any
point and started again; what it has not written to disk is lost.  An action is one batch or one operation on a file, since nothing else
can be seen after a crash.  Simplifications: checkpoints are loaded from the folder they are saved to and no other files are there; every
pass over the dataset yields the same batches; `save_ckpt_by_steps` and `max_saved_ckpts` are natural numbers; logging, metrics and evaluation
during training do not change the parameters and are left out.
-/

namespace DeepGNN.Trainer

open Files (Name)

/-- Arguments of the trainer; `maxSteps` is that of `_init_max_steps`. -/
structure Config where
  numEpochs : Nat
  saveSteps : Nat
  saveEpochs : Nat
  maxSteps : Int
  limit : Nat

/-- Model, optimizer and scheduler: parameters `P`, state `O` of optimizer and scheduler (trainer.py:194-203, 279-287). -/
structure Learner (P O D : Type) where
  update : P → O → D → P × O
  params : P
  opt : O

/-- A checkpoint file: epoch, step and parameters (trainer.py:446-450); no content: `torch.save` has not finished. -/
structure File (P : Type) where
  name : Name
  content : Option (Nat × Nat × P)
deriving DecidableEq

/-- Where to go on after `_save_checkpoint`: after batch `i`, or after the epoch. -/
inductive Next where
  | batch (epoch i : Nat)
  | epoch (epoch : Nat)
deriving DecidableEq

/-- Where a process is: before batch `i` of the dataset, before and during `torch.save`, in `rotate_checkpoints`, at the end. -/
inductive Pc where
  | batch (epoch i : Nat)
  | save (ckpt : Nat) (next : Next)
  | write (ckpt : Nat) (next : Next)
  | rotate (next : Next)
  | done
deriving DecidableEq

structure Proc (P O : Type) where
  params : P
  opt : O
  step : Nat
  pc : Pc
deriving DecidableEq

/-- The folder and the process, if one is running. -/
structure Sys (P O : Type) where
  files : List (File P)
  proc : Option (Proc P O)
deriving DecidableEq

/-- `_init_max_steps` (trainer.py:481-486). -/
def initMaxSteps (maxSamples worldSize batchSize : Nat) : Int :=
  if maxSamples > 0 then ((maxSamples / (worldSize * batchSize) : Nat) : Int) else -1

/-- `_should_stop` (trainer.py:405-406). -/
def shouldStop (cfg : Config) (step : Nat) : Bool := cfg.maxSteps > 0 && cfg.maxSteps ≤ step

/-- `for epoch in range(self.epochs_trained, self.args.num_epochs)` (trainer.py:173). -/
def enterEpoch (cfg : Config) (epoch : Nat) : Pc := if epoch < cfg.numEpochs then .batch epoch 0 else .done

variable {P O D : Type}

/-- The end of `_train_one_epoch` (trainer.py:188-191); `none` is a division by zero.  The step is 0, so `_save_checkpoint` does not return
early. -/
def endEpoch (cfg : Config) (p : Proc P O) (epoch : Nat) : Option (Proc P O) :=
  if cfg.saveEpochs = 0 then none
  else if epoch % cfg.saveEpochs = 0 then some { p with step := 0, pc := .save (epoch + 1) (.epoch epoch) }
  else some { p with step := 0, pc := enterEpoch cfg (epoch + 1) }

/-- After a batch (trainer.py:184-185). -/
def afterBatch (cfg : Config) (p : Proc P O) (epoch i : Nat) : Option (Proc P O) :=
  if shouldStop cfg p.step then endEpoch cfg p epoch else some { p with pc := .batch epoch (i + 1) }

/-- `_train_one_step` (trainer.py:193-209, 437-440). -/
def trainStep (cfg : Config) (L : Learner P O D) (p : Proc P O) (epoch i : Nat) (d : D) : Option (Proc P O) :=
  let r := L.update p.params p.opt d
  let p : Proc P O := { p with params := r.1, opt := r.2, step := p.step + 1 }
  if cfg.saveSteps > 0 ∧ p.step % cfg.saveSteps = 0 ∧ ¬ (cfg.maxSteps > 0 ∧ (p.step : Int) = cfg.maxSteps) then
    some { p with pc := .save epoch (.batch epoch i) }
  else afterBatch cfg p epoch i

/-- Creation of the file (trainer.py:442-453): a file of this name is truncated. -/
def create (files : List (File P)) (n : Name) : List (File P) :=
  if n ∈ files.map (·.name) then files.map fun f => if f.name = n then ⟨n, none⟩ else f else files ++ [⟨n, none⟩]

/-- The end of `torch.save`. -/
def fill (files : List (File P)) (n : Name) (c : Nat × Nat × P) : List (File P) :=
  files.map fun f => if f.name = n then ⟨n, some c⟩ else f

/-- One deletion by `rotate_checkpoints` (utils.py:149-173), oldest first. -/
def oldest (limit : Nat) (files : List (File P)) : Option Name :=
  if 0 < limit ∧ limit < files.length then (Checkpoint.sorted (files.map (·.name))).head? else none

/-- One action of the running process; `none` if it has finished or raises an exception. -/
def exec (cfg : Config) (L : Learner P O D) (batches : List D) (files : List (File P)) (p : Proc P O) : Option (Sys P O) :=
  match p.pc with
  -- `for i, data in enumerate(self.dataset)` (trainer.py:177-185)
  | .batch epoch i =>
    match batches[i]? with
    | none => (endEpoch cfg p epoch).map fun p => ⟨files, some p⟩
    | some d =>
      if i < p.step then some ⟨files, some { p with pc := .batch epoch (i + 1) }⟩
      else (trainStep cfg L p epoch i d).map fun p => ⟨files, some p⟩
  | .save ckpt next => some ⟨create files (Checkpoint.name (ckpt, p.step)), some { p with pc := .write ckpt next }⟩
  | .write ckpt next =>
    some ⟨fill files (Checkpoint.name (ckpt, p.step)) (ckpt, p.step, p.params), some { p with pc := .rotate next }⟩
  | .rotate next =>
    match oldest cfg.limit files with
    | some n => some ⟨files.filter fun f => f.name ≠ n, some p⟩
    | none =>
      match next with
      | .batch epoch i => (afterBatch cfg p epoch i).map fun p => ⟨files, some p⟩
      | .epoch epoch => some ⟨files, some { p with pc := enterEpoch cfg (epoch + 1) }⟩
  | .done => none

/-- Start of a process: `_load_checkpoint` and `_train` (trainer.py:457-479, 167-174); `none`: the file cannot be read.  The optimizer and the
scheduler are new. -/
def launch (cfg : Config) (L : Learner P O D) (files : List (File P)) : Option (Sys P O) :=
  match Checkpoint.load (files.map (·.name)) with
  | none => some ⟨files, some ⟨L.params, L.opt, 0, enterEpoch cfg 0⟩⟩
  | some n =>
    (files.find? fun f => f.name = n).bind fun f => f.content.map fun c => ⟨files, some ⟨c.2.2, L.opt, c.2.1, enterEpoch cfg c.1⟩⟩

/-- What can happen: a process starts, acts, or is killed where `killable` allows it. -/
inductive Step (cfg : Config) (L : Learner P O D) (batches : List D) (killable : Pc → Prop) : Sys P O → Sys P O → Prop
  | launch {files : List (File P)} {t : Sys P O} : launch cfg L files = some t → Step cfg L batches killable ⟨files, none⟩ t
  | act {files : List (File P)} {p : Proc P O} {t : Sys P O} : exec cfg L batches files p = some t →
      Step cfg L batches killable ⟨files, some p⟩ t
  | kill {files : List (File P)} {p : Proc P O} : killable p.pc → Step cfg L batches killable ⟨files, some p⟩ ⟨files, none⟩

/-- Any number of steps. -/
inductive Steps (cfg : Config) (L : Learner P O D) (batches : List D) (killable : Pc → Prop) : Sys P O → Sys P O → Prop
  | refl {s : Sys P O} : Steps cfg L batches killable s s
  | tail {s t u : Sys P O} : Steps cfg L batches killable s t → Step cfg L batches killable t u → Steps cfg L batches killable s u

/-- Number of batches `_evaluate` looks at (trainer.py:305-319, 335-340); while training the step does not change, otherwise it counts batches. -/
def evaluated (cfg : Config) (training : Bool) : Nat → List D → Nat
  | _, [] => 0
  | step, _ :: l =>
    let step := if training then step else step + 1
    if shouldStop cfg step then 1 else 1 + evaluated cfg training step l

end DeepGNN.Trainer
