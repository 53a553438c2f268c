import Verif.Model.DistSync

/-
Training with parameter servers: src/python/deepgnn/tf/common/{trainer,ps_trainer,hooks,utils}.py over the synchronization of
`Model/DistSync.lean`.

Each worker has a list of operations.  A run is any sequence of their actions.  The parameters on the servers are modelled by the list of
updates applied to them, each by worker, call of `train` and step; updates are applied one at a time.  A checkpoint is the list of
updates at the time it is saved, the global step is the length of this list.  `MonitoredTrainingSession` calls the `end` functions of the
chief's own hooks first, then those of all hooks, in their order.
-/

namespace DeepGNN.TfTrainer

open DeepGNN

/-- Operations of a worker: the constructor of `DistributedSync`, a step of training or of evaluation and inference, `sync(tag)` and
`CheckpointSaverHook.end`. -/
inductive Op where
  | construct
  | step (call j : Nat)
  | look
  | sync (tag : List Char)
  | save
deriving DecidableEq

def session : List Char := ['s', 'e', 's', 's', 'i', 'o', 'n']
def final : List Char := ['f', 'i', 'n', 'a', 'l']

/-- `ChiefCheckpointSaverHook.end` (hooks.py:40-43): of the chief only (utils.py:85-107). -/
def chiefEnd : List Op := [.sync session, .save]

/-- `SessionExitHook.end` (hooks.py:62-64, utils.py:79-80). -/
def exitEnd : List Op := [.sync session]

/-- `train` of `k` steps (trainer.py:85-186): the session runs until the dataset ends, then its hooks end, then all workers wait. -/
def train (call t k : Nat) : List Op :=
  (List.range k).map (.step call) ++ (if t = 0 then chiefEnd else []) ++ exitEnd ++ [.sync final]

/-- `evaluate` and `inference` of `k` steps (trainer.py:188-375): no hook of the chief. -/
def evaluate (k : Nat) : List Op := List.replicate k .look ++ exitEnd ++ [.sync final]

structure State where
  sync : DistSync.State
  todo : List (List Op)
  updates : List (Nat × Nat × Nat)
  saved : Option (List (Nat × Nat × Nat))
deriving DecidableEq

/-- Actions: the next operation of a worker, a look at a file while it waits, the end of waiting; a checkpoint saved by the chief from
time to time while its session is open (`save_secs`, utils.py:101-105). -/
inductive Act where
  | op (t : Nat)
  | check (t : Nat)
  | ret (t : Nat)
  | timer
deriving DecidableEq

/-- One action of `n` workers; `none` if it is not possible. -/
def exec (n : Nat) (s : State) : Act → Option State
  | .op t =>
    match s.todo[t]? with
    -- ps_trainer.py:75-77
    | some (.construct :: p) => (DistSync.exec n s.sync (.start t)).map fun d => { s with sync := d, todo := s.todo.set t p }
    -- trainer.py:178-182
    | some (.step c j :: p) => some { s with updates := (t, c, j) :: s.updates, todo := s.todo.set t p }
    | some (.look :: p) => some { s with todo := s.todo.set t p }
    | some (.sync tag :: _) => (DistSync.exec n s.sync (.call t tag)).map fun d => { s with sync := d }
    -- `CheckpointSaverHook.end` saves unless the last checkpoint is of the same global step
    | some (.save :: p) =>
      if s.saved.map List.length = some s.updates.length then some { s with todo := s.todo.set t p }
      else some { s with saved := some s.updates, todo := s.todo.set t p }
    | _ => none
  | .check t => (DistSync.exec n s.sync (.check t)).map fun d => { s with sync := d }
  | .ret t =>
    match s.todo[t]? with
    | some (.sync tag :: p) => (DistSync.exec n s.sync (.ret t tag)).map fun d => { s with sync := d, todo := s.todo.set t p }
    | _ => none
  | .timer =>
    match s.todo[0]? with
    | some (Op.step _ _ :: _) => some { s with saved := some s.updates }
    | _ => none

def run (n : Nat) : State → List Act → Option State
  | s, [] => some s
  | s, a :: as => (exec n s a).bind fun t => run n t as

/-- Workers with the given operations after their construction, in a folder with some files. -/
def init (n : Nat) (files : List (List Char)) (job : Nat → List Op) : State :=
  ⟨DistSync.init n files, (List.range n).map fun t => .construct :: job t, [], none⟩

end DeepGNN.TfTrainer
