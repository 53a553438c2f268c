/-
Synchronization of tasks through files (src/python/deepgnn/tf/common/dist_sync.py).  Tasks share a folder; a run is any sequence of
their actions.  Simplifications: the constructor of task 0 removes the files in one action (a later theorem only uses runs in which no
other task has started by then), tags do not contain path separators.
-/

namespace DeepGNN.DistSync

/-- `"{}.{}.{}".format(SYNC_FILE, tag, task_index)` (dist_sync.py:47, 54). -/
def fileName (tag : List Char) (i : Nat) : List Char := "sync.".toList ++ (tag ++ '.' :: Nat.toDigits 10 i)

/-- Where a task is: not constructed, between calls, or waiting for file `i` of a tag (dist_sync.py:52-57). -/
inductive Phase where
  | off
  | idle
  | waiting (tag : List Char) (i : Nat)
deriving DecidableEq

structure State where
  files : List (List Char)
  phases : List Phase
deriving DecidableEq

inductive Act where
  | start (t : Nat)
  | call (t : Nat) (tag : List Char)
  | check (t : Nat)
  | ret (t : Nat) (tag : List Char)
deriving DecidableEq

/-- `glob("sync.*")` and removal of the files found (dist_sync.py:28-41). -/
def cleanup (files : List (List Char)) : List (List Char) := files.filter fun f => !("sync.".toList).isPrefixOf f

/-- One action; `none` if the task cannot take it. -/
def exec (n : Nat) (s : State) : Act → Option State
  -- the constructor (dist_sync.py:16-26)
  | .start t =>
    if s.phases[t]? = some .off then some ⟨if t = 0 then cleanup s.files else s.files, s.phases.set t .idle⟩ else none
  -- writing the file (dist_sync.py:45-51)
  | .call t tag =>
    if s.phases[t]? = some .idle then some ⟨fileName tag t :: s.files, s.phases.set t (.waiting tag 0)⟩ else none
  -- a look at the next file; sleep if it is missing (dist_sync.py:52-57)
  | .check t =>
    match s.phases[t]? with
    | some (.waiting tag i) =>
      if i < n then
        if fileName tag i ∈ s.files then some { s with phases := s.phases.set t (.waiting tag (i + 1)) } else some s
      else none
    | _ => none
  -- the end of the loop (dist_sync.py:58)
  | .ret t tag => if s.phases[t]? = some (.waiting tag n) then some { s with phases := s.phases.set t .idle } else none

def run (n : Nat) : State → List Act → Option State
  | s, [] => some s
  | s, a :: as => (exec n s a).bind fun t => run n t as

/-- `n` tasks and a folder with some files. -/
def init (n : Nat) (files : List (List Char)) : State := ⟨files, List.replicate n .off⟩

end DeepGNN.DistSync
