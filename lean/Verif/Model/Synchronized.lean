/-
Synchronized clients and servers (src/python/deepgnn/graph_engine/backends/snark/synchronized.py).  They share a folder of lock files; a
run is any sequence of their actions.  Simplifications: every client object has its own rank, and closing happens in the process that
created the object.
-/

namespace DeepGNN.Synchronized

/-- The process of a server (synchronized.py:183-188): not yet constructed, `_ktr()` returned, lock file written. -/
inductive Child where
  | none
  | created
  | ready
  | failed
deriving DecidableEq

/-- The owner of a server (synchronized.py:190-195, 219-223): before `reset`, waiting for clients, done waiting, stop event set, lock file
removed. -/
inductive Parent where
  | idle
  | waiting
  | cleared
  | stopped
  | done
deriving DecidableEq

/-- A client (synchronized.py:62-108): before `__init__`, with the servers its threads have found, connected, after `reset`. -/
inductive Client where
  | none
  | opened (seen : List Nat)
  | connected
  | closed
deriving DecidableEq

structure State where
  serverFiles : List Nat
  clientFiles : List Nat
  children : List Child
  parents : List Parent
  clients : List Client
deriving DecidableEq

inductive Act where
  | create (i : Nat)
  | post (i : Nat)
  | ask (i : Nat)
  | look (i : Nat)
  | timeout (i : Nat)
  | stop (i : Nat)
  | unlist (i : Nat)
  | begin (r : Nat)
  | see (r i : Nat)
  | connect (r : Nat)
  | close (r : Nat)
deriving DecidableEq

/-- One action; `none` if it cannot be taken or raises an exception. -/
def exec (n : Nat) (s : State) : Act → Option State
  -- `_ktr()` in the server process (synchronized.py:185)
  | .create i => if s.children[i]? = some .none then some { s with children := s.children.set i .created } else none
  -- `_create_lock_file` (synchronized.py:26-36, 186); the process dies if there is one
  | .post i =>
    if s.children[i]? = some .created then
      if i ∈ s.serverFiles then some { s with children := s.children.set i .failed }
      else some { s with children := s.children.set i .ready, serverFiles := i :: s.serverFiles }
    else none
  -- `reset` (synchronized.py:219-221)
  | .ask i => if s.parents[i]? = some .idle then some { s with parents := s.parents.set i .waiting } else none
  -- one round of `WaitForClients` (synchronized.py:160-169)
  | .look i =>
    if s.parents[i]? = some .waiting then
      if s.clientFiles = [] then some { s with parents := s.parents.set i .cleared } else some s
    else none
  -- the wait timed out (synchronized.py:179-181)
  | .timeout i => if s.parents[i]? = some .waiting then some { s with parents := s.parents.set i .cleared } else none
  -- `_stop_event.set()` (synchronized.py:193)
  | .stop i => if s.parents[i]? = some .cleared then some { s with parents := s.parents.set i .stopped } else none
  -- `_delete_lock_file` (synchronized.py:222-223); an exception if there is none
  | .unlist i =>
    if s.parents[i]? = some .stopped ∧ i ∈ s.serverFiles then
      some { s with parents := s.parents.set i .done, serverFiles := s.serverFiles.erase i }
    else none
  -- `SynchronizedClient.__init__` (synchronized.py:62-81); an exception if there is a file
  | .begin r =>
    if s.clients[r]? = some .none ∧ r ∉ s.clientFiles then
      some { s with clients := s.clients.set r (.opened []), clientFiles := r :: s.clientFiles }
    else none
  -- the thread of `WaitForServer(i)` finds the file (synchronized.py:118-123)
  | .see r i =>
    match s.clients[r]? with
    | some (.opened seen) =>
      if i < n ∧ i ∈ s.serverFiles then some { s with clients := s.clients.set r (.opened (i :: seen)) } else none
    | _ => none
  -- every future returned: `self._client = self._ktr()` (synchronized.py:92-93, 125-141)
  | .connect r =>
    match s.clients[r]? with
    | some (.opened seen) =>
      if (List.range n).all (fun i => seen.contains i) then some { s with clients := s.clients.set r .connected } else none
    | _ => none
  -- `reset`, by the user or after a timeout (synchronized.py:94-99, 102-108)
  | .close r =>
    match s.clients[r]? with
    | some (.opened _) => if r ∈ s.clientFiles then some { s with clients := s.clients.set r .closed, clientFiles := s.clientFiles.erase r } else none
    | some .connected => if r ∈ s.clientFiles then some { s with clients := s.clients.set r .closed, clientFiles := s.clientFiles.erase r } else none
    | _ => none

def run (n : Nat) : State → List Act → Option State
  | s, [] => some s
  | s, a :: as => (exec n s a).bind fun t => run n t as

/-- `n` servers, `m` clients and a folder with the given server files. -/
def init (n m : Nat) (files : List Nat) : State :=
  ⟨files, [], List.replicate n .none, List.replicate n .idle, List.replicate m .none⟩

end DeepGNN.Synchronized
