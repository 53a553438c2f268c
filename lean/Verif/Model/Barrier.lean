import Verif.Model.Launch

/-
Start and end of the distributed job of examples/pytorch/aml.py: a Ray actor `ServerLock` keeps the workers together while
their servers are in use.  The state holds the fields of the actor, and for every worker where it is in `train_func` and the
calls it has sent to the actor and that were not executed yet.  The actor executes one call at a time, calls of one worker in
the order they were sent (the guarantee of Ray for an actor with one thread); `step` allows all interleavings of workers.
A worker that waits for a result has the call as the last one of its list.  Not modelled: what the worker does with the
client inside the `with` block (it may raise: `__exit__` runs as well), lost actors and workers.
-/

namespace DeepGNN.Barrier

/-- Calls of the methods of `ServerLock` by a worker (examples/pytorch/aml.py:34-56); the rank is that of the worker, except
for `get`. -/
inductive Call
  | put (address : String)
  | setLock
  | waitSet
  | get (x : Nat)
  | releaseLock
  | waitReleased
deriving DecidableEq

/-- Where a worker is in `train_func` (aml.py:87-101): before the `with` statement; ended by an exception before it; in
`__enter__`; in `get_address` with the results so far; in the block with the addresses it got; in `__exit__`; after it. -/
inductive Place
  | start
  | failed
  | entering
  | asking (got : List (Option String))
  | inside (addresses : List (Option String))
  | leaving
  | left
deriving DecidableEq

/-- A worker. -/
structure Worker where
  place : Place
  calls : List Call
deriving DecidableEq

/-- The actor (aml.py:29-32) and the workers by rank. -/
structure State where
  cache : Nat → Option String
  locks : List Nat
  workers : Nat → Worker

/-- `address = f"127.0.0.1:999{session.get_world_rank()}"` (aml.py:92). -/
def address (rank : Nat) : String := String.ofList ("127.0.0.1:999".toList ++ Nat.toDigits 10 rank)

/-- `Server(address, data_dir.name, session.get_world_rank(), 1)` (aml.py:94) on a graph with `num_partitions` set to the
number of workers (aml.py:90): partitions the server loads. -/
def partitions (size rank : Nat) : Option (List (String × Nat)) :=
  Launch.serverPartitions "data_dir" (List.range size) rank 1

/-- `ServerLock.__init__` (aml.py:29-32). -/
def init (size : Nat) : State :=
  { cache := fun _ => none, locks := List.replicate size 0, workers := fun _ => ⟨.start, []⟩ }

/-- Assignment of one element. -/
def update {α : Type} (f : Nat → α) (i : Nat) (x : α) : Nat → α := fun j => if j = i then x else f j

/-- `wait_set` (aml.py:42-44). -/
def waitSet (locks : List Nat) : Bool := locks.all fun v => v == 1

/-- `wait_released` (aml.py:46-48). -/
def waitReleased (locks : List Nat) : Bool := locks.all fun v => v == 2

/-- What can happen next. -/
inductive Event
  /-- Worker `rank` built the graph, started its server and enters the `with` block (aml.py:89-98). -/
  | enter (rank : Nat)
  /-- Building the graph or starting the server of worker `rank` raises (aml.py:89-94). -/
  | fail (rank : Nat)
  /-- The actor executes the oldest call of worker `rank`. -/
  | serve (rank : Nat)
  /-- Worker `rank` reaches the end of the block, or an exception in it. -/
  | leave (rank : Nat)
deriving DecidableEq

/-- Sets worker `rank`. -/
def State.withWorker (s : State) (rank : Nat) (w : Worker) : State := { s with workers := update s.workers rank w }

/-- Execution of the first of the calls of worker `rank` by the actor and, when the worker waits for it, what the worker does
with the result: `__enter__` (aml.py:69-75), `__exit__` (aml.py:77-81), `get_address` (aml.py:83-85). -/
def serve (size : Nat) (s : State) (rank : Nat) (place : Place) : Call → List Call → State
  | .put a, rest => { (s.withWorker rank ⟨place, rest⟩) with cache := update s.cache rank (some a) }
  | .setLock, rest => { (s.withWorker rank ⟨place, rest⟩) with locks := s.locks.set rank 1 }
  | .releaseLock, rest => { (s.withWorker rank ⟨place, rest⟩) with locks := s.locks.set rank 2 }
  | .waitSet, rest =>
    if waitSet s.locks then s.withWorker rank ⟨.asking [], rest ++ (List.range size).map .get⟩
    else s.withWorker rank ⟨place, rest ++ [.waitSet]⟩
  | .waitReleased, rest =>
    if waitReleased s.locks then s.withWorker rank ⟨.left, rest⟩
    else s.withWorker rank ⟨place, rest ++ [.waitReleased]⟩
  | .get x, rest =>
    match place with
    | .asking got =>
      let got := got ++ [s.cache x]
      s.withWorker rank ⟨if rest = [] then .inside got else .asking got, rest⟩
    | _ => s.withWorker rank ⟨place, rest⟩

/-- One event in a job of `size` workers; `none` when it cannot happen. -/
def step (size : Nat) (s : State) : Event → Option State
  | .enter i =>
    if i < size ∧ (s.workers i).place = .start then
      some (s.withWorker i ⟨.entering, [.put (address i), .setLock, .waitSet]⟩)
    else none
  | .fail i =>
    if i < size ∧ (s.workers i).place = .start then some (s.withWorker i ⟨.failed, []⟩) else none
  | .serve i =>
    if i < size then
      match (s.workers i).calls with
      | [] => none
      | c :: rest => some (serve size s i (s.workers i).place c rest)
    else none
  | .leave i =>
    if i < size then
      match (s.workers i).place with
      | .inside _ => some (s.withWorker i ⟨.leaving, [.releaseLock, .waitReleased]⟩)
      | _ => none
    else none

/-- A sequence of events. -/
def run (size : Nat) : State → List Event → Option State := List.foldlM (step size)

end DeepGNN.Barrier
