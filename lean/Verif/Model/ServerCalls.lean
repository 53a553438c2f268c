/-
Handling of calls by the gRPC server (src/cc/lib/distributed/call_data.cc, call_data.h, server.cc:120-238).
The gRPC runtime is the environment: it hands arrived requests to calls registered for their method, reports
finished replies and, at shutdown, fails the calls that still wait.  Threads and the runtime act in any order.
-/

namespace DeepGNN.Calls

/-- The calls of service.proto:8-35. -/
inductive Method where
  | getNeighbors | getNeighborCounts | getLastNCreatedNeighbors | weightedSampleNeighbors
  | uniformSampleNeighbors | getNodeFeatures | getEdgeFeatures | getNodeSparseFeatures
  | getEdgeSparseFeatures | getNodeStringFeatures | getEdgeStringFeatures | getMetadata | getNodeTypes
  | create | sample
deriving DecidableEq, Repr

/-- The call objects created for every queue, in this order (server.cc:170-190). -/
def methods : List Method :=
  [.getNeighbors, .getNeighborCounts, .getLastNCreatedNeighbors, .weightedSampleNeighbors,
   .uniformSampleNeighbors, .getNodeFeatures, .getEdgeFeatures, .getNodeSparseFeatures,
   .getEdgeSparseFeatures, .getNodeStringFeatures, .getEdgeStringFeatures, .getMetadata, .getNodeTypes,
   .create, .sample]

/-- Whether the status of the service is sent to the client; the others always send `OK`
(call_data.cc:38-39, 65-67, 93-95, 120-122, 149-151, 176-178, 205-207, 236-238, 264-266, 292-294, 320-322,
349-351, 378-380, 407-409, 436-438). -/
def forwards : Method → Bool
  | .getEdgeFeatures | .getEdgeSparseFeatures | .getEdgeStringFeatures | .getMetadata | .create | .sample => false
  | _ => true

/-- A gRPC status code, 0 is `OK`. -/
abbrev Status := Nat

/-- A request: its number in the order of arrival, the method and the message. -/
structure Req (ρ : Type) where
  id : Nat
  method : Method
  payload : ρ
deriving DecidableEq, Repr

/-- `CallStatus` (call_data.h:33-38). -/
inductive CallStatus where
  | create | process | finish
deriving DecidableEq, Repr

/-- A call object (call_data.h:20-40): its queue and method, `m_status`, and `m_request` once it is filled in. -/
structure Call (ρ : Type) where
  queue : Nat
  method : Method
  status : CallStatus
  request : Option (Req ρ)
deriving DecidableEq, Repr

/-- The server and the runtime.  Call objects are named by numbers that are not used again. -/
structure State (ρ α σ : Type) where
  /-- call objects that are allocated -/
  heap : Nat → Option (Call ρ) := fun _ => none
  next : Nat := 0
  /-- call objects registered for a request by `RequestX(…, this)` -/
  registered : List Nat := []
  /-- events of the completion queues: queue, tag, `ok` -/
  events : List (Nat × Nat × Bool) := []
  /-- threads (named by their queue) inside of a service call, with the call object -/
  running : List (Nat × Nat) := []
  /-- call objects whose reply was handed to `Finish(…, this)` and is being sent -/
  finishing : List Nat := []
  /-- requests that arrived and wait for a call object -/
  pending : List (Req ρ) := []
  /-- all requests that arrived so far -/
  arrived : List (Req ρ) := []
  /-- state of the service -/
  svc : σ
  /-- replies so far with the status sent, in the order of the service calls -/
  replies : List (Req ρ × α × Status) := []
  shutdown : Bool := false
  /-- `queue->Shutdown()` was called -/
  closed : Bool := false
  /-- threads that ended -/
  exited : List Nat := []
  /-- a freed object was used, or a call registered on a queue that was shut down -/
  bad : Bool := false

variable {ρ α σ : Type}

/-- Function update. -/
def upd {β} (f : Nat → β) (i : Nat) (v : β) : Nat → β := fun x => if x = i then v else f x

/-- `Proceed` with status `CREATE` (call_data.cc:28-32): wait for a request. -/
def proceedCreate (s : State ρ α σ) (h : Nat) (c : Call ρ) : State ρ α σ :=
  if s.closed then { s with bad := true }
  else { s with heap := upd s.heap h (some { c with status := .process }), registered := s.registered ++ [h] }

/-- `new XCallData(service, cq, service_impl)` (call_data.cc:19-24). -/
def construct (s : State ρ α σ) (queue : Nat) (method : Method) : State ρ α σ :=
  let c : Call ρ := ⟨queue, method, .create, none⟩
  proceedCreate { s with heap := upd s.heap s.next (some c), next := s.next + 1 } s.next c

/-- `delete` of a call object. -/
def delete (s : State ρ α σ) (h : Nat) : State ρ α σ :=
  match s.heap h with
  | none => { s with bad := true }
  | some _ => { s with heap := upd s.heap h none }

/-- `Proceed` up to the service call (call_data.cc:26-46). -/
def proceed (s : State ρ α σ) (h : Nat) : State ρ α σ :=
  match s.heap h with
  | none => { s with bad := true }
  | some c =>
    match c.status with
    | .create => proceedCreate s h c
    | .process =>
      let s := construct s c.queue c.method
      { s with running := s.running ++ [(c.queue, h)] }
    | .finish => delete s h

/-- The body of the loop in `GRPCServer::HandleRpcs` (server.cc:227-235). -/
def handle (s : State ρ α σ) (h : Nat) (ok : Bool) : State ρ α σ :=
  if ok then proceed s h else delete s h

/-- The rest of `Proceed`: the service call and `Finish` (call_data.cc:37-40).  `svc` is the service. -/
def finishCall (svc : σ → Method → ρ → σ × α × Status) (s : State ρ α σ) (h : Nat) : State ρ α σ :=
  match s.heap h with
  | none => { s with bad := true }
  | some c =>
    match c.request with
    | none => { s with bad := true }
    | some r =>
      let x := svc s.svc c.method r.payload
      { s with
        heap := upd s.heap h (some { c with status := .finish })
        finishing := s.finishing ++ [h]
        svc := x.1
        replies := s.replies ++ [(r, x.2.1, if forwards c.method then x.2.2 else 0)] }

/-- Actions of the threads and of the runtime. -/
inductive Action (ρ : Type) where
  /-- a request arrives -/
  | arrive (m : Method) (payload : ρ)
  /-- the runtime hands the waiting request number `i` to the call object `h` -/
  | deliver (h i : Nat)
  /-- the thread of a queue takes an event -/
  | take (e : Nat × Nat × Bool)
  /-- the thread of queue `q` completes the service call for `h` -/
  | serve (q h : Nat)
  /-- the reply was sent (`ok`) or could not be sent -/
  | sent (h : Nat) (ok : Bool)
  /-- the destructor of the server begins (server.cc:201-204) -/
  | shutdown
  /-- the runtime fails a waiting call at shutdown -/
  | cancel (h : Nat)
  /-- `m_server->Shutdown()` returns and the queues are shut down (server.cc:204-208) -/
  | close
  /-- the thread of queue `q` leaves its loop: nothing is left in the queue (server.cc:220-225) -/
  | exit (q : Nat)

/-- One action; `none` if it is not possible in that state.  `m_server->Shutdown()` returns when no call waits,
is being served or sent. -/
def step (svc : σ → Method → ρ → σ × α × Status) (Q : Nat) (s : State ρ α σ) : Action ρ → Option (State ρ α σ)
  | .arrive m p =>
    if s.shutdown then none
    else
      let r : Req ρ := ⟨s.arrived.length, m, p⟩
      some { s with pending := s.pending ++ [r], arrived := s.arrived ++ [r] }
  | .deliver h i =>
    match s.heap h, s.pending[i]? with
    | some c, some r =>
      if s.shutdown = false ∧ h ∈ s.registered ∧ c.method = r.method then
        some { s with
          pending := s.pending.eraseIdx i
          registered := s.registered.erase h
          heap := upd s.heap h (some { c with request := some r })
          events := s.events ++ [(c.queue, h, true)] }
      else none
    | _, _ => none
  | .take e =>
    if e ∈ s.events ∧ (∀ x ∈ s.running, x.1 ≠ e.1) ∧ e.1 ∉ s.exited then
      some (handle { s with events := s.events.erase e } e.2.1 e.2.2)
    else none
  | .serve q h =>
    if (q, h) ∈ s.running then
      some (finishCall svc { s with running := s.running.erase (q, h) } h)
    else none
  | .sent h ok =>
    match s.heap h with
    | none => none
    | some c =>
      if h ∈ s.finishing then
        some { s with finishing := s.finishing.erase h, events := s.events ++ [(c.queue, h, ok)] }
      else none
  | .shutdown => if s.shutdown then none else some { s with shutdown := true }
  | .cancel h =>
    match s.heap h with
    | none => none
    | some c =>
      if s.shutdown ∧ h ∈ s.registered then
        some { s with registered := s.registered.erase h, events := s.events ++ [(c.queue, h, false)] }
      else none
  | .close =>
    if s.shutdown ∧ s.closed = false ∧ s.registered = [] ∧ s.running = [] ∧ s.finishing = [] ∧
        ∀ e ∈ s.events, e.2.2 = true → (s.heap e.2.1).map (·.status) ≠ some .process then
      some { s with closed := true }
    else none
  | .exit q =>
    if q < Q ∧ s.closed ∧ q ∉ s.exited ∧ (∀ e ∈ s.events, e.1 ≠ q) ∧ ∀ x ∈ s.running, x.1 ≠ q then
      some { s with exited := s.exited ++ [q] }
    else none

/-- The server after its constructor (server.cc:160-196): the call objects of `Q` queues. -/
def init (σ0 : σ) (Q : Nat) : State ρ α σ :=
  ((List.range Q).flatMap fun q => methods.map fun m => (q, m)).foldl (fun s x => construct s x.1 x.2) { svc := σ0 }

/-- A sequence of actions. -/
def run (svc : σ → Method → ρ → σ × α × Status) (Q : Nat) (s : State ρ α σ) (acts : List (Action ρ)) :
    Option (State ρ α σ) :=
  acts.foldlM (step svc Q) s

end DeepGNN.Calls
