import Verif.Model.RemoteLastN
import Verif.Model.RemoteLookups
import Verif.Model.RemoteSampler
import Verif.Model.RemoteSampling
import Verif.Model.RemoteSparse
import Verif.Model.RemoteStrings

/-
Failed calls and repeated attempts: `AsyncCompleteRpc` and `WaitForFutures` (src/cc/lib/distributed/client.cc:28-55,
187-230), `_parse_grpc_options` and the `Retrying` object of the distributed client
(src/python/deepgnn/graph_engine/snark/client.py:44-83, 290, 1427-1440).
A method of the client sends one call to each of `n` servers; all events of the calls, those of the completion threads
and those of the caller happen in any order.  Not modelled: repetitions inside gRPC, calls that take forever, exceptions
thrown by callbacks.
-/

namespace DeepGNN.Retry

/-- A method of `GRPCClient`, called by a function of py_graph.cc.  `ρ`: replies, `β`: the arrays allocated by Python,
`σ`: the arrays and the variables on the stack, `ε`: atomic steps of callbacks. -/
structure Method (ρ σ ε β : Type) where
  /-- from the call to the first request -/
  enter : β → σ
  /-- gRPC stores the reply of a server in `replies[shard]` -/
  recv : Nat → ρ → σ → σ
  /-- the steps of the callback for a reply -/
  script : Nat → ρ → List ε
  exec : ε → σ → σ
  /-- after `WaitForFutures`; `none`: an access out of range -/
  finish : σ → Option β
  /-- the arrays when an exception leaves the method; `none`: an access out of range has happened -/
  leave : σ → Option β

/-- An `AsyncClientCall`: not answered, answered with steps of the callback left to do, or its promise is set, to a
value or to an exception. -/
inductive Call (ε : Type) where
  | pending
  | stored (rest : List ε)
  | done (ok : Bool)
deriving DecidableEq, Repr

/-- Where the Python thread is: in the C++ method, sleeping between attempts, or out of the `Retrying` object, with an
exception or a result. -/
inductive Phase (β : Type) where
  | running
  | sleeping (buffer : β)
  | raised
  | returned (result : β)
deriving DecidableEq, Repr

/-- `attempt`: number of the current attempt, from 0; `calls a i`: the call of attempt `a` to server `i`; `pos`: the
number of futures `WaitForFutures` has passed. -/
structure State (σ ε β : Type) where
  attempt : Nat
  calls : Nat → Nat → Call ε
  pos : Nat
  loc : σ
  phase : Phase β

/-- The events: server `i` answers the call of attempt `a`, or the call fails; a completion thread performs the next
step of its callback, or sets the promise after the last one; the caller looks at the next future; the caller wakes up. -/
inductive Event (ρ : Type) where
  | recv (a i : Nat) (r : ρ)
  | fail (a i : Nat)
  | step (a i : Nat)
  | wait
  | retry
deriving DecidableEq, Repr

variable {ρ σ ε β : Type}

/-- Change the state of a call. -/
def setCall (s : State σ ε β) (a i : Nat) (c : Call ε) : State σ ε β :=
  { s with calls := fun a' i' => if a' = a ∧ i' = i then c else s.calls a' i' }

/-- The stack frame of attempt `a` exists and the arrays of Python are in use. -/
def live (s : State σ ε β) (a : Nat) : Bool :=
  a == s.attempt && match s.phase with
    | .running => true
    | _ => false

/-- The answer of a server (client.cc:100, `Finish(&replies[shard], …)`): it is written to the stack frame of its
attempt, undefined behaviour (`none`) if the method was left. -/
def onRecv (m : Method ρ σ ε β) (n : Nat) (s : State σ ε β) (a i : Nat) (r : ρ) : Option (State σ ε β) :=
  if a ≤ s.attempt ∧ i < n then
    match s.calls a i with
    | .pending =>
      if live s a then some { setCall s a i (.stored (m.script i r)) with loc := m.recv i r s.loc } else none
    | _ => some s
  else some s

/-- A call fails: no reply is stored, the callback is not run, the promise gets an exception (client.cc:211-224). -/
def onFail (n : Nat) (s : State σ ε β) (a i : Nat) : State σ ε β :=
  if a ≤ s.attempt ∧ i < n then
    match s.calls a i with
    | .pending => setCall s a i (.done false)
    | _ => s
  else s

/-- A step of a callback (client.cc:199-204); callbacks refer to variables of the method. -/
def onStep (m : Method ρ σ ε β) (n : Nat) (s : State σ ε β) (a i : Nat) : Option (State σ ε β) :=
  if a ≤ s.attempt ∧ i < n then
    match s.calls a i with
    | .stored [] => some (setCall s a i (.done true))
    | .stored (e :: es) =>
      if live s a then some { setCall s a i (.stored es) with loc := m.exec e s.loc } else none
    | _ => some s
  else some s

/-- `f.get()` for the next future (client.cc:49-55): it blocks until the promise is set and throws the exception.
Then the function of py_graph.cc returns 1, `_ErrCallback` raises, and `Retrying` stops if `attempt_number >= M`
(`stop_after_attempt(M)`), else it sleeps.  After the last future the method returns. -/
def onWait (m : Method ρ σ ε β) (n M : Nat) (s : State σ ε β) : Option (State σ ε β) :=
  match s.phase with
  | .running =>
    if s.pos < n then
      match s.calls s.attempt s.pos with
      | .done true => some { s with pos := s.pos + 1 }
      | .done false =>
        if M ≤ s.attempt + 1 then some { s with phase := .raised }
        else (m.leave s.loc).map fun b => { s with phase := .sleeping b }
      | _ => some s
    else (m.finish s.loc).map fun b => { s with phase := .returned b }
  | _ => some s

/-- The next attempt, with the same arrays (client.py:566-584). -/
def onRetry (m : Method ρ σ ε β) (s : State σ ε β) : State σ ε β :=
  match s.phase with
  | .sleeping b => { s with attempt := s.attempt + 1, pos := 0, loc := m.enter b, phase := .running }
  | _ => s

/-- One event; events that cannot happen change nothing. -/
def next (m : Method ρ σ ε β) (n M : Nat) (s : State σ ε β) : Event ρ → Option (State σ ε β)
  | .recv a i r => onRecv m n s a i r
  | .fail a i => some (onFail n s a i)
  | .step a i => onStep m n s a i
  | .wait => onWait m n M s
  | .retry => some (onRetry m s)

/-- The begin of the first attempt. -/
def start (m : Method ρ σ ε β) (buffer : β) : State σ ε β :=
  { attempt := 0, calls := fun _ _ => .pending, pos := 0, loc := m.enter buffer, phase := .running }

/-- A query of Python with arrays `buffer` to `n` servers with at most `M` attempts; `none`: undefined behaviour. -/
def run (m : Method ρ σ ε β) (n M : Nat) (buffer : β) (evs : List (Event ρ)) : Option (State σ ε β) :=
  evs.foldlM (next m n M) (start m buffer)

/-! The methods. -/

/-- Methods whose callbacks are one critical section: events are those of `Ev`. -/
def ofEvents (step : σ → Ev ρ → σ) (enter : β → σ) (out : σ → Option β) (leave : σ → Option β) : Method ρ σ (Ev ρ) β where
  enter := enter
  recv := fun i r s => step s (.recv i r)
  script := fun i _ => [.run i]
  exec := fun e s => step s e
  finish := out
  leave := leave

/-- Methods whose last callback merges all replies into the arrays: `responses_left`, `replies`, the arrays. -/
structure LastMerge (ρ β : Type) where
  left : Nat
  replies : List ρ
  out : Option β

/-- One event of such a method (client.cc:566-585, 609-624, 660-712). -/
def LastMerge.step (merge : List ρ → β → Option β) (s : LastMerge ρ β) : Ev ρ → LastMerge ρ β
  | .recv i r => { s with replies := s.replies.set i r }
  | .run _ => if s.left > 1 then { s with left := s.left - 1 }
      else { s with left := s.left - 1, out := s.out.bind (merge s.replies) }

/-- Such a method; `clear` is applied to the arrays first. -/
def lastMerge (clear : β → β) (merge : List ρ → β → Option β) (empty : ρ) (n : Nat) :
    Method ρ (LastMerge ρ β) (Ev ρ) β :=
  ofEvents (LastMerge.step merge) (fun b => { left := n, replies := List.replicate n empty, out := some (clear b) })
    (·.out) (·.out)

/-- `GRPCClient::NeighborCount` (client.cc:541-590): the counts are filled with zeros first (555). -/
def countsMethod (n : Nat) : Method (List Nat) (LastMerge (List Nat) (List Nat)) (Ev (List Nat)) (List Nat) :=
  lastMerge (fun b => List.replicate b.length 0) (fun rs b => some (rs.foldl (fun out r => addCounts r out) b)) [] n

/-- `GRPCClient::FullNeighbor` for `len` nodes (client.cc:632-716) with fresh vectors and counts of zero
(py_graph.cc:713-717); neighbours are appended and counts added. -/
def neighborsMethod (len n : Nat) :
    Method NbrReply (LastMerge NbrReply (List Nbr × List Nat)) (Ev NbrReply) (List Nbr × List Nat) :=
  lastMerge (fun b => ([], List.replicate b.2.length 0))
    (fun rs b => (mergeNodes 0 len (rs.map fun r => (r, 0))).map fun y => (b.1 ++ y.1, addCounts y.2 b.2)) ⟨[], []⟩ n

/-- `GRPCClient::LastNCreated` for `len` nodes (client.cc:592-630): the arrays are overwritten (merger.h:200-247). -/
def lastNMethod (len count : Nat) (default : Slot) (n : Nat) :
    Method LastNReply (LastMerge LastNReply (List Slot)) (Ev LastNReply) (List Slot) :=
  lastMerge (fun b => b) (fun rs _ => ((List.range len).mapM (mergeLastNode count default rs)).map List.flatten) ⟨[], []⟩ n

/-- `GRPCClient::GetNodeFeature` for `len` nodes (client.cc:284-388): the array `b` is overwritten after
`WaitForFutures`. -/
def featuresMethod (len : Nat) (feats : List (Nat × Nat)) (n : Nat) :
    Method FeatReply (EachReply FeatReply (List Best) × Bytes) (Ev FeatReply) Bytes :=
  ofEvents (fun s e => (EachReply.step (mergeStamps feats.length) s.1 e, s.2))
    (fun b => ({ replies := List.replicate n ⟨[], [], []⟩, out := some (List.replicate (len * feats.length) ⟨-1, -1, -1⟩) }, b))
    (fun s => if len = 0 then none else s.1.out.bind fun idx => assemble len feats s.1.replies idx) (fun s => some s.2)

/-- `GRPCClient::GetNodeType` (client.cc:232-282): the callbacks write to the array of Python. -/
def typesMethod (default : Int) : Method TypeReply (List Int × List Bool) (Step Int) (List Int) where
  enter := fun b => (b, List.replicate b.length false)
  recv := fun _ _ s => s
  script := fun _ r => typeSteps r
  exec := fun w s => Step.run s w
  finish := fun s => some ((s.1.zip s.2).map fun x => if x.2 then x.1 else default)
  leave := fun s => some s.1

/-- `GRPCClient::GetEdgeFeature` for `len` edges with `fv` bytes each (client.cc:390-467). -/
def edgeFeaturesMethod (len fv : Nat) : Method FeatReply (Bytes × List Bool) (Step UInt8) Bytes where
  enter := fun b => (b, List.replicate len false)
  recv := fun _ _ s => s
  script := fun _ r => edgeSteps fv r
  exec := fun w s => Step.run s w
  finish := fun s => if len = 0 then none else some ((List.range len).flatMap fun i =>
    if s.2.getD i false then (s.1.drop (fv * i)).take fv else List.replicate fv 0)
  leave := fun s => some s.1

/-- `GRPCClient::SampleNodes` and `SampleEdges` after the division of the output into `calls` (client.cc:922-1030): each
callback copies its reply to a part of the arrays. -/
def sampleMethod {α : Type} (calls : List SampleCall) :
    Method (List Int × List α) (EachReply (List Int × List α) (List Int × List α)) (Ev (List Int × List α))
      (List Int × List α) :=
  ofEvents (EachReply.step (copyReply calls))
    (fun b => { replies := List.replicate calls.length ([], []), out := some b }) (·.out) (·.out)

/-- `GetStringFeature` (client.cc:107-152) for `len` features altogether and `n` servers: `response_index` is new in every
attempt, the array of dimensions is the one Python filled with zeros before the first attempt (snark/client.py:652, 819).
Simplification: a read beyond the timestamps of a reply counts as soon as the reply is stored. -/
def textsMethod (len n : Nat) :
    Method TextReply (Option (List (Nat × Nat × Int) × List Nat) × List TextReply) TextStep (List Nat × Bytes) where
  enter := fun b => (some (List.replicate len (0, 0, -1), b.1), List.replicate n ⟨[], [], []⟩)
  recv := fun i r s => ((textSteps i r).bind fun _ => s.1, s.2.set i r)
  script := fun i r => (textSteps i r).getD []
  exec := fun w s => (s.1.map fun t => TextStep.run t w, s.2)
  finish := fun s => s.1.bind fun t => (extractTexts s.2 t.1 t.2).map fun v => (t.2, v)
  leave := fun s => s.1.map fun t => (t.2, [])

/-- `GetSparseFeature` (client.cc:58-105) for `len` nodes (edges), `F` features and `n` servers; all its variables are new
in every attempt (py_graph.cc:403-405, 535-537).  Simplification as above. -/
def sparseMethod (len F n : Nat) :
    Method SparseReply (Option (List SparseCell × List Nat) × List SparseReply) SparseStep (List (Nat × List Int × Bytes)) where
  enter := fun _ => (some (List.replicate (len * F) {}, List.replicate F 0), List.replicate n ⟨[], [], [], [], [], []⟩)
  recv := fun i r s => ((sparseSteps i F r).bind fun _ => s.1, s.2.set i r)
  script := fun i r => (sparseSteps i F r).getD []
  exec := fun w s => (s.1.bind fun t => SparseStep.run t w, s.2)
  finish := fun s => s.1.bind fun t =>
    (List.range F).mapM fun j => (t.2[j]?).bind fun d =>
      ((List.range len).mapM fun i => (t.1[i * F + j]?).bind (extractSparse s.2)).map fun rows =>
        (d, rows.flatMap (·.1), rows.flatMap (·.2))
  leave := fun s => s.1.map fun _ => []

/-- `GRPCClient::UniformSampleNeighbor` (client.cc:771-881): the callbacks do nothing, the rows are overwritten after
`WaitForFutures`; the generator is seeded again in every attempt. -/
def uniformMethod (R : Draws) (withoutReplacement : Bool) (count : Nat) (default : Int × Int) (nodes : List Int) (n : Nat) :
    Method (UReply (Int × Int)) (List (UReply (Int × Int))) Unit (List (List (Int × Int))) where
  enter := fun _ => List.replicate n ⟨[], [], []⟩
  recv := fun i r s => s.set i r
  script := fun _ _ => []
  exec := fun _ s => s
  finish := fun s => (remoteUniform R withoutReplacement count default nodes s 0).map (·.1)
  leave := fun _ => some []

/-- `GRPCClient::WeightedSampleNeighbor` (client.cc:718-769): the callbacks merge the replies into the rows; the weights
start as zeros and the generator is seeded again in every attempt. -/
def weightedMethod (D : WDraws) (count : Nat) (default : Nbr) (nodes : List Int) (n : Nat) :
    Method WReply (EachReply WReply (List WCell × Nat)) (Ev WReply) (List (List Nbr)) :=
  ofEvents (EachReply.step (mergeWeighted D count default))
    (fun b => { replies := List.replicate n ⟨[], []⟩, out := some ((nodes.zip b).map fun x => ⟨x.1, 0, x.2⟩, 0) })
    (fun s => s.out.map fun st => st.1.map (·.row)) (fun s => s.out.map fun st => st.1.map (·.row))

/-! The parameters of `Retrying`. -/

/-- Parameters of the repetition (client.py:62-67). -/
structure Options where
  maxAttempts : Nat
  initialBackoff : Nat
  maxBackoff : Nat
  multiplier : Nat
deriving DecidableEq, Repr

/-- `retryPolicy` of the service config, with the two durations as text (client.py:50-61). -/
structure Policy where
  maxAttempts : Nat
  initialBackoff : List Char
  maxBackoff : List Char
  multiplier : Nat
deriving DecidableEq, Repr

/-- `datetime.strptime(text, "%Ss").second` (client.py:53-58): one or two digits and an `s`; 60 and more are no
second of a `datetime`. -/
def seconds : List Char → Option Nat
  | [a, 's'] => if a.isDigit then some (a.toNat - 48) else none
  | [a, b, 's'] =>
    if a.isDigit ∧ b.isDigit ∧ (a.toNat - 48) * 10 + (b.toNat - 48) < 60 then
      some ((a.toNat - 48) * 10 + (b.toNat - 48)) else none
  | _ => none

/-- The values used if the policy cannot be parsed (client.py:76-82). -/
def defaults : Options := ⟨5, 2, 10, 2⟩

/-- `_parse_grpc_options` (client.py:44-83): the first option with the key `grpc.service_config`, here with its JSON
decoded (`none`: without a complete retry policy). -/
def parseOptions : List (String × Option Policy) → Options
  | [] => defaults
  | (k, v) :: rest =>
    if k = "grpc.service_config" then
      match v with
      | none => defaults
      | some p =>
        match seconds p.initialBackoff, seconds p.maxBackoff with
        | some i, some x => ⟨p.maxAttempts, i, x, p.multiplier⟩
        | _, _ => defaults
    else parseOptions rest

/-- Seconds slept after attempt number `k`, from 1: `wait_exponential(multiplier, min, max=max_attempts)`
(client.py:1430-1434), `max(min, min(multiplier * 2 ** (k - 1), max))` in tenacity. -/
def sleep (o : Options) (k : Nat) : Nat := max o.initialBackoff (min (o.multiplier * 2 ^ (k - 1)) o.maxAttempts)

end DeepGNN.Retry
