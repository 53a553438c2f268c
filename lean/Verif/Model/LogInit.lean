/-!
# Setting up the logger from several threads

Model of `src/python/deepgnn/logging_utils.py`, lines 25-27 (module state) and 115-158
(`add_azure_handler`, `setup_default_logging_config`, `get_logger`).

Every read or write of a module variable, every call into `logging` and every operation on the lock
is one step; a schedule is a list of thread numbers.  Simplifications: one call per thread;
`logging.config.dictConfig` and `Logger.addHandler` take `logging`'s own lock and count as one step
each; the logger object is the one `logging` keeps for the name, so only whether `_logger` has been
assigned is kept; other loggers and the formatters are left out.
-/

namespace DeepGNN.LogInit

/-- What a thread calls: `get_logger()` (lines 139-158) or
`setup_default_logging_config(enable_telemetry)` (lines 124-136). -/
inductive Call where
  | get
  | setup (telemetry : Bool)
  deriving DecidableEq, Repr

/-- Where a thread stands.  The names say what the next step does. -/
inductive Pc where
  /-- line 144: the first look at `_logger` -/
  | look
  /-- line 147: `_logger_lock.acquire()` -/
  | acquire
  /-- line 150: the second look at `_logger` -/
  | lookAgain
  /-- line 152: the look at `_init` -/
  | lookInit
  /-- lines 127-129: logger class and `ENABLE_TELEMETRY = enable_telemetry` -/
  | switch
  /-- line 130: `logging.config.dictConfig(LOGGING)` -/
  | configure
  /-- lines 131-134: `add_azure_handler` -/
  | attach
  /-- line 136: `_init = True` -/
  | mark
  /-- line 154: `_logger = logging.getLogger(...)` -/
  | publish
  /-- lines 157-158: `_logger_lock.release()`, after success or with an exception on its way -/
  | release (ok : Bool)
  /-- the call returned -/
  | returned
  /-- the call raised -/
  | raised
  deriving DecidableEq, Repr

/-- What the steps depend on but do not change. -/
structure Env where
  /-- `logging.getLoggerClass() is logging.Logger` (line 127) -/
  plain : Bool
  /-- a connection string for Azure is configured, so `DeepGNNAzureLogHandler()` does not raise
  `ValueError` (lines 118, 133) -/
  key : Bool
  /-- `dictConfig` raises when called by this thread (line 130) -/
  breaks : Nat → Bool

/-- The module variables (lines 25-27 and 44), the `logging` state and the place of every thread. -/
structure State where
  /-- `_logger` has been assigned -/
  logger : Bool
  /-- `_init` -/
  init : Bool
  /-- `AzureAppInsightFilter.ENABLE_TELEMETRY` -/
  telemetry : Bool
  /-- the console handler is attached to the logger -/
  console : Bool
  /-- how many Azure handlers are attached to the logger: each sends every record once -/
  azure : Nat
  /-- how many times `dictConfig` completed -/
  configs : Nat
  /-- the thread holding `_logger_lock` -/
  lock : Option Nat
  /-- where every thread stands -/
  pcs : Nat → Pc

/-- Where a call starts (lines 139-144 and 124-127). -/
def Call.start : Call → Pc
  | .get => .look
  | .setup _ => .switch

/-- The argument `setup_default_logging_config` runs with (lines 124 and 153). -/
def Call.telemetry : Call → Bool
  | .get => false
  | .setup t => t

/-- The state after import (lines 25-27, 44), all calls about to start. -/
def start (calls : List Call) : State :=
  ⟨false, false, false, false, 0, 0, none, fun i => (calls[i]?.map Call.start).getD .returned⟩

/-- Thread `i` moves to `p`. -/
def State.goto (s : State) (i : Nat) (p : Pc) : State :=
  { s with pcs := fun j => if j = i then p else s.pcs j }

/-- One step of thread `i`; `none` if it cannot move.  (Lines 115-158.) -/
def step (e : Env) (calls : List Call) (s : State) (i : Nat) : Option State :=
  match calls[i]? with
  | none => none
  | some c =>
    match s.pcs i with
    | .look => some (if s.logger then s.goto i .returned else s.goto i .acquire)
    | .acquire =>
      match s.lock with
      | none => some { s.goto i .lookAgain with lock := some i }
      | some _ => none
    | .lookAgain => some (if s.logger then s.goto i (.release true) else s.goto i .lookInit)
    | .lookInit => some (if s.init then s.goto i .publish else s.goto i .switch)
    | .switch =>
      some (if e.plain then { s.goto i .configure with telemetry := c.telemetry }
        else s.goto i .mark)
    | .configure =>
      some (if e.breaks i then
          match c with
          | .get => s.goto i (.release false)
          | .setup _ => s.goto i .raised
        else { s.goto i .attach with configs := s.configs + 1, console := true, azure := 0 })
    | .attach =>
      some (if e.key then { s.goto i .mark with azure := s.azure + 1 }
        else { s.goto i .mark with telemetry := false })
    | .mark =>
      some (match c with
        | .get => { s.goto i .publish with init := true }
        | .setup _ => { s.goto i .returned with init := true })
    | .publish => some { s.goto i (.release true) with logger := true }
    | .release ok =>
      some { s.goto i (if ok then .returned else .raised) with lock := none }
    | .returned => none
    | .raised => none

/-- The steps of a schedule, one after the other. -/
def run (e : Env) (calls : List Call) (s : State) : List Nat → Option State
  | [] => some s
  | i :: rest => (step e calls s i).bind (fun t => run e calls t rest)

end DeepGNN.LogInit
