import Verif.Model.LogInit

/-!
# What "the logger is set up" means
-/

namespace DeepGNN.Spec

open DeepGNN.LogInit

/-- Set up once and completely: one configuration, the console handler, and one Azure handler if a
connection string is there.  With another logger class nothing is configured. -/
def logReady (e : Env) (s : State) : Prop :=
  if e.plain then s.configs = 1 ∧ s.console = true ∧ s.azure = (if e.key then 1 else 0)
  else s.configs = 0 ∧ s.azure = 0

/-- The call of this thread is over. -/
def callOver (s : State) (i : Nat) : Prop := s.pcs i = .returned ∨ s.pcs i = .raised

/-- How many times a record with telemetry properties is sent to Azure: by every Azure handler, if
the filter lets it pass. -/
def timesSent (s : State) : Nat := if s.telemetry then s.azure else 0

end DeepGNN.Spec
