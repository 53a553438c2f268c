import Verif.Model.ConvertRun

namespace DeepGNN.Spec

open ConvertRun

/-- The lines for the partition of converter `i`: those the dispatcher assigns to it, in the order of the input. -/
def linesFor {α : Type} (d : Dispatcher α) (lines : List α) (i : Nat) : List α :=
  (lines.zipIdx.filter fun x => decide (d.target x.2 x.1 = i)).map (·.1)

/-- Everything is converted: every partition holds its lines, the files of all partitions with lines are closed, and each
of them has reported once. -/
structure Converted {α : Type} (d : Dispatcher α) (lines : List α) (s : St α) : Prop where
  written : ∀ i < d.procs, (s.workers i).written = linesFor d lines i
  once : ((List.range d.procs).flatMap fun i => (s.workers i).written).Perm lines
  closed : ∀ i < d.procs, linesFor d lines i ≠ [] → (s.workers i).phase = .reported
  reports : s.got.Nodup ∧ ∀ i, i ∈ s.got ↔ i < d.procs ∧ (d.all = true ∨ linesFor d lines i ≠ [])

/-- `n` steps lead to the state. -/
inductive RunOf {α : Type} (d : Dispatcher α) (cap : Nat) (ok : α → Bool) (lines : List α) : Nat → St α → Prop
  | init : RunOf d cap ok lines 0 { input := lines }
  | step {n : Nat} {s s' : St α} : RunOf d cap ok lines n s → Step d cap ok s s' → RunOf d cap ok lines (n + 1) s'
  | crash {n : Nat} {s s' : St α} : RunOf d cap ok lines n s → Crash d s s' → RunOf d cap ok lines (n + 1) s'

end DeepGNN.Spec
