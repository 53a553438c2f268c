import Verif.Model.Retry

/-
Failed calls and repeated attempts.
-/

namespace DeepGNN.Spec

open Retry (Event)

/-- Whenever server `i` answers, it answers `rs[i]`. -/
def Serves {ρ : Type} (rs : List ρ) (evs : List (Event ρ)) : Prop := ∀ a i r, Event.recv a i r ∈ evs → rs[i]? = some r

/-- A call of attempt `a` to one of `n` servers failed. -/
def AttemptFailed {ρ : Type} (n : Nat) (evs : List (Event ρ)) (a : Nat) : Prop := ∃ i, i < n ∧ Event.fail a i ∈ evs

/-- All `n` servers answered in attempt `a`. -/
def AttemptAnswered {ρ : Type} (n : Nat) (evs : List (Event ρ)) (a : Nat) : Prop :=
  ∀ i, i < n → ∃ r, Event.recv a i r ∈ evs

/-- After the first failure of an attempt, no server answers a call of this attempt, and no callback of it runs. -/
def NothingAfterFailure {ρ : Type} (evs : List (Event ρ)) : Prop :=
  ∀ before after, evs = before ++ after → ∀ a j, Event.fail a j ∈ before →
    ∀ i, Event.step a i ∉ after ∧ ∀ r, Event.recv a i r ∉ after

end DeepGNN.Spec
