import Verif.Model.ServerCalls

/-
Specification of a server: a service that is called by one client after the other.
-/

namespace DeepGNN.Spec

open Calls

/-- The requests one after the other: each with the reply and the status of the service, which may change its state. -/
def sequential {ρ α σ : Type} (svc : σ → Method → ρ → σ × α × Status) : σ → List (Req ρ) → List (Req ρ × α × Status)
  | _, [] => []
  | s, r :: rs => (r, (svc s r.method r.payload).2) :: sequential svc (svc s r.method r.payload).1 rs

/-- The requests clients sent in a history: method and message, in order of arrival. -/
def sentRequests {ρ : Type} (acts : List (Action ρ)) : List (Method × ρ) :=
  acts.filterMap fun a => match a with
    | .arrive m p => some (m, p)
    | _ => none

/-- The calls that report success whatever the service says. -/
def silent : List Method :=
  [.getEdgeFeatures, .getEdgeSparseFeatures, .getEdgeStringFeatures, .getMetadata, .create, .sample]

end DeepGNN.Spec
