import Verif.Model.Remote
import Verif.Spec.Stream

/-
Arrival orders of replies.
-/

namespace DeepGNN.Spec

/-- `evs` is a possible order of events when server `i` answers `rs[i]`: every reply is stored once and
every callback is run once, after its reply was stored. -/
structure Schedule {ρ : Type} (rs : List ρ) (evs : List (Ev ρ)) : Prop where
  once : evs.Perm (rs.zipIdx.flatMap fun x => [Ev.recv x.2 x.1, Ev.run x.2])
  order : ∀ x ∈ rs.zipIdx, [Ev.recv x.2 x.1, Ev.run x.2].Sublist evs

/-- The reply of a server whose answer for node number `k` is `l[k]`. -/
def replyOf (l : List (List Nbr)) : NbrReply := { counts := l.map List.length, nbrs := l.flatten }

/-- The answers of all servers for node number `k`, server after server. -/
def answersFor (answers : List (List (List Nbr))) (k : Nat) : List Nbr := answers.flatMap fun l => l.getD k []

end DeepGNN.Spec
