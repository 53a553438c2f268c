import Verif.Model.Temporal
import Verif.Spec.Stream

namespace DeepGNN.Spec

/-- The edges of `n` of the requested types that exist at time `t`, with their creation times. -/
def liveSlots (parts : List (List (List Rec))) (n t : Int) (types : List Int) : List Slot :=
  ((allTimedEdges parts).filter (fun e => e.src = n ∧ e.typ ∈ types ∧ e.aliveAt t)).map
    fun e => { dst := e.dst, typ := e.typ, weight := e.weight, created := e.created }

/-- `result` consists of the `N` most recently created elements of `live` (all of them if there are
fewer), followed by `default` up to a length of `N`. Ties may be broken in any way. -/
def MostRecent (N : Nat) (default : Slot) (live result : List Slot) : Prop :=
  ∃ kept rest, (kept ++ rest).Perm live ∧ kept.length = min N live.length ∧
    (∀ r ∈ rest, ∀ k ∈ kept, r.created ≤ k.created) ∧
    result = kept ++ List.replicate (N - kept.length) default

/-- A slot without its weight. -/
def unweighted (s : Slot) : Int × Int × Int := (s.dst, s.typ, s.created)

end DeepGNN.Spec
