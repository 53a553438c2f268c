import Verif.Model.RemoteLookups

/-
Callbacks that run at the same time.
-/

namespace DeepGNN.Spec

/-- `steps` is an execution of the given sequences of steps at the same time: every step of it belongs to one of the
sequences, and the steps of sequence number `i` are performed once each and in their order. -/
def Interleaved {α : Type} (seqs : List (List α)) (steps : List α) : Prop :=
  ∃ tagged : List (Nat × α), tagged.map (·.2) = steps ∧
    ∀ i, (tagged.filter fun x => x.1 = i).map (·.2) = seqs.getD i []

end DeepGNN.Spec
