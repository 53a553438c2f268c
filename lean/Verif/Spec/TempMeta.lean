import Verif.Model.TempMeta

namespace DeepGNN.Spec

/-- Nothing else happens to the copy from the first to the last action of `i`. -/
def Undisturbed (i : Nat) (acts : List TempMeta.Act) : Prop :=
  ∃ before own after : List TempMeta.Act, acts = before ++ own ++ after ∧ (∀ a ∈ before, a.who ≠ i) ∧ (∀ a ∈ own, a.who = i) ∧
    (∀ a ∈ after, a.who ≠ i)

end DeepGNN.Spec
