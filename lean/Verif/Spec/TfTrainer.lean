/-
Specification of training with parameter servers.
-/

namespace DeepGNN.Spec

/-- A checkpoint holds the result of every update, once: worker `t` makes updates `0`, …, `k t - 1` in call `0` of `train`. -/
def EveryUpdate (n : Nat) (k : Nat → Nat) (checkpoint : List (Nat × Nat × Nat)) : Prop :=
  checkpoint.Nodup ∧ ∀ x, x ∈ checkpoint ↔ ∃ t j, t < n ∧ j < k t ∧ x = (t, 0, j)

end DeepGNN.Spec
