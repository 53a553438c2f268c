import Verif.Model.InitCheckpoint

/-
Specification of the first weights of an encoder.
-/

namespace DeepGNN.InitCkpt.Spec
open Pretrained (Key)

variable {V : Type}

/-- The weight `key` of the checkpoint is the parameter `k`: some text, a prefix in the checkpoint, and then what `k` has after the
prefix here. -/
def BelongsTo (pairs : List (Key × Key)) (key k : Key) : Prop :=
  ∃ p ∈ pairs, ∃ front name, key = front ++ p.1 ++ name ∧ k = p.2 ++ name

/-- The parameter `k` is in a part of the encoder that the checkpoint does not have. -/
def PartAbsent (sd : List (Key × V)) (pairs : List (Key × Key)) (k : Key) : Prop :=
  ∃ p ∈ pairs, p.2 <+: k ∧ ∀ e ∈ sd, ¬∃ front name, e.1 = front ++ p.1 ++ name

end DeepGNN.InitCkpt.Spec
