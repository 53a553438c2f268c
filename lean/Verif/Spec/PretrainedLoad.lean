import Verif.Model.PretrainedLoad

/-
Specification of the loading of pretrained weights.
-/

namespace DeepGNN.Pretrained.Spec
open Pretrained (Key contains replace)

variable {V : Type}

/-- The name a weight has today: "gamma" is now "weight", "beta" is now "bias". -/
def today (k : Key) : Key :=
  if contains "gamma".toList k then replace "gamma".toList "weight".toList k
  else if contains "beta".toList k then replace "beta".toList "bias".toList k
  else k

/-- A name in the old style. -/
def IsOld (k : Key) : Prop := contains "gamma".toList k = true ∨ contains "beta".toList k = true

/-- No name contains both old words. -/
def OneWord (sd : List (Key × V)) : Prop :=
  ∀ e ∈ sd, ¬(contains "gamma".toList e.1 = true ∧ contains "beta".toList e.1 = true)

/-- A dictionary in which no new name is taken: old names get names that no weight has, and different ones. -/
def NoClash (sd : List (Key × V)) : Prop :=
  (sd.map (·.1)).Nodup ∧ (∀ e ∈ sd, IsOld e.1 → today e.1 ∉ sd.map (·.1)) ∧
    ∀ e ∈ sd, ∀ e' ∈ sd, IsOld e.1 → IsOld e'.1 → today e.1 = today e'.1 → e.1 = e'.1

/-- The part of the names that the model does not have: "bert." if the model is the inner model and a weight has it. -/
def PrefixIs (hasBert : Bool) (sd : List (Key × V)) (pre : Key) : Prop :=
  ((hasBert = false ∧ ∃ e ∈ sd, "bert.".toList <+: today e.1) → pre = "bert.".toList) ∧
    (¬(hasBert = false ∧ ∃ e ∈ sd, "bert.".toList <+: today e.1) → pre = [])

end DeepGNN.Pretrained.Spec
