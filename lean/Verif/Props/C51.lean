import Verif.Model.Schedule

/-
C51: learning rate schedules.
-/

namespace DeepGNN

open Schedule

theorem rat_div_le {a b c : Rat} (hb : 0 < b) (h : a ≤ c * b) : a / b ≤ c := by
  refine Rat.not_lt.1 fun h2 => ?_
  rw [Rat.lt_div_iff hb] at h2
  exact Rat.not_lt.2 h h2

theorem rat_le_div {a b c : Rat} (hb : 0 < b) (h : c * b ≤ a) : c ≤ a / b := by
  refine Rat.not_lt.1 fun h2 => ?_
  rw [Rat.div_lt_iff hb] at h2
  exact Rat.not_lt.2 h h2

theorem rat_div_mono {a b c : Rat} (hb : 0 < b) (h : a ≤ c) : a / b ≤ c / b := by
  rw [Rat.div_def, Rat.div_def]
  exact Rat.mul_le_mul_of_nonneg_right h (Rat.le_of_lt (Rat.inv_pos.2 hb))

theorem pyMax_left (a b : Rat) : a ≤ pyMax a b := by
  rw [pyMax]; split <;> grind

theorem pyMax_right (a b : Rat) : b ≤ pyMax a b := by
  rw [pyMax]; split <;> grind

theorem pyMax_one_pos (b : Rat) : 0 < pyMax 1 b := by
  have := pyMax_left 1 b; grind

theorem pyMax_le {a b c : Rat} (ha : a ≤ c) (hb : b ≤ c) : pyMax a b ≤ c := by
  rw [pyMax]; split <;> assumption

/-- The linear schedule stays within [0, 1] for all steps, whatever the numbers of warmup and training steps. -/
theorem C51_bounds (warmup : Rat) (training step : Nat) :
    0 ≤ linear warmup training step ∧ linear warmup training step ≤ 1 ∧
    0 ≤ constant warmup step ∧ constant warmup step ≤ 1 := by
  have hs : (0 : Rat) ≤ step := Rat.natCast_nonneg
  have key : (step : Rat) < warmup → 0 ≤ (step : Rat) / pyMax 1 warmup ∧ (step : Rat) / pyMax 1 warmup ≤ 1 := by
    intro h
    have h1 := pyMax_one_pos warmup
    have h2 := pyMax_right 1 warmup
    exact ⟨rat_le_div h1 (by grind), rat_div_le h1 (by grind)⟩
  by_cases h : (step : Rat) < warmup
  · rw [linear, if_pos h, constant, if_pos h]
    exact ⟨(key h).1, (key h).2, (key h).1, (key h).2⟩
  · rw [linear, if_neg h, constant, if_neg h]
    refine ⟨pyMax_left _ _, pyMax_le (by decide +kernel) (rat_div_le (pyMax_one_pos _) ?_), by decide +kernel, by decide +kernel⟩
    have h2 := pyMax_right 1 ((training : Rat) - warmup)
    grind

/-- During warmup both schedules are `step / warmup`: they start at 0 and rise. -/
theorem C51_warmup {warmup : Rat} (hw : 1 ≤ warmup) (training : Nat) {step : Nat} (h : (step : Rat) < warmup) :
    linear warmup training step = step / warmup ∧ constant warmup step = step / warmup ∧
    linear warmup training 0 = 0 ∧ constant warmup 0 = 0 ∧
    ∀ s, s < step → linear warmup training s < linear warmup training step ∧ constant warmup s < constant warmup step := by
  have e : pyMax 1 warmup = warmup := by
    rw [pyMax]; split
    · rfl
    · grind
  have hp : 0 < warmup := by grind
  have h0 : ((0 : Nat) : Rat) < warmup := by simpa using hp
  refine ⟨by rw [linear, if_pos h, e], by rw [constant, if_pos h, e], ?_, ?_, fun s hs => ?_⟩
  · rw [linear, if_pos h0, Rat.div_def]; simp
  · rw [constant, if_pos h0, Rat.div_def]; simp
  · have hs1 : (s : Rat) < step := Rat.natCast_lt_natCast.2 hs
    have hs2 : (s : Rat) < warmup := by grind
    rw [linear, linear, constant, constant, if_pos h, if_pos h, if_pos hs2, if_pos hs2, e, Rat.div_def, Rat.div_def]
    have := Rat.mul_lt_mul_of_pos_right hs1 (Rat.inv_pos.2 hp)
    exact ⟨this, this⟩

/-- After warmup: the constant schedule is 1; the linear schedule never rises, is 1 at the last warmup step, and 0 from
the last training step on. -/
theorem C51_after {warmup training : Nat} (h : warmup < training) :
    (∀ step, warmup ≤ step → constant warmup step = 1) ∧
    linear warmup training warmup = 1 ∧
    (∀ s t, warmup ≤ s → s ≤ t → linear warmup training t ≤ linear warmup training s) ∧
    (∀ s t, warmup ≤ s → s < t → t ≤ training → linear warmup training t < linear warmup training s) ∧
    ∀ step, training ≤ step → linear warmup training step = 0 := by
  have hn : ∀ s, warmup ≤ s → ¬ (s : Rat) < (warmup : Nat) := fun s hs =>
    Rat.not_lt.2 (Rat.natCast_le_natCast.2 hs)
  have hd : (1 : Rat) ≤ (training : Rat) - warmup := by
    have : ((warmup + 1 : Nat) : Rat) ≤ training := Rat.natCast_le_natCast.2 h
    rw [Rat.natCast_add] at this
    simp at this
    grind
  have hp : (0 : Rat) < (training : Rat) - warmup := by grind
  have e : pyMax 1 ((training : Rat) - warmup) = training - warmup := by
    rw [pyMax]; split
    · rfl
    · grind
  refine ⟨fun step hs => by rw [constant, if_neg (hn step hs)], ?_, ?_, ?_, ?_⟩
  · rw [linear, if_neg (hn warmup (Nat.le_refl _)), e, Rat.div_def, Rat.mul_inv_cancel _ (by grind)]
    decide +kernel
  · intro s t hs ht
    rw [linear, linear, if_neg (hn s hs), if_neg (hn t (by omega)), e]
    have h1 : (s : Rat) ≤ t := Rat.natCast_le_natCast.2 ht
    have h2 := rat_div_mono hp (show (training : Rat) - t ≤ training - s by grind)
    exact pyMax_le (pyMax_left _ _) (Rat.le_trans h2 (pyMax_right _ _))
  · intro s t hs ht htt
    rw [linear, linear, if_neg (hn s hs), if_neg (hn t (by omega)), e]
    have h1 : (s : Rat) < t := Rat.natCast_lt_natCast.2 ht
    have h3 : (t : Rat) ≤ training := Rat.natCast_le_natCast.2 htt
    have h2 : ((training : Rat) - t) / (training - warmup) < (training - s) / (training - warmup) := by
      rw [Rat.div_def, Rat.div_def]
      exact Rat.mul_lt_mul_of_pos_right (by grind) (Rat.inv_pos.2 hp)
    have h4 : (0 : Rat) ≤ (training - t) / (training - warmup) := rat_le_div hp (by grind)
    have h5 : pyMax 0 (((training : Rat) - t) / (training - warmup)) = (training - t) / (training - warmup) := by
      rw [pyMax]; split
      · rfl
      · grind
    rw [h5]
    have h6 := pyMax_right 0 (((training : Rat) - s) / (training - warmup))
    grind
  · intro step hs
    rw [linear, if_neg (hn step (by omega)), e, pyMax, if_neg]
    have h1 : (training : Rat) ≤ step := Rat.natCast_le_natCast.2 hs
    exact Rat.not_lt.2 (rat_div_le hp (by grind))

example : linear 4 10 0 = 0 ∧ linear 4 10 1 = 1 / 4 ∧ linear 4 10 4 = 1 ∧ linear 4 10 7 = 1 / 2 ∧ linear 4 10 10 = 0 ∧
    linear 4 10 12 = 0 ∧ linear (5 / 2) 10 2 = 4 / 5 ∧ constant 4 3 = 3 / 4 := by
  decide +kernel

/-- Fractions of a step as warmup (what the trainer passes): the linear schedule never rises after warmup and is 0 from
the last training step on. -/
theorem C51_fraction {warmup : Rat} {training : Nat} :
    (∀ s t : Nat, warmup ≤ s → s ≤ t → linear warmup training t ≤ linear warmup training s) ∧
    (warmup ≤ training → ∀ step, training ≤ step → linear warmup training step = 0) := by
  refine ⟨fun s t hs ht => ?_, fun hw step hs => ?_⟩
  · have h1 : (s : Rat) ≤ t := Rat.natCast_le_natCast.2 ht
    rw [linear, linear, if_neg (Rat.not_lt.2 hs), if_neg (Rat.not_lt.2 (Rat.le_trans hs h1))]
    have h2 := rat_div_mono (pyMax_one_pos ((training : Rat) - warmup)) (show (training : Rat) - t ≤ training - s by grind)
    exact pyMax_le (pyMax_left _ _) (Rat.le_trans h2 (pyMax_right _ _))
  · have h1 : (training : Rat) ≤ step := Rat.natCast_le_natCast.2 hs
    rw [linear, if_neg (Rat.not_lt.2 (Rat.le_trans hw h1)), pyMax, if_neg]
    exact Rat.not_lt.2 (rat_div_le (pyMax_one_pos _) (by grind))

/-- As many warmup as training steps: the linear schedule rises to 9/10 and then is 0, it never reaches 1. -/
theorem C51_peak_refuted : linear 10 10 9 = 9 / 10 ∧ ∀ step : Nat, 10 ≤ step → linear 10 10 step = 0 := by
  refine ⟨by decide +kernel, fun step hs => ?_⟩
  exact (C51_fraction (warmup := 10) (training := 10)).2 (by decide +kernel) step hs

/-- The polynomial schedule after warmup, with more training than warmup steps: between the end rate and 1, 1 at the last
warmup step, the end rate from the last training step on (relative to the initial rate). -/
theorem C51_polynomial_partial {lrInit lrEnd : Rat} (h0 : 0 ≤ lrEnd) (hl : lrEnd < lrInit) {power : Nat} (hpow : 0 < power)
    {warmup training : Nat} (h : warmup < training) {step : Nat} (hs : warmup ≤ step) :
    ∃ r, polynomial lrInit lrEnd power warmup training step = some r ∧ lrEnd / lrInit ≤ r ∧ r ≤ 1 ∧
      (step = warmup → r = 1) ∧ (training ≤ step → r = lrEnd / lrInit) := by
  have hi : 0 < lrInit := by grind
  have hn : ¬ (step : Rat) < (warmup : Nat) := Rat.not_lt.2 (Rat.natCast_le_natCast.2 hs)
  have hw : (warmup : Rat) < training := Rat.natCast_lt_natCast.2 h
  have hd : (0 : Rat) < (training : Rat) - warmup := by grind
  rw [polynomial, if_neg hn]
  by_cases ht : step > training
  · rw [if_pos ht]
    refine ⟨_, rfl, Rat.le_refl, rat_div_le hi (by grind), fun e => by omega, fun _ => rfl⟩
  · rw [if_neg ht, if_neg (by grind)]
    have h1 : (warmup : Rat) ≤ step := Rat.natCast_le_natCast.2 hs
    have h2 : (step : Rat) ≤ training := Rat.natCast_le_natCast.2 (by omega)
    have h3 : (0 : Rat) ≤ (step - warmup) / (training - warmup) := rat_le_div hd (by grind)
    have h4 : ((step : Rat) - warmup) / (training - warmup) ≤ 1 := rat_div_le hd (by grind)
    have hpw : ∀ (x : Rat), 0 ≤ x → x ≤ 1 → ∀ n : Nat, 0 ≤ x ^ n ∧ x ^ n ≤ 1 := by
      intro x hx0 hx1 n
      induction n with
      | zero => rw [Rat.pow_zero]; exact ⟨by decide +kernel, Rat.le_refl⟩
      | succ n ih =>
        rw [Rat.pow_succ]
        refine ⟨Rat.mul_nonneg ih.1 hx0, ?_⟩
        have := Rat.mul_le_mul_of_nonneg_right ih.2 hx0
        grind
    obtain ⟨p0, p1⟩ := hpw (1 - (step - warmup) / (training - warmup)) (by grind) (by grind) power
    generalize hy : (1 - ((step : Rat) - warmup) / (training - warmup)) ^ power = y at p0 p1
    have hr : 0 < lrInit - lrEnd := by grind
    have m0 : 0 ≤ (lrInit - lrEnd) * y := Rat.mul_nonneg (by grind) p0
    have m1 : (lrInit - lrEnd) * y ≤ lrInit - lrEnd := by
      have := Rat.mul_le_mul_of_nonneg_left p1 (show 0 ≤ lrInit - lrEnd by grind)
      grind
    simp only [hy]
    refine ⟨_, rfl, rat_div_mono hi (by grind), rat_div_le hi (by grind), fun e => ?_, fun e => ?_⟩
    · subst e
      have : y = 1 := by
        rw [← hy, show (step : Rat) - step = 0 by grind, Rat.div_def, Rat.zero_mul, show (1 : Rat) - 0 = 1 by decide +kernel]
        clear hy
        have : ∀ n : Nat, (1 : Rat) ^ n = 1 := by
          intro n
          induction n with
          | zero => exact Rat.pow_zero 1
          | succ n ih => rw [Rat.pow_succ, ih]; decide +kernel
        exact this power
      rw [this, Rat.mul_one, show lrInit - lrEnd + lrEnd = lrInit by grind, Rat.div_def, Rat.mul_inv_cancel _ (by grind)]
    · have e2 : step = training := by omega
      subst e2
      have : y = 0 := by
        rw [← hy, Rat.div_def, Rat.mul_inv_cancel _ (by grind), show (1 : Rat) - 1 = 0 by decide +kernel]
        obtain ⟨k, rfl⟩ : ∃ k, power = k + 1 := ⟨power - 1, by omega⟩
        rw [Rat.pow_succ, Rat.mul_zero]
      rw [this, Rat.mul_zero, Rat.zero_add]

example : polynomial 1 (1 / 10) 2 4 10 7 = some (13 / 40) ∧ polynomial 1 (1 / 10) 2 4 10 11 = some (1 / 10) := by
  decide +kernel

/-- As many warmup as training steps: the step after warmup divides by zero. -/
theorem C51_polynomial_refuted : polynomial 1 (1 / 10) 1 10 10 9 = some (9 / 10) ∧ polynomial 1 (1 / 10) 1 10 10 10 = none := by
  decide +kernel

end DeepGNN
