import Verif.Model.Trainer

/-
C56: evaluation looks at the whole dataset.
-/

namespace DeepGNN

open Trainer

variable {D : Type}

/-- Without `max_samples` evaluation looks at all batches. -/
theorem C56_unlimited {cfg : Config} (h : cfg.maxSteps ≤ 0) (training : Bool) : ∀ (step : Nat) (l : List D),
    evaluated cfg training step l = l.length
  | _, [] => rfl
  | step, _ :: l => by
    rw [evaluated]
    rw [if_neg (by rw [shouldStop, Bool.and_eq_true, decide_eq_true_eq]; omega), C56_unlimited h training _ l, List.length_cons]
    omega

/-- A separate evaluation looks at the first `max_steps` batches. -/
theorem C56_evaluation {cfg : Config} (h : 0 < cfg.maxSteps) (l : List D) : evaluated cfg false 0 l = min cfg.maxSteps.toNat l.length := by
  have key : ∀ (step : Nat) (l : List D), (step : Int) < cfg.maxSteps →
      evaluated cfg false step l = min (cfg.maxSteps.toNat - step) l.length := by
    intro step l
    induction l generalizing step with
    | nil => intro _; simp [evaluated]
    | cons a l ih =>
      intro hs
      rw [evaluated, List.length_cons]
      simp only [Bool.false_eq_true, if_false]
      by_cases h2 : cfg.maxSteps ≤ ((step + 1 : Nat) : Int)
      · rw [if_pos (by rw [shouldStop, Bool.and_eq_true, decide_eq_true_eq, decide_eq_true_eq]; exact ⟨h, h2⟩)]
        omega
      · rw [if_neg (by rw [shouldStop, Bool.and_eq_true, decide_eq_true_eq, decide_eq_true_eq]; omega), ih _ (by omega)]
        omega
  exact key 0 l (by omega)

/-- Evaluation during training looks at all batches if the epoch is not at its last step.  Missing: the last step. -/
theorem C56_training_partial {cfg : Config} {step : Nat} (h : (step : Int) < cfg.maxSteps) : ∀ l : List D,
    evaluated cfg true step l = l.length
  | [] => rfl
  | _ :: l => by
    rw [evaluated]
    simp only [if_true]
    rw [if_neg (by rw [shouldStop, Bool.and_eq_true, decide_eq_true_eq, decide_eq_true_eq]; omega), C56_training_partial h l, List.length_cons]
    omega

example : evaluated ⟨2, 0, 1, 4, 0⟩ true 3 [5, 6, 7, 8, 9] = 5 := C56_training_partial (by decide) _
example : evaluated ⟨2, 0, 1, 4, 0⟩ false 0 [5, 6, 7, 8, 9] = 4 := C56_evaluation (by decide) _
example : evaluated ⟨2, 0, 1, -1, 0⟩ true 3 [5, 6, 7] = 3 := C56_unlimited (by decide) true 3 _

/-- Evaluation in the last step of an epoch looks at one batch only: `_should_stop` looks at the training step, which does not change during
the evaluation (trainer.py:305-319, 335-340). -/
theorem C56_training_refuted : ¬ ∀ (cfg : Config) (step : Nat) (l : List Nat), (step : Int) ≤ cfg.maxSteps →
    evaluated cfg true step l = l.length := by
  intro h
  exact absurd (h ⟨2, 0, 1, 4, 0⟩ 4 [5, 6, 7, 8, 9] (by decide)) (by decide)

end DeepGNN
