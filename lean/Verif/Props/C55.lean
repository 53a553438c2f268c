import Verif.Props.C53

/-
C55: `max_samples`.
-/

namespace DeepGNN

open Trainer

variable {P O D : Type}

/-- With `max_samples` at least one batch per worker, a training that ends has used the same first batches in every epoch, whose samples, with
those of the other workers, are at most `max_samples`; it stops early only if one batch more per worker would be too much. -/
theorem C55_samples_partial {cfg : Config} {maxSamples worldSize batchSize : Nat} (hw : 0 < worldSize) (hbs : 0 < batchSize)
    (hm : worldSize * batchSize ≤ maxSamples) (hcfg : cfg.maxSteps = initMaxSteps maxSamples worldSize batchSize)
    {L : Learner P O D} {f : P → D → P} (hf : ∀ p o d, (L.update p o d).1 = f p d) {batches : List D}
    {killable : Pc → Prop} (hk : ∀ ck n, ¬ killable (.write ck n)) {s : Sys P O} (h : Steps cfg L batches killable ⟨[], none⟩ s)
    {p : Proc P O} (hp : s.proc = some p) (hd : p.pc = .done) :
    ∃ n, n ≤ batches.length ∧ n * (worldSize * batchSize) ≤ maxSamples ∧
      (n = batches.length ∨ maxSamples < (n + 1) * (worldSize * batchSize)) ∧
      p.params = Spec.trained f L.params cfg.numEpochs (batches.take n) := by
  have hpos : 0 < worldSize * batchSize := Nat.mul_pos hw hbs
  have hms : cfg.maxSteps = ((maxSamples / (worldSize * batchSize) : Nat) : Int) := by rw [hcfg, initMaxSteps, if_pos (by omega)]
  have hq : 0 < maxSamples / (worldSize * batchSize) := Nat.div_pos hm hpos
  have hpar := (C53_resume_partial hf hk h).1 p hp hd
  rw [Spec.epochBatches, if_pos (by omega), hms, Int.toNat_natCast] at hpar
  have hmul := Nat.div_mul_le_self maxSamples (worldSize * batchSize)
  refine ⟨min (maxSamples / (worldSize * batchSize)) batches.length, Nat.min_le_right _ _, ?_, ?_, ?_⟩
  · exact Nat.le_trans (Nat.mul_le_mul_right _ (Nat.min_le_left _ _)) hmul
  · by_cases hl : batches.length ≤ maxSamples / (worldSize * batchSize)
    · left; omega
    · right
      rw [Nat.min_eq_left (by omega)]
      exact Nat.lt_mul_of_div_lt (by omega) hpos
  · rw [hpar]
    congr 1
    rw [← List.take_eq_take_min]

/-- Two workers with batches of two samples and `max_samples = 9`: two steps per epoch. -/
example : ∃ n, n ≤ 3 ∧ n * (2 * 2) ≤ 9 ∧ (n = 3 ∨ 9 < (n + 1) * (2 * 2)) ∧
    [5, 6, 5, 6] = Spec.trained (fun p d => p ++ [d]) [] 2 ([5, 6, 7].take n) :=
  C55_samples_partial (cfg := ⟨2, 0, 1, initMaxSteps 9 2 2, 0⟩) (L := recorder) (f := fun p d => p ++ [d]) (batches := [5, 6, 7])
    (killable := fun _ => False) (by decide) (by decide) (by decide) rfl (fun _ _ _ => rfl) (by simp)
    (s := ⟨[⟨Checkpoint.name (1, 0), some (1, 0, [5, 6])⟩, ⟨Checkpoint.name (2, 0), some (2, 0, [5, 6, 5, 6])⟩], some ⟨[5, 6, 5, 6], (), 0, .done⟩⟩)
    (session_steps (n := 10) .refl (by decide +kernel)) (p := ⟨[5, 6, 5, 6], (), 0, .done⟩) rfl rfl

/-- A smaller `max_samples` is rounded to 0 steps, which means no limit (trainer.py:405-406, 481-486): with `max_samples = 3` and batches of four
samples all batches are used. -/
theorem C55_samples_refuted : ¬ ∀ (maxSamples batchSize numEpochs : Nat) (batches : List Nat) (s : Sys (List Nat) Unit) (p : Proc (List Nat) Unit),
    0 < maxSamples → 0 < batchSize →
    Steps ⟨numEpochs, 0, 1, initMaxSteps maxSamples 1 batchSize, 0⟩ recorder batches (fun _ => False) ⟨[], none⟩ s →
    s.proc = some p → p.pc = .done → p.params.length * batchSize ≤ numEpochs * maxSamples := by
  intro h
  have h1 : Steps ⟨1, 0, 1, initMaxSteps 3 1 4, 0⟩ recorder [5, 6, 7] (fun _ => False) ⟨[], none⟩
      ⟨[recorded 1 0], some ⟨[5, 6, 7], (), 0, .done⟩⟩ := session_steps (n := 7) .refl (by decide +kernel)
  exact absurd (h 3 4 1 _ _ _ (by decide) (by decide) h1 rfl rfl) (by decide)

end DeepGNN
