import Verif.Props.C53

/-
C54: the result of a training is on disk.
-/

namespace DeepGNN

open Trainer

variable {P O D : Type}

/-- When training ends, interrupted or not, a process that loads the newest checkpoint gets the parameters of the complete training, if
`save_ckpt_by_epochs` divides the number of the last epoch (counted from 0).  Same conditions as for C53. -/
theorem C54_last_partial {cfg : Config} (hn : cfg.numEpochs < 1000) (h0 : 0 < cfg.numEpochs) (hs : (cfg.numEpochs - 1) % cfg.saveEpochs = 0)
    {L : Learner P O D} {f : P → D → P} (hf : ∀ p o d, (L.update p o d).1 = f p d) {batches : List D} (hb : batches.length < 1000000)
    {killable : Pc → Prop} (hk : ∀ ck n, ¬ killable (.write ck n)) {files : List (File P)} {p : Proc P O}
    (h : Steps cfg L batches killable ⟨[], none⟩ ⟨files, some p⟩) (hd : p.pc = .done) :
    launch cfg L files =
      some ⟨files, some ⟨Spec.trained f L.params cfg.numEpochs (Spec.epochBatches cfg.maxSteps batches), L.opt, 0, .done⟩⟩ := by
  have hlen := length_epochBatches cfg.maxSteps batches
  have hi := steps_ok hf hk h
  have hok := (has_steps hn hf hb hk ⟨by simp, by simp⟩ ⟨by simp, by simp⟩ h).2.1
  have hsv := saved_steps hn h0 hs hf hb hk h p rfl
  rw [hd] at hsv
  have hi2 : Inv cfg f L.params (Spec.epochBatches cfg.maxSteps batches) (⟨files, none⟩ : Sys P O) := by
    refine ⟨fun x hx => ?_, by simp⟩
    rcases hi.files x hx with h | ⟨h, hw⟩
    · exact .inl h
    · simp [writing, hd] at hw
  obtain ⟨t, ht⟩ := launch_some hi2
  obtain ⟨c, ok, hu, rfl, -⟩ := launch_newest hn (by omega) hi2 hok (x := (cfg.numEpochs, 0)) hsv ht
  rw [ht]
  have h1 : c.1 = cfg.numEpochs := by
    have := ok.1
    rcases hu with (h | h) | h
    · simp only at h; omega
    · simp only at h; omega
    · rw [Prod.mk.injEq] at h; exact h.1.symm
  have h2 := ok.2.1 h1
  have h3 := ok.2.2.2.2
  rw [h1, h2] at h3
  rw [h1, h2, h3, enterEpoch, if_neg (Nat.lt_irrefl _)]
  rfl

example : launch ⟨2, 2, 1, -1, 2⟩ recorder [recorded 1 2, recorded 2 0] =
    some ⟨[recorded 1 2, recorded 2 0], some ⟨[5, 6, 7, 5, 6, 7], (), 0, .done⟩⟩ :=
  C54_last_partial (f := fun p d => p ++ [d]) (by decide) (by decide) (by decide) (fun _ _ _ => rfl) (by decide) (fun ck n h => h ck n rfl)
    recorder_resumed rfl

/-- With two epochs and a checkpoint every two epochs the last epoch is not saved: the test is on `epoch`, not `epoch + 1` (trainer.py:190). -/
theorem C54_last_refuted : ¬ ∀ (cfg : Config) (batches : List Nat) (files : List (File (List Nat))) (p q : Proc (List Nat) Unit),
    0 < cfg.numEpochs → cfg.numEpochs % cfg.saveEpochs = 0 →
    Steps cfg recorder batches (fun _ => False) ⟨[], none⟩ ⟨files, some p⟩ → p.pc = .done → launch cfg recorder files = some ⟨files, some q⟩ →
    q.params = p.params := by
  intro h
  have h1 : Steps ⟨2, 0, 2, -1, 0⟩ recorder [5, 6, 7] (fun _ => False) ⟨[], none⟩ ⟨[recorded 1 0], some ⟨[5, 6, 7, 5, 6, 7], (), 0, .done⟩⟩ :=
    session_steps (n := 11) .refl (by decide +kernel)
  have h2 : launch ⟨2, 0, 2, -1, 0⟩ recorder [recorded 1 0] = some ⟨[recorded 1 0], some ⟨[5, 6, 7], (), 0, .batch 1 0⟩⟩ := by decide +kernel
  have := h _ _ _ _ _ (by decide) (by decide) h1 rfl h2
  exact absurd this (by decide)

end DeepGNN
