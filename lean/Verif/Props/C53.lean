import Verif.Proofs.Trainer
import Verif.Model.Schedule

/-
C53: training that is interrupted and started again.
-/

namespace DeepGNN

open Trainer

variable {P O D : Type}

/-- Training may be killed and started again any number of times, at any point except while a checkpoint is being written.  If the parameters
after a batch depend on nothing but the parameters before and the batch, a process that gets to the end has the parameters of a training that
was never interrupted; a killed process can be started again, and a running one that is left alone gets to the end.  Missing: kills during a
write, and optimizers or schedules with a state (both refuted below). -/
theorem C53_resume_partial {cfg : Config} {L : Learner P O D} {f : P → D → P} (hf : ∀ p o d, (L.update p o d).1 = f p d) {batches : List D}
    {killable : Pc → Prop} (hk : ∀ ck n, ¬ killable (.write ck n)) {s : Sys P O} (h : Steps cfg L batches killable ⟨[], none⟩ s) :
    (∀ p, s.proc = some p → p.pc = .done →
      p.params = Spec.trained f L.params cfg.numEpochs (Spec.epochBatches cfg.maxSteps batches)) ∧
    (s.proc = none → ∃ t, launch cfg L s.files = some t) ∧
    (cfg.saveEpochs ≠ 0 → ∀ p, s.proc = some p →
      ∃ files q, Steps cfg L batches (fun _ => False) s ⟨files, some q⟩ ∧ q.pc = .done) := by
  have hi := steps_ok hf hk h
  obtain ⟨files, proc⟩ := s
  refine ⟨fun p hp hd => ?_, fun hn => ?_, fun hs p hp => ?_⟩
  · have := hi.proc p hp
    rw [hd] at this
    exact this
  · obtain rfl : proc = none := hn
    exact launch_some hi
  · obtain rfl : proc = some p := hp
    exact finishes hs hf _ rfl hi

/-- What a finished checkpoint holds is not trained again: if there is a complete checkpoint of epoch `c.1` and step `c.2.1` at some time, every
later start continues from this position or a later one (numbers that fit into the names of the files). -/
theorem C53_progress_partial {cfg : Config} (hn : cfg.numEpochs < 1000) {L : Learner P O D} {f : P → D → P}
    (hf : ∀ p o d, (L.update p o d).1 = f p d) {batches : List D} (hb : batches.length < 1000000) {killable : Pc → Prop}
    (hk : ∀ ck n, ¬ killable (.write ck n)) {s : Sys P O} (h : Steps cfg L batches killable ⟨[], none⟩ s) {x : File P} (hx : x ∈ s.files)
    {c : Nat × Nat × P} (hc : x.content = some c) {files : List (File P)} (h2 : Steps cfg L batches killable s ⟨files, none⟩) :
    ∃ epoch step params, launch cfg L files = some ⟨files, some ⟨params, L.opt, step, enterEpoch cfg epoch⟩⟩ ∧
      ¬ Spec.Older (epoch, step) (c.1, c.2.1) := by
  obtain ⟨hi, hok, -⟩ := has_steps hn hf hb hk ⟨by simp, by simp⟩ ⟨by simp, by simp⟩ h
  obtain ⟨hi2, hok2, hh⟩ := has_steps hn hf hb hk hi hok h2
  have hlen := length_epochBatches cfg.maxSteps batches
  have hhas : Has s.files (c.1, c.2.1) := by
    rcases hi.files x hx with ⟨c', hc', hnm, ok⟩ | ⟨h, -⟩
    · rw [hc] at hc'
      obtain rfl := Option.some.inj hc'
      exact ⟨x, hx, (c.1, c.2.1), ⟨Nat.lt_of_le_of_lt ok.1 hn, Nat.lt_of_le_of_lt ok.2.2.1 (by omega)⟩, hnm, .inr rfl⟩
    · rw [hc] at h; simp at h
  obtain ⟨t, ht⟩ := launch_some hi2
  obtain ⟨c', -, hu, rfl, -⟩ := launch_newest hn (by omega) hi2 hok2 (hh _ hhas) ht
  refine ⟨c'.1, c'.2.1, c'.2.2, ht, ?_⟩
  rcases hu with h | h
  · rcases h with h | h
    · rintro (h3 | h3) <;> simp only at h h3 <;> omega
    · rintro (h3 | h3) <;> simp only at h h3 <;> omega
  · rw [h]
    rintro (h3 | h3) <;> simp only at h3 <;> omega

/-- Every file in the folder is a checkpoint with the parameters an uninterrupted training has after the epochs and batches in its name, except
the one a running process is just writing. -/
theorem C53_files_partial {cfg : Config} {L : Learner P O D} {f : P → D → P} (hf : ∀ p o d, (L.update p o d).1 = f p d) {batches : List D}
    {killable : Pc → Prop} (hk : ∀ ck n, ¬ killable (.write ck n)) {s : Sys P O} (h : Steps cfg L batches killable ⟨[], none⟩ s)
    {x : File P} (hx : x ∈ s.files) :
    (∃ epoch step, x = ⟨Checkpoint.name (epoch, step), some (epoch, step,
      ((Spec.epochBatches cfg.maxSteps batches).take step).foldl f
        (Spec.trained f L.params epoch (Spec.epochBatches cfg.maxSteps batches)))⟩) ∨
    (x.content = none ∧ ∃ p ck n, s.proc = some p ∧ p.pc = .write ck n ∧ x.name = Checkpoint.name (ck, p.step)) := by
  obtain ⟨name, content⟩ := x
  rcases (steps_ok hf hk h).files _ hx with ⟨c, h1, h2, h3⟩ | ⟨h1, h2⟩
  · obtain ⟨e, k, ps⟩ := c
    simp only at h1 h2
    subst h1 h2
    exact .inl ⟨e, k, by rw [show ps = _ from h3.2.2.2.2]; rfl⟩
  · refine .inr ⟨h1, ?_⟩
    obtain ⟨p, hp, h2⟩ := Option.bind_eq_some_iff.1 h2
    cases hpc : p.pc with
    | write ck n =>
      rw [hpc] at h2
      exact ⟨p, ck, n, hp, hpc, (Option.some.inj h2).symm⟩
    | _ => rw [hpc] at h2; simp at h2

/-- With a checkpoint after every `saveSteps` batches and after every epoch, a process that is killed loses less than `saveSteps` batches:
the next one continues in the same epoch or later, at least from `saveSteps - 1` batches before. -/
theorem C53_loss_partial {cfg : Config} (hn : cfg.numEpochs < 1000) (h0 : 0 < cfg.saveSteps) (hs : cfg.saveEpochs = 1)
    {L : Learner P O D} {f : P → D → P} (hf : ∀ p o d, (L.update p o d).1 = f p d) {batches : List D} (hb : batches.length < 1000000)
    {killable : Pc → Prop} (hk : ∀ ck n, ¬ killable (.write ck n)) {files : List (File P)} {p : Proc P O} {epoch i : Nat}
    (h : Steps cfg L batches killable ⟨[], none⟩ ⟨files, some p⟩) (hp : p.pc = .batch epoch i) :
    ∃ epoch' step' params, launch cfg L files = some ⟨files, some ⟨params, L.opt, step', enterEpoch cfg epoch'⟩⟩ ∧
      ¬ Spec.Older (epoch', step') (epoch, p.step + 1 - cfg.saveSteps) := by
  obtain ⟨hi, hok, -⟩ := has_steps hn hf hb hk ⟨by simp, by simp⟩ ⟨by simp, by simp⟩ h
  have hkept := kept_steps hn h0 hs hf hb hk h p rfl
  rw [hp] at hkept
  have hlen := length_epochBatches cfg.maxSteps batches
  have hi2 : Inv cfg f L.params (Spec.epochBatches cfg.maxSteps batches) (⟨files, none⟩ : Sys P O) := by
    refine ⟨fun x hx => ?_, by simp⟩
    rcases hi.files x hx with h | ⟨h, hw⟩
    · exact .inl h
    · simp [writing, hp] at hw
  have hmod := Nat.mod_lt p.step h0
  obtain ⟨t, ht⟩ := launch_some hi2
  rcases hkept with ⟨he, hz⟩ | hh
  · have hnot : ∀ x : Nat × Nat, ¬ Spec.Older x (epoch, p.step + 1 - cfg.saveSteps) := by
      rintro ⟨a, b⟩ (h | h) <;> simp only at h <;> omega
    rw [launch] at ht
    split at ht
    · rename_i hl
      cases ht
      exact ⟨0, 0, L.params, by rw [launch, hl], hnot _⟩
    · rename_i n hl
      obtain ⟨x, hx, h2⟩ := Option.bind_eq_some_iff.1 ht
      obtain ⟨c, hc, rfl⟩ := Option.map_eq_some_iff.1 h2
      exact ⟨c.1, c.2.1, c.2.2, by rw [launch, hl]; simp only [hx, Option.bind_some, hc, Option.map_some], hnot _⟩
  · obtain ⟨c', -, hu, rfl, -⟩ := launch_newest hn (by omega) hi2 hok hh ht
    refine ⟨c'.1, c'.2.1, c'.2.2, ht, ?_⟩
    rcases hu with h | h
    · rcases h with h | h
      · rintro (h3 | h3) <;> simp only at h h3 <;> omega
      · rintro (h3 | h3) <;> simp only at h h3 <;> omega
    · injection h with h1 h2
      rintro (h3 | h3) <;> simp only at h3 <;> omega

/-- At most `max_saved_ckpts` checkpoints, and one more while a checkpoint is being saved, if no process is killed there. -/
theorem C53_space_partial {cfg : Config} (h0 : 0 < cfg.limit) {L : Learner P O D} {batches : List D} {killable : Pc → Prop}
    (hk : ∀ n, ¬ killable (.rotate n) ∧ ∀ ck, ¬ killable (.write ck n)) {s : Sys P O} (h : Steps cfg L batches killable ⟨[], none⟩ s) :
    s.files.length ≤ cfg.limit + 1 ∧
    (s.proc = none ∨ (∃ p, s.proc = some p ∧ ((∃ e i, p.pc = .batch e i) ∨ p.pc = .done)) → s.files.length ≤ cfg.limit) := by
  have h1 := space_steps h0 (fun pc hpc => by
    cases pc with
    | write ck n => exact absurd hpc ((hk n).2 ck)
    | rotate n => exact absurd hpc (hk n).1
    | _ => rfl) h
  constructor
  · have : ∀ x, added x ≤ 1 := fun x => by unfold added; split <;> omega
    exact Nat.le_trans h1 (Nat.add_le_add_left (this _) _)
  · rintro (hn | ⟨p, hp, hpc⟩)
    · rw [hn] at h1; exact h1
    · rw [hp, Option.map_some] at h1
      rcases hpc with ⟨e, i, hpc⟩ | hpc
      · rw [hpc] at h1; exact h1
      · rw [hpc] at h1; exact h1

/-- `n` actions of a process. -/
def runTrainer (cfg : Config) (L : Learner P O D) (batches : List D) : Nat → Sys P O → Option (Sys P O)
  | 0, s => some s
  | n + 1, s => (runTrainer cfg L batches n s).bind fun t => t.proc.bind fun p => exec cfg L batches t.files p

theorem runTrainer_steps {cfg : Config} {L : Learner P O D} {batches : List D} {killable : Pc → Prop} : ∀ {n : Nat} {r s t : Sys P O},
    Steps cfg L batches killable r s → runTrainer cfg L batches n s = some t → Steps cfg L batches killable r t
  | 0, _, _, _, h, e => by obtain rfl := Option.some.inj e; exact h
  | n + 1, _, _, _, h, e => by
    obtain ⟨⟨files, proc⟩, h1, e⟩ := Option.bind_eq_some_iff.1 e
    obtain ⟨p, hp, e⟩ := Option.bind_eq_some_iff.1 e
    obtain rfl : proc = some p := hp
    exact .tail (runTrainer_steps h h1) (.act e)

/-- A process is started and runs for `n` actions. -/
def session (cfg : Config) (L : Learner P O D) (batches : List D) (n : Nat) (files : List (File P)) : Option (Sys P O) :=
  (launch cfg L files).bind (runTrainer cfg L batches n)

theorem session_steps {cfg : Config} {L : Learner P O D} {batches : List D} {killable : Pc → Prop} {n : Nat} {r t : Sys P O}
    {files : List (File P)} (h : Steps cfg L batches killable r ⟨files, none⟩) (e : session cfg L batches n files = some t) :
    Steps cfg L batches killable r t := by
  obtain ⟨s, h1, h2⟩ := Option.bind_eq_some_iff.1 e
  exact runTrainer_steps (.tail h (.launch h1)) h2

/-- A process runs for `n` actions and is killed, then another one runs for `m` actions. -/
theorem two_sessions {cfg : Config} {L : Learner P O D} {batches : List D} {killable : Pc → Prop} {n m : Nat} {files : List (File P)}
    {p : Proc P O} {t : Sys P O} (h : session cfg L batches n [] = some ⟨files, some p⟩) (hk : killable p.pc)
    (h2 : session cfg L batches m files = some t) : Steps cfg L batches killable ⟨[], none⟩ t :=
  session_steps (.tail (session_steps .refl h) (.kill hk)) h2

/-- Parameters that record all batches. -/
def recorder : Learner (List Nat) Unit Nat := ⟨fun p _ d => (p ++ [d], ()), [], ()⟩

/-- The checkpoints of `recorder` on batches 5, 6 and 7. -/
def recorded (e s : Nat) : File (List Nat) :=
  ⟨Checkpoint.name (e, s), some (e, s, (List.replicate e [5, 6, 7]).flatten ++ [5, 6, 7].take s)⟩

/-- Two epochs of three batches, a checkpoint after every second batch, at most two are kept; killed at the end of the second epoch and started
again at step 2. -/
theorem recorder_resumed : Steps ⟨2, 2, 1, -1, 2⟩ recorder [5, 6, 7] (fun pc => ∀ ck n, pc ≠ .write ck n) ⟨[], none⟩
    ⟨[recorded 1 2, recorded 2 0], some ⟨[5, 6, 7, 5, 6, 7], (), 0, .done⟩⟩ :=
  two_sessions (n := 17) (m := 8) (files := [recorded 1 0, recorded 1 2]) (p := ⟨[5, 6, 7, 5, 6, 7], (), 3, .batch 1 3⟩) (by decide +kernel)
    (by simp) (by decide +kernel)

example : ∃ s p, Steps ⟨2, 2, 1, -1, 2⟩ recorder [5, 6, 7] (fun pc => ∀ ck n, pc ≠ .write ck n) ⟨[], none⟩ s ∧ s.proc = some p ∧ p.pc = .done ∧
    p.params = [5, 6, 7, 5, 6, 7] :=
  ⟨_, _, recorder_resumed, rfl, rfl, rfl⟩

/-- The hypotheses of the theorems on this run. -/
example : [5, 6, 7, 5, 6, 7] = Spec.trained (fun p d => p ++ [d]) [] 2 (Spec.epochBatches (-1) [5, 6, 7]) :=
  (C53_resume_partial (f := fun p d => p ++ [d]) (fun _ _ _ => rfl) (fun ck n h => h ck n rfl) recorder_resumed).1 _ rfl rfl

example : ∃ epoch step params, launch ⟨2, 2, 1, -1, 2⟩ recorder [recorded 1 2, recorded 2 0] =
    some ⟨[recorded 1 2, recorded 2 0], some ⟨params, (), step, enterEpoch ⟨2, 2, 1, -1, 2⟩ epoch⟩⟩ ∧ ¬ Spec.Older (epoch, step) (2, 0) :=
  C53_progress_partial (by decide) (f := fun p d => p ++ [d]) (fun _ _ _ => rfl) (by decide) (fun ck n h => h ck n rfl) recorder_resumed
    (x := recorded 2 0) (by simp) rfl (.tail .refl (.kill (by simp)))

example : ∃ epoch step, recorded 1 2 = ⟨Checkpoint.name (epoch, step), some (epoch, step,
    ((Spec.epochBatches (-1) [5, 6, 7]).take step).foldl (fun p d => p ++ [d])
      (Spec.trained (fun p d => p ++ [d]) [] epoch (Spec.epochBatches (-1) [5, 6, 7])))⟩ := by
  rcases C53_files_partial (f := fun p d => p ++ [d]) (fun _ _ _ => rfl) (fun ck n h => h ck n rfl) recorder_resumed (x := recorded 1 2)
    (by simp) with h | ⟨h, -⟩
  · exact h
  · simp [recorded] at h

/-- In the middle of the second epoch one batch would be lost, and two files are there. -/
theorem recorder_middle : Steps ⟨2, 2, 1, -1, 2⟩ recorder [5, 6, 7] (fun pc => ∀ ck n, pc ≠ .write ck n ∧ pc ≠ .rotate n) ⟨[], none⟩
    ⟨[recorded 1 0, recorded 1 2], some ⟨[5, 6, 7, 5, 6, 7], (), 3, .batch 1 3⟩⟩ :=
  session_steps (n := 17) .refl (by decide +kernel)

example : ∃ epoch' step' params, launch ⟨2, 2, 1, -1, 2⟩ recorder [recorded 1 0, recorded 1 2] =
    some ⟨[recorded 1 0, recorded 1 2], some ⟨params, (), step', enterEpoch ⟨2, 2, 1, -1, 2⟩ epoch'⟩⟩ ∧ ¬ Spec.Older (epoch', step') (1, 2) :=
  C53_loss_partial (by decide) (by decide) rfl (f := fun p d => p ++ [d]) (fun _ _ _ => rfl) (by decide) (fun ck n h => (h ck n).1 rfl)
    recorder_middle rfl

example : [recorded 1 0, recorded 1 2].length ≤ 2 :=
  (C53_space_partial (by decide) (fun n => ⟨fun h => (h 0 n).2 rfl, fun ck h => (h ck n).1 rfl⟩) recorder_middle).2
    (.inr ⟨_, rfl, .inl ⟨1, 3, rfl⟩⟩)

/-- A process that is killed before it deletes old checkpoints leaves one more, so there is no bound with repeated kills: here three files with
`max_saved_ckpts = 1`. -/
theorem C53_space_refuted : ¬ ∀ (cfg : Config) (batches : List Nat) (s : Sys (List Nat) Unit), 0 < cfg.limit →
    Steps cfg recorder batches (fun pc => ∀ ck n, pc ≠ .write ck n) ⟨[], none⟩ s → s.files.length ≤ cfg.limit + 1 := by
  intro h
  have h1 : Steps ⟨3, 0, 1, -1, 1⟩ recorder [5, 6, 7] (fun pc => ∀ ck n, pc ≠ .write ck n) ⟨[], none⟩
      ⟨[recorded 1 0, recorded 2 0, recorded 3 0], some ⟨[5, 6, 7, 5, 6, 7, 5, 6, 7], (), 0, .rotate (.epoch 2)⟩⟩ :=
    two_sessions (n := 13) (m := 6) (files := [recorded 1 0, recorded 2 0]) (p := ⟨[5, 6, 7, 5, 6, 7], (), 0, .rotate (.epoch 1)⟩)
      (by decide +kernel) (by simp) (by decide +kernel)
  exact absurd (h _ _ _ (by decide) h1) (by decide)

/-- A process that is killed while it writes a checkpoint leaves a file that cannot be read, and since this is the newest checkpoint no process
can be started any more: files are written in place (trainer.py:453). -/
theorem C53_torn_write_refuted : ¬ ∀ (cfg : Config) (batches : List Nat) (s : Sys (List Nat) Unit),
    Steps cfg recorder batches (fun _ => True) ⟨[], none⟩ s → s.proc = none → ∃ t, launch cfg recorder s.files = some t := by
  intro h
  have h1 : Steps ⟨2, 2, 1, -1, 2⟩ recorder [5, 6, 7] (fun _ => True) ⟨[], none⟩ ⟨[recorded 0 2, ⟨Checkpoint.name (1, 0), none⟩], none⟩ :=
    .tail (session_steps (n := 8) (t := ⟨[recorded 0 2, ⟨Checkpoint.name (1, 0), none⟩], some ⟨[5, 6, 7], (), 0, .write 1 (.epoch 0)⟩⟩) .refl
      (by decide +kernel)) (.kill trivial)
  obtain ⟨t, ht⟩ := h _ _ _ h1 rfl
  have : launch ⟨2, 2, 1, -1, 2⟩ recorder [recorded 0 2, ⟨Checkpoint.name (1, 0), none⟩] = none := by decide +kernel
  rw [this] at ht
  simp at ht

/-- Gradient descent with momentum: the state is the velocity. -/
def momentum : Learner Int Int Int := ⟨fun p v d => (p - (v + d), v + d), 0, 0⟩

/-- The state of the optimizer is not saved (trainer.py:446-450): with momentum an interrupted training ends with other parameters than one that
is not interrupted. -/
theorem C53_optimizer_refuted : ¬ ∀ (cfg : Config) (L : Learner Int Int Int) (batches : List Int) (s t : Sys Int Int) (p q : Proc Int Int),
    Steps cfg L batches (fun pc => ∀ ck n, pc ≠ .write ck n) ⟨[], none⟩ s → s.proc = some p → p.pc = .done →
    Steps cfg L batches (fun _ => False) ⟨[], none⟩ t → t.proc = some q → q.pc = .done → p.params = q.params := by
  intro h
  have h1 := two_sessions (cfg := ⟨2, 0, 1, -1, 0⟩) (L := momentum) (batches := [1]) (killable := fun pc => ∀ ck n, pc ≠ .write ck n) (n := 5) (m := 5)
    (files := [⟨Checkpoint.name (1, 0), some (1, 0, -1)⟩]) (p := ⟨-1, 1, 0, .batch 1 0⟩)
    (t := ⟨[⟨Checkpoint.name (1, 0), some (1, 0, -1)⟩, ⟨Checkpoint.name (2, 0), some (2, 0, -2)⟩], some ⟨-2, 1, 0, .done⟩⟩)
    (by decide +kernel) (by simp) (by decide +kernel)
  have h2 : Steps ⟨2, 0, 1, -1, 0⟩ momentum [1] (fun _ => False) ⟨[], none⟩
      ⟨[⟨Checkpoint.name (1, 0), some (1, 0, -1)⟩, ⟨Checkpoint.name (2, 0), some (2, 0, -3)⟩], some ⟨-3, 2, 0, .done⟩⟩ :=
    session_steps (n := 10) .refl (by decide +kernel)
  have := h _ _ _ _ _ _ _ h1 rfl rfl h2 rfl rfl
  exact absurd this (by decide)

/-- Gradient descent with the linear schedule over four steps: the state is the number of steps. -/
def scheduled : Learner Rat Nat Rat := ⟨fun p n d => (p - Schedule.linear 0 4 n * d, n + 1), 0, 0⟩

/-- Nor is the state of the schedule: after a restart the learning rate begins again at its first value. -/
theorem C53_schedule_refuted : ¬ ∀ (cfg : Config) (L : Learner Rat Nat Rat) (batches : List Rat) (s t : Sys Rat Nat) (p q : Proc Rat Nat),
    Steps cfg L batches (fun pc => ∀ ck n, pc ≠ .write ck n) ⟨[], none⟩ s → s.proc = some p → p.pc = .done →
    Steps cfg L batches (fun _ => False) ⟨[], none⟩ t → t.proc = some q → q.pc = .done → p.params = q.params := by
  intro h
  have h1 := two_sessions (cfg := ⟨2, 0, 1, 2, 0⟩) (L := scheduled) (batches := [1, 1]) (killable := fun pc => ∀ ck n, pc ≠ .write ck n) (n := 5)
    (m := 5) (files := [⟨Checkpoint.name (1, 0), some (1, 0, -7/4)⟩]) (p := ⟨-7/4, 2, 0, .batch 1 0⟩)
    (t := ⟨[⟨Checkpoint.name (1, 0), some (1, 0, -7/4)⟩, ⟨Checkpoint.name (2, 0), some (2, 0, -7/2)⟩], some ⟨-7/2, 2, 0, .done⟩⟩)
    (by decide +kernel) (by simp) (by decide +kernel)
  have h2 : Steps ⟨2, 0, 1, 2, 0⟩ scheduled [1, 1] (fun _ => False) ⟨[], none⟩
      ⟨[⟨Checkpoint.name (1, 0), some (1, 0, -7/4)⟩, ⟨Checkpoint.name (2, 0), some (2, 0, -5/2)⟩], some ⟨-5/2, 4, 0, .done⟩⟩ :=
    session_steps (n := 10) .refl (by decide +kernel)
  have := h _ _ _ _ _ _ _ h1 rfl rfl h2 rfl rfl
  exact absurd this (by decide +kernel)

end DeepGNN
