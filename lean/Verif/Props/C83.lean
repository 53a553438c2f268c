import Verif.Proofs.DataParallel

/-! C83: data-parallel workers compute what one process would. -/

namespace DeepGNN

open DeepGNN.DataParallel DeepGNN.Spec

variable {P O D G : Type}

/-- In every state that any schedule of the workers can reach, each worker holds exactly the
parameters and the optimizer state that one process has after as many updates with the joint batches,
starting from rank 0's parameters; and no worker is more than one update ahead of another. With
Horovod all workers must have equally many batches in each epoch; with Horovod and without mixed
precision clipping must be off. -/
theorem C83_one_process_partial {m : Mode} {L : Learner P O D G} {p : P} {ps : List P} {o : O}
    {data : List (List (List D))} (hl : (p :: ps).length = data.length)
    (hm : ClipsTheAverage m L) (hc : m.join = true → SameCounts data)
    {acts : List Act} {ws : List (Worker P O D G)}
    (hr : run m L acts (launch L (p :: ps) o data) = some ws) :
    (∀ w ∈ ws, oneProcess L (data.map List.flatten) p o (updates w) = some (w.params, w.opt)) ∧
    (∀ v ∈ ws, ∀ w ∈ ws, updates v ≤ updates w + 1) := by
  have h := run_inv hm acts _ _ hr (launch_inv hl hc)
  exact ⟨fun w hw => inv_params h hw, fun v hv w hw => inv_close h hv hw⟩

/-- If all workers have equally many batches in each epoch, no schedule gets stuck or goes on for
ever: as long as some worker has not finished something can happen, the number of actions is
bounded, and in the end all workers hold the parameters of one process that has trained on all
batches. -/
theorem C83_finishes_partial {m : Mode} {L : Learner P O D G} {p : P} {ps : List P} {o : O}
    {data : List (List (List D))} (hl : (p :: ps).length = data.length)
    (hm : ClipsTheAverage m L) (hc : SameCounts data)
    {acts : List Act} {ws : List (Worker P O D G)}
    (hr : run m L acts (launch L (p :: ps) o data) = some ws) :
    acts.length ≤ actionBound data ∧
    ((∃ a ws', step m L ws a = some ws') ∨
      (∀ w ∈ ws, Finished w) ∧ ws.length = data.length ∧
      ∀ w ∈ ws, ∀ es ∈ data, oneProcess L (data.map List.flatten) p o es.flatten.length = some (w.params, w.opt)) := by
  have h := run_inv hm acts _ _ hr (launch_inv hl fun _ => hc)
  have hcost := run_cost acts _ _ hr
  rw [launch_cost hl] at hcost
  refine ⟨by omega, ?_⟩
  rcases progress hc h with h' | hfin
  · exact Or.inl h'
  refine Or.inr ⟨hfin, h.1, ?_⟩
  intro w hw es hes
  have hp := inv_params h hw
  obtain ⟨_, R, shape, ha⟩ := h
  obtain ⟨r, hr'⟩ := List.getElem?_of_mem hw
  obtain ⟨es', he', hok⟩ := ha r w hr'
  have htot := sameCounts_total hc hes (List.mem_of_getElem? he')
  have hf := hfin w hw
  have hleft := hok.left
  rw [hf.2] at hleft
  have hlen := congrArg List.length hleft
  simp only [List.flatten_nil, List.length_nil, List.length_drop] at hlen
  have hle := hok.le
  have hu : updates w = es.flatten.length := by
    unfold updates
    rw [hf.1]
    simp only
    omega
  rw [hu] at hp
  exact hp

/-- A learner with whole numbers: the gradient is the distance to the batch, the average is a sum,
gradients are clipped at 10 and the optimizer counts its steps. -/
def C83_learner : Learner Int Nat Int Int where
  grad p d := d - p
  average gs := gs.sum
  zero := 0
  clip g := min g 10
  update p o g := (p + g, o + 1)

/-- Two workers with two epochs of one and two batches. -/
def C83_data : List (List (List Int)) := [[[5], [7, 40]], [[6], [8, 50]]]

/-- A schedule in which the workers take turns in different orders. -/
def C83_acts : List Act :=
  [.compute 1, .compute 0, .reduce, .clip 0, .apply 0, .endEpoch 0, .clip 1, .compute 0, .apply 1,
    .endEpoch 1, .compute 1, .reduce, .clip 1, .apply 1, .compute 1, .clip 0, .apply 0, .compute 0, .reduce,
    .clip 0, .clip 1, .apply 1, .apply 0, .endEpoch 0, .endEpoch 1]

/-- The hypotheses are met: a run to the end. Both workers end with the parameters of one process. -/
example : SameCounts C83_data ∧ ClipsTheAverage ddp C83_learner ∧
    (run ddp C83_learner C83_acts (launch C83_learner [1, 100] 0 C83_data)).map
      (fun ws => ws.map fun w => (w.params, w.opt, w.pc, w.todo)) =
      some [(15, 3, .ready, []), (15, 3, .ready, [])] ∧
    oneProcess C83_learner (C83_data.map List.flatten) 1 0 3 = some (15, 3) ∧
    oneProcess C83_learner (C83_data.map List.flatten) 1 0 2 = some (5, 2) := by
  refine ⟨?_, Or.inl rfl, ?_, ?_, ?_⟩
  · unfold SameCounts C83_data; decide
  all_goals decide +kernel

/-- The same with Horovod and mixed precision: a run with `join`. -/
example : (run hvdFp16 C83_learner
      [.compute 1, .compute 0, .reduce, .clip 0, .apply 0, .endEpoch 0, .clip 1, .apply 1, .endEpoch 1, .release,
        .compute 0, .compute 1, .reduce, .clip 1, .apply 1, .clip 0, .compute 1]
      (launch C83_learner [1, 100] 0 C83_data)).map
      (fun ws => ws.map fun w => (w.params, updates w, w.pc)) =
      some [(10, 1, .got true), (5, 2, .sent false)] := by
  decide +kernel

/-- DDP with uneven data: one worker has one batch, the other two. After the first step the second
worker waits for ever for an all-reduce that the first never takes part in. -/
theorem C83_uneven_ddp_refuted :
    ∃ (data : List (List (List Int))) (acts : List Act) (ws : List (Worker Int Nat Int Int)),
      run ddp C83_learner acts (launch C83_learner [1, 100] 0 data) = some ws ∧
      (∀ a, step ddp C83_learner ws a = none) ∧ ∃ w ∈ ws, ¬ Finished w := by
  refine ⟨[[[5]], [[6, 7]]],
    [.compute 0, .compute 1, .reduce, .clip 0, .apply 0, .endEpoch 0, .clip 1, .apply 1, .compute 1],
    [⟨10, 1, 9, 1, [], .ready⟩, ⟨10, 1, -3, 2, [[]], .sent false⟩], by decide +kernel, ?_, ?_⟩
  · intro a
    have on : ∀ (f : Worker Int Nat Int Int → Option (Worker Int Nat Int Int)) (r : Nat),
        f ⟨10, 1, 9, 1, [], .ready⟩ = none → f ⟨10, 1, -3, 2, [[]], .sent false⟩ = none →
        onRank [⟨10, 1, 9, 1, [], .ready⟩, ⟨10, 1, -3, 2, [[]], .sent false⟩] r f = none := by
      intro f r h1 h2
      match r with
      | 0 => simp [onRank, h1]
      | 1 => simp [onRank, h2]
      | r + 2 => simp [onRank]
    cases a with
    | compute r => exact on _ r rfl rfl
    | clip r => exact on _ r rfl rfl
    | apply r => exact on _ r rfl rfl
    | endEpoch r => exact on _ r rfl rfl
    | reduce => rfl
    | release => rfl
  · refine ⟨⟨10, 1, -3, 2, [[]], .sent false⟩, by simp, ?_⟩
    intro h
    cases h.1

/-- Horovod with uneven data and no clipping: the worker that joins early misses the remaining
updates of the epoch, and the two models differ from then on, also after the last epoch. -/
theorem C83_uneven_hvd_refuted :
    ∃ (data : List (List (List Int))) (acts : List Act) (v w : Worker Int Nat Int Int),
      run hvd { C83_learner with clip := id } acts
        (launch { C83_learner with clip := id } [1, 100] 0 data) = some [v, w] ∧
      Finished v ∧ Finished w ∧ v.params ≠ w.params := by
  refine ⟨[[[5]], [[6, 7]]],
    [.compute 0, .compute 1, .reduce, .clip 0, .apply 0, .endEpoch 0, .clip 1, .apply 1, .compute 1, .reduce,
      .clip 1, .apply 1, .endEpoch 1, .release],
    ⟨10, 1, 9, 1, [], .ready⟩, ⟨7, 2, -3, 2, [], .ready⟩, ?_, ⟨rfl, rfl⟩, ⟨rfl, rfl⟩, by decide⟩
  decide +kernel

/-- Horovod without mixed precision and with `clip_grad`: clipping runs beside the all-reduce. One
worker clips before the all-reduce, the other after it: they end with different models, although
both had one batch. The first has applied a gradient of 24 although gradients are clipped at 10. -/
theorem C83_clip_hvd_refuted :
    ∃ (data : List (List (List Int))) (acts : List Act) (v w : Worker Int Nat Int Int),
      SameCounts data ∧
      run hvd C83_learner acts (launch C83_learner [1, 100] 0 data) = some [v, w] ∧
      Finished v ∧ Finished w ∧ v.params ≠ w.params ∧ v.grad = 24 ∧ ∀ g, C83_learner.clip g ≤ 10 := by
  refine ⟨[[[100]], [[15]]],
    [.compute 0, .compute 1, .clip 0, .reduce, .clip 1, .apply 0, .apply 1, .endEpoch 0, .endEpoch 1, .release],
    ⟨25, 1, 24, 1, [], .ready⟩, ⟨11, 1, 10, 1, [], .ready⟩, ?_, ?_, ⟨rfl, rfl⟩, ⟨rfl, rfl⟩, by decide, rfl, ?_⟩
  · unfold SameCounts; decide
  · decide +kernel
  · intro g
    exact Int.min_le_right g 10

end DeepGNN
