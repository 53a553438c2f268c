import Verif.Proofs.TfTrainer
import Verif.Spec.TfTrainer

/-
C102: the last checkpoint of training with parameter servers.
-/

namespace DeepGNN

open TfTrainer

/-- The operations of a worker that trains once and evaluates any number of times afterwards. -/
def TfTrainer.trainOnce (k : Nat → Nat) (evals : Nat → List Nat) (t : Nat) : List Op := train 0 t (k t) ++ (evals t).flatMap evaluate

/-- What a run that the chief has begun satisfies. -/
theorem TfTrainer.reach {n : Nat} {files : List (List Char)} {k : Nat → Nat} {evals : Nat → List Nat} {acts : List Act} {s : State}
    (h : run n (init n files (trainOnce k evals)) (.op 0 :: acts) = some s) :
    ∃ a past, Inv n (fun t => .construct :: trainOnce k evals t) a past s := by
  rw [run, Option.bind_eq_some_iff] at h
  obtain ⟨u, h1, h2⟩ := h
  obtain ⟨a, past, hi⟩ := inv_first h1
  exact Inv.run (shape_ok n k (fun t => (evals t).flatMap evaluate) fun t => plain_flatMap _) hi h2

theorem TfTrainer.trained {n : Nat} {files : List (List Char)} {k : Nat → Nat} {evals : Nat → List Nat} {acts : List Act} {s : State}
    (h : run n (init n files (trainOnce k evals)) (.op 0 :: acts) = some s) {q : List Op} (hq : s.todo[0]? = some q) (hsave : Op.save ∉ q) :
    s.saved = some s.updates ∧ Spec.EveryUpdate n k s.updates := by
  obtain ⟨a, past, hi⟩ := reach h
  have ht := hi.task 0 q hq
  have hmem : Op.save ∈ past 0 := by
    have hw : Op.save ∈ Op.construct :: trainOnce k evals 0 := by simp [trainOnce, train, chiefEnd]
    rw [ht.split, List.mem_append] at hw
    exact hw.resolve_right hsave
  obtain ⟨h1, h2⟩ := hi.fin hmem
  refine ⟨h1, hi.nodup, ?_⟩
  rintro ⟨t, c, j⟩
  rw [hi.upd]
  have hpl : ∀ t, Plain ((evals t).flatMap evaluate) := fun t => plain_flatMap _
  constructor
  · rintro ⟨hn, hm⟩
    obtain ⟨q', hq'⟩ : ∃ q', s.todo[t]? = some q' := ⟨_, List.getElem?_eq_getElem (by rw [hi.size]; exact hn)⟩
    have hw : Op.step c j ∈ Op.construct :: trainOnce k evals t := by
      rw [(hi.task t q' hq').split]
      exact List.mem_append_left _ hm
    obtain ⟨rfl, hj⟩ := (mem_steps (hpl t)).1 hw
    exact ⟨t, j, hn, hj, rfl⟩
  · rintro ⟨t', j', hn, hj, h⟩
    cases h
    obtain ⟨q', hq'⟩ : ∃ q', s.todo[t]? = some q' := ⟨_, List.getElem?_eq_getElem (by rw [hi.size]; exact hn)⟩
    have hw : Op.step 0 j ∈ Op.construct :: trainOnce k evals t := (mem_steps (hpl t)).2 ⟨rfl, hj⟩
    rw [(hi.task t q' hq').split, List.mem_append] at hw
    exact ⟨hn, hw.resolve_right (h2 t q' hq' 0 j)⟩

/-- C102 (partial: for one call of `train`): in every run of any number of workers with any numbers of steps, whatever files were left in
the model folder, whenever checkpoints are saved in between, from the moment the chief has saved its last checkpoint of the training
on the last checkpoint holds the result of every update of every worker, once, and so do the parameters on the servers. -/
theorem C102_final_partial {n : Nat} {files : List (List Char)} {k : Nat → Nat} {evals : Nat → List Nat} {acts : List Act} {s : State}
    (h : run n (init n files (trainOnce k evals)) (.op 0 :: acts) = some s) {q : List Op} (hq : s.todo[0]? = some q) (hsave : Op.save ∉ q) :
    ∃ u, s.saved = some u ∧ s.updates = u ∧ Spec.EveryUpdate n k u := by
  obtain ⟨h1, h2⟩ := trained h hq hsave
  exact ⟨_, h1, rfl, h2⟩

/-- When any worker returns from `train`, the last checkpoint has been saved. -/
theorem C102_returned {n : Nat} {files : List (List Char)} {k : Nat → Nat} {evals : Nat → List Nat} {acts : List Act} {s : State} {t : Nat}
    {q : List Op} (h : run n (init n files (trainOnce k evals)) (.op 0 :: acts) = some s) (hq : s.todo[t]? = some q)
    (hdone : q.length ≤ ((evals t).flatMap evaluate).length) : ∃ u, s.saved = some u ∧ Spec.EveryUpdate n k u := by
  obtain ⟨a, past, hi⟩ := reach h
  have ht := hi.task t q hq
  have hn : 0 < n := by
    have := get_lt hq
    rw [hi.size] at this
    omega
  have hcall := ht.pass final (final_done ht.split hdone) 0 hn
  obtain ⟨q0, hq0⟩ : ∃ q', s.todo[0]? = some q' := ⟨_, List.getElem?_eq_getElem (by rw [hi.size]; exact hn)⟩
  have h0 := hi.task 0 q0 hq0
  have hsave : Op.save ∈ past 0 := saved_before h0.split (h0.called final hcall)
  have hns : Op.save ∉ q0 := by
    obtain ⟨l, r, hlr⟩ := List.append_of_mem hsave
    have hsp := h0.split
    rw [hlr] at hsp
    intro hm
    exact ((shape_ok n k (fun t => (evals t).flatMap evaluate) fun t => plain_flatMap _).saver 0 l (r ++ q0) (hsp.trans (by simp))).2.2
      (List.mem_append_right _ hm)
  obtain ⟨h1, h2⟩ := trained h hq0 hns
  exact ⟨_, h1, h2⟩

/-- Evaluation sees the trained parameters: no worker evaluates before every worker has made all its updates. -/
theorem C102_evaluated {n : Nat} {files : List (List Char)} {k : Nat → Nat} {evals : Nat → List Nat} {acts : List Act} {s : State} {t : Nat}
    {q : List Op} (h : run n (init n files (trainOnce k evals)) (.op 0 :: acts) = some s) (hq : s.todo[t]? = some (.look :: q)) :
    Spec.EveryUpdate n k s.updates := by
  obtain ⟨a, past, hi⟩ := reach h
  have hpl : ∀ t, Plain ((evals t).flatMap evaluate) := fun t => plain_flatMap _
  have ht := hi.task t _ hq
  have hs := shape_ok n k (fun t => (evals t).flatMap evaluate) hpl
  have hsess : Op.sync session ∈ past t := look_after ht.split (hpl t)
  have hquiet : ∀ (u : Nat) v, s.todo[u]? = some v → ∀ c j, Op.step c j ∉ v := by
    intro u v huv
    have hu := hi.task u v huv
    have hcall := ht.pass session hsess u (by rw [← hi.size]; exact get_lt huv)
    exact hs.quiet u _ _ session hu.split (hu.called session hcall)
  refine ⟨hi.nodup, ?_⟩
  rintro ⟨t, c, j⟩
  rw [hi.upd]
  constructor
  · rintro ⟨hn, hm⟩
    obtain ⟨q', hq'⟩ : ∃ q', s.todo[t]? = some q' := ⟨_, List.getElem?_eq_getElem (by rw [hi.size]; exact hn)⟩
    have hw : Op.step c j ∈ Op.construct :: trainOnce k evals t := by
      rw [(hi.task t q' hq').split]
      exact List.mem_append_left _ hm
    obtain ⟨rfl, hj⟩ := (mem_steps (hpl t)).1 hw
    exact ⟨t, j, hn, hj, rfl⟩
  · rintro ⟨t', j', hn, hj, h⟩
    cases h
    obtain ⟨q', hq'⟩ : ∃ q', s.todo[t]? = some q' := ⟨_, List.getElem?_eq_getElem (by rw [hi.size]; exact hn)⟩
    have hw : Op.step 0 j ∈ Op.construct :: trainOnce k evals t := (mem_steps (hpl t)).2 ⟨rfl, hj⟩
    rw [(hi.task t q' hq').split, List.mem_append] at hw
    exact ⟨hn, hw.resolve_right (hquiet t q' hq' 0 j)⟩

/-- The workers do not block each other: wherever a run has got to, it can go on until every worker has done everything. -/
theorem C102_completes {n : Nat} {files : List (List Char)} {k : Nat → Nat} {evals : Nat → List Nat} {acts : List Act} {s : State}
    (h : run n (init n files (trainOnce k evals)) (.op 0 :: acts) = some s) :
    ∃ more s', run n (init n files (trainOnce k evals)) (.op 0 :: acts ++ more) = some s' ∧ (∀ q ∈ s'.todo, q = []) ∧
      ∃ u, s'.saved = some u ∧ Spec.EveryUpdate n k u := by
  obtain ⟨a, past, hi⟩ := reach h
  obtain ⟨more, s', h1, h2⟩ := hi.completes (shape_ok n k (fun t => (evals t).flatMap evaluate) fun t => plain_flatMap _) (weight s) (Nat.le_refl _)
  have hr := (run_append (bs := more) h).trans h1
  refine ⟨more, s', hr, h2, ?_⟩
  have hn : 0 < s'.todo.length := by
    obtain ⟨a', past', hi'⟩ := reach hr
    rw [hi'.size]
    rcases Nat.eq_zero_or_pos n with rfl | hn
    · exfalso
      rw [run] at h
      simp [exec, init] at h
    · exact hn
  have h0 : s'.todo[0]? = some [] := by
    rw [List.getElem?_eq_getElem hn]
    exact congrArg some (h2 _ (List.getElem_mem hn))
  obtain ⟨h3, h4⟩ := trained hr h0 (by simp)
  exact ⟨_, h3, h4⟩

namespace TfTrainer

/-- Two workers with two steps and one; the chief saves between its steps, then waits for the other worker. -/
def exRun : List Act :=
  [.op 0, .op 1, .op 0, .timer, .op 0, .op 0, .check 0, .check 0, .op 1, .op 1, .check 0, .ret 0, .op 0]

def exSteps (t : Nat) : Nat := 2 - t

end TfTrainer

/-- The hypotheses are met; the last checkpoint has three updates, the one before had one. -/
example : ((run 2 (init 2 [DistSync.fileName session 1] (trainOnce exSteps fun _ => [1])) exRun).bind fun s => s.saved.map fun u =>
    (u, s.todo[0]?.map fun q => decide (Op.save ∈ q))) = some ([(1, 0, 0), (0, 0, 1), (0, 0, 0)], some false) ∧
    ((run 2 (init 2 [DistSync.fileName session 1] (trainOnce exSteps fun _ => [1])) (exRun.take 4)).bind fun s => s.saved) = some [(0, 0, 0)] ∧
    -- before the other worker ends its session the chief does not
    run 2 (init 2 [DistSync.fileName session 1] (trainOnce exSteps fun _ => [1])) (exRun.take 8 ++ [.ret 0]) = none := by
  decide +kernel

/-- Both workers return from `train`. -/
example : ((run 2 (init 2 [DistSync.fileName session 1] (trainOnce exSteps fun _ => [1]))
    (exRun ++ [.op 0, .check 0, .check 0, .ret 0, .op 0, .check 0, .check 1, .check 1, .ret 1, .op 1, .check 1, .check 1, .ret 1])).map fun s =>
      (s.todo[1]?.map List.length, s.saved.map List.length)) = some (some ((([1] : List Nat).flatMap evaluate).length), some 3) := by
  decide +kernel

/-- The full claim fails for a second call of `train` of the same trainers: its calls of `sync` find the files of the first training,
the chief saves its last checkpoint and ends everything while the other worker has made no update of the second training. -/
theorem C102_again_refuted : ∃ (acts : List Act) (s : State) (u : List (Nat × Nat × Nat)),
    run 2 (init 2 [] fun t => train 0 t 1 ++ train 1 t 1) (.op 0 :: acts) = some s ∧ s.todo[0]? = some [] ∧ s.saved = some u ∧
      (0, 1, 0) ∈ u ∧ (1, 1, 0) ∉ u ∧ s.todo[1]? = some (train 1 1 1) := by
  let acts : List Act := [.op 1, .op 0, .op 1, .op 0, .op 1, .check 0, .check 0, .ret 0, .op 0, .op 0, .check 0, .check 0, .ret 0,
    .check 1, .check 1, .ret 1, .op 0, .op 1, .check 0, .check 0, .ret 0, .check 1, .check 1, .ret 1,
    .op 0, .op 0, .check 0, .check 0, .ret 0, .op 0, .op 0, .check 0, .check 0, .ret 0, .op 0, .check 0, .check 0, .ret 0]
  have h : ((run 2 (init 2 [] fun t => train 0 t 1 ++ train 1 t 1) (.op 0 :: acts)).map fun s => (s.todo, s.saved)) =
      some ([[], train 1 1 1], some [(0, 1, 0), (1, 0, 0), (0, 0, 0)]) := by decide +kernel
  rw [Option.map_eq_some_iff] at h
  obtain ⟨s, h1, h2⟩ := h
  simp only [Prod.mk.injEq] at h2
  exact ⟨acts, s, _, h1, by rw [h2.1]; rfl, h2.2, by decide, by decide, by rw [h2.1]; rfl⟩

/-- The chief has to be constructed first.  Workers started again over running parameter servers find their variables initialised; if
another worker ends its session before the chief is constructed, the chief removes its file: both wait forever, no checkpoint is saved. -/
theorem C102_late_refuted : ∃ s : State, run 2 (init 2 [] (trainOnce (fun t => t) fun _ => [])) [.op 1, .op 1, .op 1, .op 0, .op 0] = some s ∧
    ∀ (acts : List Act) (s' : State), run 2 s acts = some s' → s'.saved = none ∧ s'.todo = s.todo := by
  have h : (run 2 (init 2 [] (trainOnce (fun t => t) fun _ => [])) [.op 1, .op 1, .op 1, .op 0, .op 0]).map State.sync =
      some ⟨[DistSync.fileName session 0], [.waiting session 0, .waiting session 0]⟩ := by decide +kernel
  have h' : (run 2 (init 2 [] (trainOnce (fun t => t) fun _ => [])) [.op 1, .op 1, .op 1, .op 0, .op 0]).map (fun s => (s.todo, s.saved)) =
      some ([chiefEnd ++ exitEnd ++ [.sync final], exitEnd ++ [.sync final]], none) := by decide +kernel
  rw [Option.map_eq_some_iff] at h
  obtain ⟨s, h1, hs⟩ := h
  rw [h1] at h'
  simp only [Option.map_some, Option.some.injEq, Prod.mk.injEq] at h'
  obtain ⟨ht, hv⟩ := h'
  refine ⟨s, h1, ?_⟩
  -- both wait, the file of worker 1 is missing
  have key : ∀ (acts : List Act) (a b : Nat) (x x' : State), a ≤ 1 → b ≤ 1 → x.sync = ⟨[DistSync.fileName session 0], [.waiting session a, .waiting session b]⟩ →
      x.todo = [chiefEnd ++ exitEnd ++ [.sync final], exitEnd ++ [.sync final]] → run 2 x acts = some x' → x'.saved = x.saved ∧ x'.todo = x.todo := by
    intro acts
    induction acts with
    | nil =>
      intro a b x x' _ _ _ _ hr
      cases hr
      exact ⟨rfl, rfl⟩
    | cons o acts ih =>
      intro a b x x' ha hb hx htodo hr
      rw [run, Option.bind_eq_some_iff] at hr
      obtain ⟨y, hy, hr⟩ := hr
      have hne : DistSync.fileName session 1 ≠ DistSync.fileName session 0 := by
        intro h
        have := (DistSync.fileName_inj h).2
        omega
      cases o with
      | op t =>
        match t with
        | 0 => simp [exec, htodo, chiefEnd, DistSync.exec, hx] at hy
        | 1 => simp [exec, htodo, exitEnd, DistSync.exec, hx] at hy
        | t + 2 => simp [exec, htodo] at hy
      | ret t =>
        match t with
        | 0 =>
          simp only [exec, htodo, chiefEnd, DistSync.exec, hx, List.getElem?_cons_zero, List.cons_append, Option.some.injEq, DistSync.Phase.waiting.injEq, true_and] at hy
          rw [if_neg (by omega)] at hy
          cases hy
        | 1 =>
          simp only [exec, htodo, exitEnd, DistSync.exec, hx, List.getElem?_cons_zero, List.getElem?_cons_succ, List.cons_append, Option.some.injEq, DistSync.Phase.waiting.injEq, true_and] at hy
          rw [if_neg (by omega)] at hy
          cases hy
        | t + 2 => simp [exec, htodo] at hy
      | timer => simp [exec, htodo, chiefEnd] at hy
      | check t =>
        match t with
        | 0 =>
          simp only [exec, DistSync.exec, hx, List.getElem?_cons_zero, List.mem_singleton] at hy
          rw [if_pos (by omega)] at hy
          split at hy
          · rename_i hf
            have ha0 := (DistSync.fileName_inj hf).2
            simp only [Option.map_some, Option.some.injEq] at hy
            have e1 := congrArg State.sync hy
            have e2 := congrArg State.todo hy
            have e3 := congrArg State.saved hy
            simp only [List.set_cons_zero, List.set_cons_succ] at e1 e2 e3
            obtain ⟨h5, h6⟩ := ih (a + 1) b y x' (by omega) hb e1.symm (e2.symm.trans htodo) hr
            exact ⟨h5.trans e3.symm, h6.trans e2.symm⟩
          · simp only [Option.map_some, Option.some.injEq] at hy
            have e1 := congrArg State.sync hy
            have e2 := congrArg State.todo hy
            have e3 := congrArg State.saved hy
            simp only [List.set_cons_zero, List.set_cons_succ] at e1 e2 e3
            obtain ⟨h5, h6⟩ := ih a b y x' ha hb e1.symm (e2.symm.trans htodo) hr
            exact ⟨h5.trans e3.symm, h6.trans e2.symm⟩
        | 1 =>
          simp only [exec, DistSync.exec, hx, List.getElem?_cons_zero, List.getElem?_cons_succ, List.mem_singleton] at hy
          rw [if_pos (by omega)] at hy
          split at hy
          · rename_i hf
            have ha0 := (DistSync.fileName_inj hf).2
            simp only [Option.map_some, Option.some.injEq] at hy
            have e1 := congrArg State.sync hy
            have e2 := congrArg State.todo hy
            have e3 := congrArg State.saved hy
            simp only [List.set_cons_zero, List.set_cons_succ] at e1 e2 e3
            obtain ⟨h5, h6⟩ := ih a (b + 1) y x' ha (by omega) e1.symm (e2.symm.trans htodo) hr
            exact ⟨h5.trans e3.symm, h6.trans e2.symm⟩
          · simp only [Option.map_some, Option.some.injEq] at hy
            have e1 := congrArg State.sync hy
            have e2 := congrArg State.todo hy
            have e3 := congrArg State.saved hy
            simp only [List.set_cons_zero, List.set_cons_succ] at e1 e2 e3
            obtain ⟨h5, h6⟩ := ih a b y x' ha hb e1.symm (e2.symm.trans htodo) hr
            exact ⟨h5.trans e3.symm, h6.trans e2.symm⟩
        | t + 2 => simp [exec, DistSync.exec, hx] at hy
  intro acts s' hr
  obtain ⟨h3, h4⟩ := key acts 0 0 s s' (by omega) (by omega) hs ht hr
  exact ⟨h3.trans hv, h4⟩

end DeepGNN
