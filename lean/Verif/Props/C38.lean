import Verif.Proofs.DistSync

/-
C38: the distributed sync is a barrier.
-/

namespace DeepGNN

open DistSync

/-- C38 (partial: for the first use of a tag): in every run of any number of tasks, whatever files were left in the folder, in which
task 0 is constructed first, when a task returns from `sync(tag)` every task has called `sync(tag)`. -/
theorem C38_barrier_partial {n : Nat} {files : List (List Char)} {pre post : List Act} {t : Nat} {tag : List Char} {s : State}
    (h : run n (init n files) (.start 0 :: (pre ++ .ret t tag :: post)) = some s) : ∀ i, i < n → Act.call i tag ∈ pre := by
  intro i hi
  rw [← List.cons_append, run_append, Option.bind_eq_some_iff] at h
  obtain ⟨u, h1, h2⟩ := h
  have hinv := reach_inv h1
  rw [run, Option.bind_eq_some_iff] at h2
  obtain ⟨v, h3, -⟩ := h2
  rw [exec] at h3
  split at h3
  · rename_i hp
    have := (hinv.wait t tag n hp).2 i hi
    simpa using this
  · cases h3

/-- No task is left behind: once every task has called `sync(tag)`, a task waiting in it returns by its own actions alone. -/
theorem C38_released {n : Nat} {files : List (List Char)} {acts : List Act} {s : State} {t i : Nat} {tag : List Char}
    (h : run n (init n files) (.start 0 :: acts) = some s) (hp : s.phases[t]? = some (.waiting tag i))
    (hc : ∀ j, j < n → Act.call j tag ∈ acts) : ∃ k s', run n s (List.replicate k (.check t) ++ [.ret t tag]) = some s' := by
  have hinv := reach_inv h
  have hi := (hinv.wait t tag i hp).1
  obtain ⟨s', hs'⟩ := finish (n - i) hp (by omega) (fun j hj => (hinv.file tag j).2 (List.mem_cons_of_mem _ (hc j hj)))
  exact ⟨n - i, s', hs'⟩

/-- Different tags and tasks use different files. -/
theorem C38_names {tag tag' : List Char} {i j : Nat} : fileName tag i = fileName tag' j ↔ tag = tag' ∧ i = j :=
  ⟨fileName_inj, by rintro ⟨rfl, rfl⟩; rfl⟩

namespace DistSync

def a : List Char := "epoch.1".toList

/-- Three tasks over a folder with an old file. -/
def exRun : List Act :=
  [.start 0, .start 2, .call 2 a, .check 2, .start 1, .call 0 a, .check 0, .check 0, .call 1 a, .check 0, .check 2, .check 0, .check 2,
    .check 2, .ret 2 a, .ret 0 a]

end DistSync

/-- A run meets the hypotheses; before all files are there nobody returns. -/
example : (run 3 (init 3 [fileName a 1, "graph".toList]) exRun).isSome ∧
    run 3 (init 3 [fileName a 1, "graph".toList]) [.start 0, .start 2, .call 2 a, .check 2, .check 2, .ret 2 a] = none := by
  decide +kernel

/-- The full claim fails for tags used twice: task 0 returns a second time although task 1 has called `sync` once. -/
theorem C38_reuse_refuted : ∃ acts : List Act, (run 2 (init 2 []) (.start 0 :: acts)).isSome ∧ acts.count (.ret 0 a) = 2 ∧
    acts.count (.call 1 a) = 1 :=
  ⟨[.start 1, .call 0 a, .call 1 a, .check 0, .check 0, .ret 0 a, .check 1, .check 1, .ret 1 a, .call 0 a, .check 0, .check 0, .ret 0 a],
    by decide +kernel, by decide +kernel, by decide +kernel⟩

/-- It also fails if task 0 is not constructed first: an old file lets task 1 pass alone. -/
theorem C38_stale_refuted : ∃ (files : List (List Char)) (acts : List Act), (run 2 (init 2 files) acts).isSome ∧
    Act.ret 1 a ∈ acts ∧ Act.call 0 a ∉ acts :=
  ⟨[fileName a 0], [.start 1, .call 1 a, .check 1, .check 1, .ret 1 a], by decide +kernel, by decide, by decide⟩

namespace DistSync

/-- Task 1 waits for its own file. -/
structure Stuck (s : State) : Prop where
  size : s.phases.length = 2
  file : fileName a 1 ∉ s.files
  one : s.phases[1]? = some (.waiting a 0) ∨ s.phases[1]? = some (.waiting a 1)
  zero : ∀ i, s.phases[0]? = some (.waiting a i) → i ≤ 1
  on : s.phases[0]? ≠ some .off

theorem Stuck.exec {s t : State} {x : Act} (h : Stuck s) (hx : exec 2 s x = some t) :
    Stuck t ∧ x ≠ .ret 0 a ∧ x ≠ .ret 1 a := by
  have hsize := h.size
  have hfile := h.file
  have hone := h.one
  have hzero := h.zero
  have hon := h.on
  obtain ⟨files, phases⟩ := s
  match phases, hsize with
  | [p, q], _ =>
    simp only [List.getElem?_cons_zero, List.getElem?_cons_succ, Option.some.injEq] at *
    have none2 : ∀ k : Nat, ([p, q] : List Phase)[k + 2]? = none := by intro k; rfl
    have noff : q ≠ .off := by rcases hone with rfl | rfl <;> simp
    have nidle : q ≠ .idle := by rcases hone with rfl | rfl <;> simp
    cases x with
    | start k =>
      match k with
      | 0 => simp [DistSync.exec, hon] at hx
      | 1 => simp [DistSync.exec, noff] at hx
      | k + 2 => simp [DistSync.exec] at hx
    | call k tag =>
      match k with
      | 0 =>
        simp only [DistSync.exec, List.getElem?_cons_zero, Option.some.injEq, List.set_cons_zero] at hx
        split at hx
        · simp only [Option.some.injEq] at hx
          subst hx
          refine ⟨⟨rfl, ?_, by simpa using hone, ?_, by simp⟩, by simp, by simp⟩
          · simp only [List.mem_cons, not_or]
            exact ⟨fun e => absurd (fileName_inj e).2 (by decide), hfile⟩
          · intro i hi
            simp only [List.getElem?_cons_zero, Option.some.injEq, Phase.waiting.injEq] at hi
            omega
        · cases hx
      | 1 => simp [DistSync.exec, nidle] at hx
      | k + 2 => simp [DistSync.exec] at hx
    | check k =>
      match k with
      | 0 =>
        simp only [DistSync.exec, List.getElem?_cons_zero, List.set_cons_zero] at hx
        split at hx
        · rename_i tag i hp
          split at hx
          · split at hx
            · rename_i hf
              simp only [Option.some.injEq] at hx hp
              subst hx
              refine ⟨⟨rfl, hfile, by simpa using hone, ?_, by simp⟩, by simp, by simp⟩
              intro j hj
              simp only [List.getElem?_cons_zero, Option.some.injEq, Phase.waiting.injEq] at hj
              have h1 := hzero i (by rw [hp, hj.1])
              have h2 : i ≠ 1 := by rintro rfl; rw [hj.1] at hf; exact hfile hf
              omega
            · simp only [Option.some.injEq] at hx
              subst hx
              exact ⟨h, by simp, by simp⟩
          · cases hx
        · cases hx
      | 1 =>
        simp only [DistSync.exec, List.getElem?_cons_zero, List.getElem?_cons_succ] at hx
        rcases hone with rfl | rfl
        · simp only [Nat.zero_lt_succ, if_true] at hx
          split at hx
          · simp only [Option.some.injEq] at hx
            subst hx
            exact ⟨⟨rfl, hfile, Or.inr rfl, by simpa using hzero, by simpa using hon⟩, by simp, by simp⟩
          · simp only [Option.some.injEq] at hx
            subst hx
            exact ⟨h, by simp, by simp⟩
        · simp only [if_neg hfile] at hx
          rw [if_pos (by decide), Option.some.injEq] at hx
          subst hx
          exact ⟨h, by simp, by simp⟩
      | k + 2 => simp [DistSync.exec] at hx
    | ret k tag =>
      match k with
      | 0 =>
        simp only [DistSync.exec, List.getElem?_cons_zero, Option.some.injEq, List.set_cons_zero] at hx
        split at hx
        · rename_i hp
          simp only [Option.some.injEq] at hx
          subst hx
          refine ⟨⟨rfl, hfile, by simpa using hone, by simp, by simp⟩, ?_, by simp⟩
          intro e
          simp only [Act.ret.injEq, true_and] at e
          have := hzero 2 (by rw [hp, e])
          omega
        · cases hx
      | 1 =>
        rcases hone with rfl | rfl <;> simp [DistSync.exec] at hx
      | k + 2 => simp [DistSync.exec] at hx

theorem Stuck.run : ∀ {acts : List Act} {s t : State}, Stuck s → run 2 s acts = some t → Act.ret 0 a ∉ acts ∧ Act.ret 1 a ∉ acts
  | [], _, _, _, _ => ⟨by simp, by simp⟩
  | x :: acts, s, t, h, hr => by
    rw [DistSync.run, Option.bind_eq_some_iff] at hr
    obtain ⟨u, h1, h2⟩ := hr
    have h3 := h.exec h1
    have h4 := Stuck.run h3.1 h2
    simp only [List.mem_cons, not_or]
    exact ⟨⟨h3.2.1.symm, h4.1⟩, ⟨h3.2.2.symm, h4.2⟩⟩

end DistSync

/-- And if task 0 is constructed after task 1 has called `sync`, it removes the file of task 1, and neither ever returns. -/
theorem C38_late_refuted : ∃ s, run 2 (init 2 []) [.start 1, .call 1 a, .start 0] = some s ∧
    ∀ acts t, run 2 s acts = some t → Act.ret 0 a ∉ acts ∧ Act.ret 1 a ∉ acts := by
  refine ⟨⟨[], [.idle, .waiting a 0]⟩, by decide +kernel, fun acts t h => Stuck.run ⟨rfl, by simp, Or.inl rfl, by simp, by simp⟩ h⟩

end DeepGNN
