import Verif.Spec.DataParallel

/-! Invariants of data-parallel training. -/

namespace DeepGNN.DataParallel

open DeepGNN.Spec

variable {P O D G : Type}

/-- What holds of a worker after `R` all-reduces. -/
def Phase (m : Mode) (L : Learner P O D G) (sync : Nat → Option (P × O)) (avg : Nat → Option G)
    (R : Nat) (es : List (List D)) (w : Worker P O D G) : Prop :=
  match w.pc with
  | .ready => w.steps = R ∧ sync R = some (w.params, w.opt)
  | .joined => w.steps = R ∧ sync R = some (w.params, w.opt) ∧ m.join = true
  | .sent c => w.steps = R + 1 ∧ sync R = some (w.params, w.opt) ∧
      (∃ d, es.flatten[R]? = some d ∧ w.grad = L.grad w.params d) ∧ (c = true → ∀ g, L.clip g = g)
  | .got c => w.steps = R ∧ ∃ R', R = R' + 1 ∧ sync R' = some (w.params, w.opt) ∧
      ∃ a, avg R' = some a ∧ w.grad = if c then L.clip a else a

/-- How many batches a worker has left in each epoch, while there is a Horovod `join`. -/
def Shape (shape : List Nat) (w : Worker P O D G) : Prop :=
  match w.pc with
  | .ready => w.todo.map List.length = shape
  | .got _ => w.todo.map List.length = shape
  | .joined => shape = 0 :: w.todo.map List.length
  | .sent _ => ∃ n ls, shape = (n + 1) :: ls ∧ w.todo.map List.length = n :: ls

structure Ok (m : Mode) (L : Learner P O D G) (sync : Nat → Option (P × O)) (avg : Nat → Option G)
    (R : Nat) (shape : List Nat) (es : List (List D)) (w : Worker P O D G) : Prop where
  left : w.todo.flatten = es.flatten.drop w.steps
  le : w.steps ≤ es.flatten.length
  phase : Phase m L sync avg R es w
  shaped : m.join = true → Shape shape w

def Inv (m : Mode) (L : Learner P O D G) (sync : Nat → Option (P × O)) (avg : Nat → Option G)
    (data : List (List (List D))) (ws : List (Worker P O D G)) : Prop :=
  ws.length = data.length ∧ ∃ R shape, ∀ (r : Nat) w, ws[r]? = some w →
    ∃ es, data[r]? = some es ∧ Ok m L sync avg R shape es w

/-- The average gradient of the `k`-th step of one process. -/
def avgOf (L : Learner P O D G) (batches : List (List D)) (p : P) (o : O) (k : Nat) : Option G :=
  (oneProcess L batches p o k).bind fun s =>
    (jointBatch batches k).map fun ds => L.average (ds.map (L.grad s.1))

theorem oneProcess_succ {L : Learner P O D G} {batches : List (List D)} {p : P} {o : O} {k : Nat}
    {s : P × O} {a : G} (hs : oneProcess L batches p o k = some s)
    (ha : avgOf L batches p o k = some a) :
    oneProcess L batches p o (k + 1) = some (L.update s.1 s.2 (L.clip a)) := by
  unfold avgOf at ha
  rw [hs] at ha
  simp only [Option.bind_some] at ha
  unfold oneProcess
  rw [hs]
  simp only [Option.bind_some]
  cases hj : jointBatch batches k with
  | none => rw [hj] at ha; cases ha
  | some ds =>
    rw [hj] at ha
    simp only [Option.map_some, Option.some.injEq] at ha ⊢
    rw [ha]

theorem onRank_some {ws ws' : List (Worker P O D G)} {r : Nat}
    {f : Worker P O D G → Option (Worker P O D G)} (h : onRank ws r f = some ws') :
    ∃ w w', ws[r]? = some w ∧ f w = some w' ∧ ws' = ws.set r w' := by
  unfold onRank at h
  cases hw : ws[r]? with
  | none => rw [hw] at h; cases h
  | some w =>
    rw [hw] at h
    simp only [Option.bind_some] at h
    cases hf : f w with
    | none => rw [hf] at h; cases h
    | some w' =>
      rw [hf] at h
      simp only [Option.map_some, Option.some.injEq] at h
      exact ⟨w, w', rfl, hf, h.symm⟩

/-- If one worker acts, nothing changes for the others. -/
theorem inv_set {m : Mode} {L : Learner P O D G} {sync avg} {data : List (List (List D))}
    {ws : List (Worker P O D G)} {r : Nat} {w w' : Worker P O D G}
    (h : Inv m L sync avg data ws) (hw : ws[r]? = some w)
    (hok : ∀ R shape es, data[r]? = some es → Ok m L sync avg R shape es w →
      Ok m L sync avg R shape es w') :
    Inv m L sync avg data (ws.set r w') := by
  obtain ⟨hl, R, shape, ha⟩ := h
  refine ⟨by rw [List.length_set]; exact hl, R, shape, ?_⟩
  intro i v hv
  rw [List.getElem?_set] at hv
  by_cases hri : r = i
  · subst hri
    simp only [if_true] at hv
    by_cases hlt : r < ws.length
    · rw [if_pos hlt] at hv
      cases hv
      obtain ⟨es, he, hok'⟩ := ha r w hw
      exact ⟨es, he, hok R shape es he hok'⟩
    · rw [if_neg hlt] at hv; cases hv
  · rw [if_neg hri] at hv
    exact ha i v hv

theorem compute_ok {m : Mode} {L : Learner P O D G} {sync avg R shape} {es : List (List D)}
    {w w' : Worker P O D G} (hf : compute L w = some w') (h : Ok m L sync avg R shape es w) :
    Ok m L sync avg R shape es w' := by
  obtain ⟨params, opt, grad, steps, todo, pc⟩ := w
  obtain ⟨h1, h2, h3, h4⟩ := h
  unfold compute at hf
  cases pc with
  | ready =>
    cases todo with
    | nil => cases hf
    | cons x rest =>
      cases x with
      | nil => cases hf
      | cons d ds =>
        cases hf
        simp only [Phase] at h3
        obtain ⟨h3a, h3b⟩ := h3
        subst h3a
        simp only [List.flatten_cons, List.cons_append] at h1
        have hlt : steps < es.flatten.length := by
          rcases Nat.lt_or_ge steps es.flatten.length with h | h
          · exact h
          · rw [List.drop_eq_nil_of_le h] at h1; cases h1
        have hd := List.drop_eq_getElem_cons hlt
        rw [hd] at h1
        injection h1 with e1 e2
        refine ⟨?_, hlt, ?_, ?_⟩
        · simp only [List.flatten_cons]; exact e2
        · exact ⟨rfl, h3b, ⟨d, by rw [List.getElem?_eq_getElem hlt, e1], rfl⟩, by intro hc; cases hc⟩
        · intro hj
          have := h4 hj
          simp only [Shape, List.map_cons, List.length_cons] at this
          exact ⟨ds.length, rest.map List.length, this.symm, rfl⟩
  | sent c => cases hf
  | got c => cases hf
  | joined => cases hf

theorem clip_ok {m : Mode} {L : Learner P O D G} {sync avg R shape} {es : List (List D)}
    {w w' : Worker P O D G} (hm : ClipsTheAverage m L) (hf : clip m L w = some w')
    (h : Ok m L sync avg R shape es w) : Ok m L sync avg R shape es w' := by
  obtain ⟨params, opt, grad, steps, todo, pc⟩ := w
  obtain ⟨h1, h2, h3, h4⟩ := h
  unfold clip at hf
  cases pc with
  | ready => cases hf
  | joined => cases hf
  | sent c =>
    cases c with
    | true => cases hf
    | false =>
      simp only at hf
      split at hf
      · rename_i he
        cases hf
        have hid : ∀ g, L.clip g = g := by
          rcases hm with h | h
          · rw [h] at he; cases he
          · exact h
        obtain ⟨p1, p2, ⟨d, p3, p4⟩, _⟩ := h3
        refine ⟨h1, h2, ⟨p1, p2, ⟨d, p3, ?_⟩, fun _ => hid⟩, h4⟩
        simp only [hid]
        exact p4
      · cases hf
  | got c =>
    cases c with
    | true => cases hf
    | false =>
      cases hf
      obtain ⟨p1, R', p2, p3, a, p4, p5⟩ := h3
      refine ⟨h1, h2, ⟨p1, R', p2, p3, a, p4, ?_⟩, h4⟩
      simp only at p5
      simp only [p5]
      simp

theorem apply_ok {m : Mode} {L : Learner P O D G} {batches : List (List D)} {p : P} {o : O}
    {R shape} {es : List (List D)} {w w' : Worker P O D G} (hf : apply L w = some w')
    (h : Ok m L (oneProcess L batches p o) (avgOf L batches p o) R shape es w) :
    Ok m L (oneProcess L batches p o) (avgOf L batches p o) R shape es w' := by
  obtain ⟨params, opt, grad, steps, todo, pc⟩ := w
  obtain ⟨h1, h2, h3, h4⟩ := h
  unfold apply at hf
  cases pc with
  | ready => cases hf
  | joined => cases hf
  | sent c => cases hf
  | got c =>
    cases c with
    | false => cases hf
    | true =>
      cases hf
      obtain ⟨p1, R', p2, p3, a, p4, p5⟩ := h3
      refine ⟨h1, h2, ⟨p1, ?_⟩, h4⟩
      subst p2
      simp only [if_true] at p5
      rw [oneProcess_succ p3 p4, p5]

theorem endEpoch_ok {m : Mode} {L : Learner P O D G} {sync avg R shape} {es : List (List D)}
    {w w' : Worker P O D G} (hf : endEpoch m w = some w') (h : Ok m L sync avg R shape es w) :
    Ok m L sync avg R shape es w' := by
  obtain ⟨params, opt, grad, steps, todo, pc⟩ := w
  obtain ⟨h1, h2, h3, h4⟩ := h
  unfold endEpoch at hf
  cases pc with
  | ready =>
    cases todo with
    | nil => cases hf
    | cons x rest =>
      cases x with
      | cons d ds => cases hf
      | nil =>
        cases hf
        simp only [Phase] at h3
        refine ⟨by simpa using h1, h2, ?_, ?_⟩
        · cases hj : m.join with
          | true => exact ⟨h3.1, h3.2, hj⟩
          | false => exact h3
        · intro hj
          have := h4 hj
          simp only [Shape, List.map_cons, List.length_nil] at this
          simp only [Shape, hj, if_true]
          exact this.symm
  | sent c => cases hf
  | got c => cases hf
  | joined => cases hf

/-- The gradients of the workers are those of the joint batch. -/
theorem grads_joint {L : Learner P O D G} {R : Nat} {p : P} :
    ∀ (ws : List (Worker P O D G)) (data : List (List (List D))), ws.length = data.length →
      (∀ (r : Nat) w, ws[r]? = some w → ∃ (es : List (List D)) (d : D), data[r]? = some es ∧ es.flatten[R]? = some d ∧
        contribution L w = L.grad p d) →
      ∃ ds, jointBatch (data.map List.flatten) R = some ds ∧
        ws.map (contribution L) = ds.map (L.grad p)
  | [], [], _, _ => ⟨[], rfl, rfl⟩
  | w :: ws, es :: data, hl, h => by
    obtain ⟨ds, h1, h2⟩ := grads_joint ws data (by simpa using hl) (fun r v hv => h (r + 1) v hv)
    obtain ⟨es', d, e1, e2, e3⟩ := h 0 w rfl
    cases e1
    refine ⟨d :: ds, ?_, ?_⟩
    · unfold jointBatch at h1 ⊢
      simp only [List.map_cons, List.mapM_cons, e2, h1]
      rfl
    · simp only [List.map_cons, e3, h2]

theorem reduce_inv {m : Mode} {L : Learner P O D G} {data : List (List (List D))} {p : P} {o : O}
    {ws ws' : List (Worker P O D G)} (hf : reduce L ws = some ws')
    (h : Inv m L (oneProcess L (data.map List.flatten) p o) (avgOf L (data.map List.flatten) p o) data ws) :
    Inv m L (oneProcess L (data.map List.flatten) p o) (avgOf L (data.map List.flatten) p o) data ws' := by
  obtain ⟨hl, R, shape, ha⟩ := h
  unfold reduce at hf
  split at hf
  · rename_i hc
    cases hf
    simp only [Bool.and_eq_true, List.all_eq_true, List.any_eq_true, Bool.or_eq_true] at hc
    obtain ⟨hall, w0, hw0, hs0⟩ := hc
    obtain ⟨r0, hr0⟩ := List.getElem?_of_mem hw0
    obtain ⟨es0, he0, hok0⟩ := ha r0 w0 hr0
    -- nobody has joined
    have hsent : ∀ w ∈ ws, isSent w = true := by
      intro w hw
      rcases hall w hw with h | h
      · exact h
      · exfalso
        obtain ⟨r, hr⟩ := List.getElem?_of_mem hw
        obtain ⟨es, he, hok⟩ := ha r w hr
        have hph := hok.phase
        have hsh := hok.shaped
        have hsh0 := hok0.shaped
        unfold Phase at hph
        unfold Shape at hsh hsh0
        unfold isJoined at h
        unfold isSent at hs0
        split at h
        · rename_i hpc
          rw [hpc] at hph hsh
          simp only at hph hsh
          split at hs0
          · rename_i c0 hpc0
            rw [hpc0] at hsh0
            simp only at hsh0
            obtain ⟨n, ls, e1, _⟩ := hsh0 hph.2.2
            rw [hsh hph.2.2] at e1
            cases e1
          · cases hs0
        · cases h
    -- all have the same parameters
    have hsync0 : ∃ s, oneProcess L (data.map List.flatten) p o R = some s := by
      have hph := hok0.phase
      unfold isSent at hs0
      unfold Phase at hph
      split at hs0
      · rename_i c0 hpc0
        rw [hpc0] at hph
        exact ⟨_, hph.2.1⟩
      · cases hs0
    obtain ⟨s, hs⟩ := hsync0
    obtain ⟨ds, hj, hg⟩ := grads_joint (L := L) (R := R) (p := s.1) ws data hl (by
      intro r w hw
      obtain ⟨es, he, hok⟩ := ha r w hw
      have hws := hsent w (List.mem_of_getElem? hw)
      have hph := hok.phase
      unfold isSent at hws
      unfold Phase at hph
      split at hws
      · rename_i c hpc
        rw [hpc] at hph
        obtain ⟨_, p2, ⟨d, p3, p4⟩, _⟩ := hph
        rw [hs] at p2
        cases p2
        refine ⟨es, d, he, p3, ?_⟩
        unfold contribution isJoined
        rw [hpc]
        simpa using p4
      · cases hws)
    have havg : avgOf L (data.map List.flatten) p o R = some (L.average (ws.map (contribution L))) := by
      unfold avgOf
      rw [hs, hj, hg]
      rfl
    -- the shape after the all-reduce
    refine ⟨by rw [List.length_map]; exact hl, R + 1, (shape.headD 0 - 1) :: shape.tail, ?_⟩
    intro r v hv
    rw [List.getElem?_map] at hv
    cases hw : ws[r]? with
    | none => rw [hw] at hv; cases hv
    | some w =>
      rw [hw] at hv
      cases hv
      obtain ⟨es, he, hok⟩ := ha r w hw
      have hws := hsent w (List.mem_of_getElem? hw)
      refine ⟨es, he, ?_⟩
      obtain ⟨params, opt, grad, steps, todo, pc⟩ := w
      obtain ⟨h1, h2, h3, h4⟩ := hok
      cases pc with
      | ready => cases hws
      | joined => cases hws
      | got c => cases hws
      | sent c =>
        obtain ⟨p1, p2, p3, p4⟩ := h3
        refine ⟨h1, h2, ⟨p1, R, rfl, p2, _, havg, ?_⟩, ?_⟩
        · cases c with
          | false => rfl
          | true => exact (p4 rfl _).symm
        · intro hjn
          obtain ⟨n, ls, e1, e2⟩ := h4 hjn
          rw [e1]
          exact e2
  · cases hf

theorem release_inv {m : Mode} {L : Learner P O D G} {sync avg} {data : List (List (List D))}
    {ws ws' : List (Worker P O D G)} (hf : release ws = some ws') (h : Inv m L sync avg data ws) :
    Inv m L sync avg data ws' := by
  obtain ⟨hl, R, shape, ha⟩ := h
  unfold release at hf
  split at hf
  · rename_i hc
    cases hf
    simp only [Bool.and_eq_true, List.all_eq_true] at hc
    refine ⟨by rw [List.length_map]; exact hl, R, shape.tail, ?_⟩
    intro r v hv
    rw [List.getElem?_map] at hv
    cases hw : ws[r]? with
    | none => rw [hw] at hv; cases hv
    | some w =>
      rw [hw] at hv
      cases hv
      obtain ⟨es, he, hok⟩ := ha r w hw
      have hws := hc.1 w (List.mem_of_getElem? hw)
      refine ⟨es, he, ?_⟩
      obtain ⟨params, opt, grad, steps, todo, pc⟩ := w
      obtain ⟨h1, h2, h3, h4⟩ := hok
      cases pc with
      | ready => cases hws
      | sent c => cases hws
      | got c => cases hws
      | joined =>
        refine ⟨h1, h2, ⟨h3.1, h3.2.1⟩, ?_⟩
        intro hj
        have := h4 hj
        simp only [Shape] at this ⊢
        rw [this]
        rfl
  · cases hf

theorem step_inv {m : Mode} {L : Learner P O D G} {data : List (List (List D))} {p : P} {o : O}
    {ws ws' : List (Worker P O D G)} {a : Act} (hm : ClipsTheAverage m L) (hf : step m L ws a = some ws')
    (h : Inv m L (oneProcess L (data.map List.flatten) p o) (avgOf L (data.map List.flatten) p o) data ws) :
    Inv m L (oneProcess L (data.map List.flatten) p o) (avgOf L (data.map List.flatten) p o) data ws' := by
  cases a with
  | compute r =>
    obtain ⟨w, w', h1, h2, h3⟩ := onRank_some hf
    rw [h3]
    exact inv_set h h1 fun R shape es _ hok => compute_ok h2 hok
  | clip r =>
    obtain ⟨w, w', h1, h2, h3⟩ := onRank_some hf
    rw [h3]
    exact inv_set h h1 fun R shape es _ hok => clip_ok hm h2 hok
  | apply r =>
    obtain ⟨w, w', h1, h2, h3⟩ := onRank_some hf
    rw [h3]
    exact inv_set h h1 fun R shape es _ hok => apply_ok h2 hok
  | endEpoch r =>
    obtain ⟨w, w', h1, h2, h3⟩ := onRank_some hf
    rw [h3]
    exact inv_set h h1 fun R shape es _ hok => endEpoch_ok h2 hok
  | reduce => exact reduce_inv hf h
  | release => exact release_inv hf h

theorem run_inv {m : Mode} {L : Learner P O D G} {data : List (List (List D))} {p : P} {o : O}
    (hm : ClipsTheAverage m L) : ∀ (as : List Act) (ws ws' : List (Worker P O D G)),
    run m L as ws = some ws' →
    Inv m L (oneProcess L (data.map List.flatten) p o) (avgOf L (data.map List.flatten) p o) data ws →
    Inv m L (oneProcess L (data.map List.flatten) p o) (avgOf L (data.map List.flatten) p o) data ws'
  | [], ws, ws', hr, h => by cases hr; exact h
  | a :: as, ws, ws', hr, h => by
    unfold run at hr
    cases hs : step m L ws a with
    | none => rw [hs] at hr; cases hr
    | some v =>
      rw [hs] at hr
      exact run_inv hm as v ws' hr (step_inv hm hs h)

/-- After the launch all workers hold rank 0's parameters. -/
theorem launch_get {L : Learner P O D G} {p : P} {ps : List P} {o : O} {data : List (List (List D))}
    (hl : (p :: ps).length = data.length) :
    launch L (p :: ps) o data = data.map fun es => ⟨p, o, L.zero, 0, es, .ready⟩ := by
  cases data with
  | nil => cases hl
  | cons es data =>
    simp only [launch, broadcast, List.zipWith_cons_cons, List.map_cons, List.cons.injEq, true_and]
    have hl' : ps.length = data.length := by simpa using hl
    clear hl
    induction ps generalizing data with
    | nil => cases data with
      | nil => rfl
      | cons x y => cases hl'
    | cons q ps ih =>
      cases data with
      | nil => cases hl'
      | cons x data =>
        simp only [List.zipWith_cons_cons, List.map_cons, List.cons.injEq, true_and]
        exact ih data (by simpa using hl')

theorem launch_inv {m : Mode} {L : Learner P O D G} {p : P} {ps : List P} {o : O}
    {data : List (List (List D))} (hl : (p :: ps).length = data.length)
    (hc : m.join = true → SameCounts data) :
    Inv m L (oneProcess L (data.map List.flatten) p o) (avgOf L (data.map List.flatten) p o) data
      (launch L (p :: ps) o data) := by
  rw [launch_get hl]
  refine ⟨by simp, 0, (data.head?.getD []).map List.length, ?_⟩
  intro r w hw
  rw [List.getElem?_map] at hw
  cases he : data[r]? with
  | none => rw [he] at hw; cases hw
  | some es =>
    rw [he] at hw
    cases hw
    refine ⟨es, rfl, ⟨by simp, Nat.zero_le _, ⟨rfl, rfl⟩, ?_⟩⟩
    intro hj
    cases data with
    | nil => cases he
    | cons x data =>
      exact hc hj es (List.mem_of_getElem? he) x List.mem_cons_self

/-- The parameters of each worker are those of one process after as many updates. -/
theorem inv_params {m : Mode} {L : Learner P O D G} {sync avg} {data : List (List (List D))}
    {ws : List (Worker P O D G)} (h : Inv m L sync avg data ws) {w : Worker P O D G} (hw : w ∈ ws) :
    sync (updates w) = some (w.params, w.opt) := by
  obtain ⟨_, R, shape, ha⟩ := h
  obtain ⟨r, hr⟩ := List.getElem?_of_mem hw
  obtain ⟨es, _, hok⟩ := ha r w hr
  have hph := hok.phase
  obtain ⟨params, opt, grad, steps, todo, pc⟩ := w
  cases pc with
  | ready => obtain ⟨p1, p2⟩ := hph; simp only at p1; subst p1; exact p2
  | joined => obtain ⟨p1, p2, _⟩ := hph; simp only at p1; subst p1; exact p2
  | sent c => obtain ⟨p1, p2, _⟩ := hph; simp only at p1; subst p1; exact p2
  | got c =>
    obtain ⟨p1, R', p2, p3, _⟩ := hph
    simp only at p1
    subst p1 p2
    exact p3

theorem inv_close {m : Mode} {L : Learner P O D G} {sync avg} {data : List (List (List D))}
    {ws : List (Worker P O D G)} (h : Inv m L sync avg data ws) {v w : Worker P O D G} (hv : v ∈ ws)
    (hw : w ∈ ws) : updates v ≤ updates w + 1 := by
  obtain ⟨_, R, shape, ha⟩ := h
  have key : ∀ u ∈ ws, R ≤ updates u + 1 ∧ updates u ≤ R := by
    intro u hu
    obtain ⟨r, hr⟩ := List.getElem?_of_mem hu
    obtain ⟨es, _, hok⟩ := ha r u hr
    have hph := hok.phase
    obtain ⟨params, opt, grad, steps, todo, pc⟩ := u
    cases pc with
    | ready => obtain ⟨p1, p2⟩ := hph; simp only at p1; simp only [updates]; omega
    | joined => obtain ⟨p1, p2, _⟩ := hph; simp only at p1; simp only [updates]; omega
    | sent c => obtain ⟨p1, p2, _⟩ := hph; simp only at p1; simp only [updates]; omega
    | got c => obtain ⟨p1, R', p2, p3, _⟩ := hph; simp only at p1; simp only [updates]; omega
  have := key v hv
  have := key w hw
  omega

/-! Progress -/

theorem sameCounts_total {data : List (List (List D))} (h : SameCounts data) {xs ys : List (List D)}
    (hx : xs ∈ data) (hy : ys ∈ data) : xs.flatten.length = ys.flatten.length := by
  rw [List.length_flatten, List.length_flatten, h xs hx ys hy]

theorem onRank_isSome {m : Mode} {L : Learner P O D G} {ws : List (Worker P O D G)}
    {w : Worker P O D G} (hw : w ∈ ws) {f : Worker P O D G → Option (Worker P O D G)}
    {act : Nat → Act} (ha : ∀ r, step m L ws (act r) = onRank ws r f) (hf : (f w).isSome) :
    ∃ a ws', step m L ws a = some ws' := by
  obtain ⟨r, hr⟩ := List.getElem?_of_mem hw
  cases h : f w with
  | none => rw [h] at hf; cases hf
  | some w' =>
    refine ⟨act r, ws.set r w', ?_⟩
    rw [ha r]
    unfold onRank
    rw [hr]
    simp [h]

theorem progress {m : Mode} {L : Learner P O D G} {sync avg} {data : List (List (List D))}
    {ws : List (Worker P O D G)} (hc : SameCounts data) (h : Inv m L sync avg data ws) :
    (∃ a ws', step m L ws a = some ws') ∨ ∀ w ∈ ws, Finished w := by
  by_cases hact : ∃ a ws', step m L ws a = some ws'
  · exact Or.inl hact
  refine Or.inr ?_
  obtain ⟨_, R, shape, ha⟩ := h
  -- a worker that cannot act by itself
  have hstuck : ∀ w ∈ ws, isSent w = true ∨ isJoined w = true ∨ Finished w := by
    intro w hw
    have h1 := fun hf => hact (onRank_isSome (m := m) (L := L) hw (f := compute L) (act := .compute) (fun _ => rfl) hf)
    have h2 := fun hf => hact (onRank_isSome (m := m) (L := L) hw (f := clip m L) (act := .clip) (fun _ => rfl) hf)
    have h3 := fun hf => hact (onRank_isSome (m := m) (L := L) hw (f := apply L) (act := .apply) (fun _ => rfl) hf)
    have h4 := fun hf => hact (onRank_isSome (m := m) (L := L) hw (f := endEpoch m) (act := .endEpoch) (fun _ => rfl) hf)
    obtain ⟨params, opt, grad, steps, todo, pc⟩ := w
    cases pc with
    | sent c => exact Or.inl rfl
    | joined => exact Or.inr (Or.inl rfl)
    | got c =>
      cases c with
      | true => exact absurd rfl h3
      | false => exact absurd rfl h2
    | ready =>
      cases todo with
      | nil => exact Or.inr (Or.inr ⟨rfl, rfl⟩)
      | cons x rest =>
        cases x with
        | nil => exact absurd rfl h4
        | cons d ds => exact absurd rfl h1
  -- somebody has sent: then all have
  by_cases hs : ∃ w ∈ ws, isSent w = true
  · exfalso
    apply hact
    refine ⟨.reduce, ws.map (receive (L.average (ws.map (contribution L)))), ?_⟩
    show reduce L ws = some _
    unfold reduce
    rw [if_pos]
    simp only [Bool.and_eq_true, List.all_eq_true, List.any_eq_true, Bool.or_eq_true]
    refine ⟨?_, hs⟩
    intro v hv
    rcases hstuck v hv with h | h | h
    · exact Or.inl h
    · exact Or.inr h
    · exfalso
      obtain ⟨w, hw, hsw⟩ := hs
      obtain ⟨r, hr⟩ := List.getElem?_of_mem hw
      obtain ⟨es, he, hok⟩ := ha r w hr
      obtain ⟨r', hr'⟩ := List.getElem?_of_mem hv
      obtain ⟨es', he', hok'⟩ := ha r' v hr'
      have htot := sameCounts_total hc (List.mem_of_getElem? he) (List.mem_of_getElem? he')
      have hle := hok.le
      have hph := hok.phase
      have hph' := hok'.phase
      have hleft := hok'.left
      unfold Phase at hph hph'
      rw [h.1] at hph'
      simp only at hph'
      rw [h.2] at hleft
      have hlen := congrArg List.length hleft
      simp only [List.flatten_nil, List.length_nil, List.length_drop] at hlen
      unfold isSent at hsw
      split at hsw
      · rename_i c hpc
        rw [hpc] at hph
        simp only at hph
        omega
      · cases hsw
  -- somebody has joined: then all have
  by_cases hj : ∃ w ∈ ws, isJoined w = true
  · exfalso
    apply hact
    refine ⟨.release, ws.map fun w => { w with pc := .ready }, ?_⟩
    show release ws = some _
    unfold release
    rw [if_pos]
    simp only [Bool.and_eq_true, List.all_eq_true, List.any_eq_true]
    refine ⟨?_, hj⟩
    intro v hv
    rcases hstuck v hv with h | h | h
    · exact absurd ⟨v, hv, h⟩ hs
    · exact h
    · exfalso
      obtain ⟨w, hw, hjw⟩ := hj
      obtain ⟨r, hr⟩ := List.getElem?_of_mem hw
      obtain ⟨es, he, hok⟩ := ha r w hr
      obtain ⟨r', hr'⟩ := List.getElem?_of_mem hv
      obtain ⟨es', he', hok'⟩ := ha r' v hr'
      have hph := hok.phase
      have hsh := hok.shaped
      have hsh' := hok'.shaped
      unfold isJoined at hjw
      unfold Phase at hph
      unfold Shape at hsh hsh'
      rw [h.1] at hsh'
      split at hjw
      · rename_i hpc
        rw [hpc] at hph hsh
        simp only at hph hsh hsh'
        have e1 := hsh hph.2.2
        have e2 := hsh' hph.2.2
        rw [h.2, e1] at e2
        cases e2
      · cases hjw
  · intro w hw
    rcases hstuck w hw with h | h | h
    · exact absurd ⟨w, hw, h⟩ hs
    · exact absurd ⟨w, hw, h⟩ hj
    · exact h

/-! Every action brings the end closer -/

def pcRank : Pc → Nat
  | .ready => 1
  | .joined => 2
  | .got true => 3
  | .got false => 4
  | .sent true => 5
  | .sent false => 6

def wcost (w : Worker P O D G) : Nat := 6 * w.todo.flatten.length + 2 * w.todo.length + pcRank w.pc

def cost (ws : List (Worker P O D G)) : Nat := (ws.map wcost).sum

theorem cost_set {w w' : Worker P O D G} : ∀ {ws : List (Worker P O D G)} {r : Nat}, ws[r]? = some w →
    wcost w' < wcost w → cost (ws.set r w') < cost ws
  | [], _, h, _ => by simp at h
  | v :: ws, 0, h, hlt => by
    simp only [List.getElem?_cons_zero, Option.some.injEq] at h
    subst h
    simp only [List.set_cons_zero, cost, List.map_cons, List.sum_cons]
    omega
  | v :: ws, r + 1, h, hlt => by
    have := cost_set (ws := ws) (r := r) (by simpa using h) hlt
    simp only [List.set_cons_succ, cost, List.map_cons, List.sum_cons] at this ⊢
    omega

theorem cost_map {f : Worker P O D G → Worker P O D G} : ∀ {ws : List (Worker P O D G)},
    (∀ w ∈ ws, wcost (f w) ≤ wcost w) →
    cost (ws.map f) ≤ cost ws ∧ ((∃ w ∈ ws, wcost (f w) < wcost w) → cost (ws.map f) < cost ws)
  | [], _ => ⟨Nat.le_refl _, by rintro ⟨w, hw, _⟩; cases hw⟩
  | v :: ws, h => by
    obtain ⟨i1, i2⟩ := cost_map (f := f) (ws := ws) (fun w hw => h w (List.mem_cons_of_mem _ hw))
    have hv := h v List.mem_cons_self
    simp only [cost, List.map_cons, List.sum_cons] at i1 i2 ⊢
    refine ⟨by omega, ?_⟩
    rintro ⟨w, hw, hlt⟩
    rcases List.mem_cons.1 hw with e | hw
    · subst e; omega
    · have := i2 ⟨w, hw, hlt⟩
      omega

theorem step_cost {m : Mode} {L : Learner P O D G} {ws ws' : List (Worker P O D G)} {a : Act}
    (hf : step m L ws a = some ws') : cost ws' < cost ws := by
  cases a with
  | compute r =>
    obtain ⟨w, w', h1, h2, h3⟩ := onRank_some hf
    rw [h3]
    refine cost_set h1 ?_
    unfold compute at h2
    split at h2
    · rename_i d ds rest hpc htodo
      cases h2
      simp only [wcost, hpc, htodo, pcRank, List.flatten_cons, List.length_append, List.length_cons]
      omega
    · cases h2
  | clip r =>
    obtain ⟨w, w', h1, h2, h3⟩ := onRank_some hf
    rw [h3]
    refine cost_set h1 ?_
    unfold clip at h2
    split at h2
    · rename_i hpc
      cases h2
      simp only [wcost, hpc, pcRank]
      omega
    · rename_i hpc
      split at h2
      · cases h2
        simp only [wcost, hpc, pcRank]
        omega
      · cases h2
    · cases h2
  | apply r =>
    obtain ⟨w, w', h1, h2, h3⟩ := onRank_some hf
    rw [h3]
    refine cost_set h1 ?_
    unfold apply at h2
    split at h2
    · rename_i hpc
      cases h2
      simp only [wcost, hpc, pcRank]
      omega
    · cases h2
  | endEpoch r =>
    obtain ⟨w, w', h1, h2, h3⟩ := onRank_some hf
    rw [h3]
    refine cost_set h1 ?_
    unfold endEpoch at h2
    split at h2
    · rename_i rest hpc htodo
      cases h2
      cases hj : m.join <;>
        simp only [wcost, hpc, htodo, if_true, Bool.false_eq_true, if_false, pcRank, List.flatten_cons, List.nil_append, List.length_cons] <;>
        omega
    · cases h2
  | reduce =>
    simp only [step, reduce] at hf
    split at hf
    · rename_i hc
      cases hf
      simp only [Bool.and_eq_true, List.any_eq_true] at hc
      obtain ⟨_, w, hw, hs⟩ := hc
      refine (cost_map ?_).2 ⟨w, hw, ?_⟩
      · intro v _
        unfold receive
        split
        · rename_i c hpc
          simp only [wcost, hpc]
          cases c <;> simp only [pcRank] <;> omega
        · exact Nat.le_refl _
      · unfold isSent at hs
        unfold receive
        split at hs
        · rename_i c hpc
          simp only [hpc, wcost]
          cases c <;> simp only [pcRank] <;> omega
        · cases hs
    · cases hf
  | release =>
    simp only [step, release] at hf
    split at hf
    · rename_i hc
      cases hf
      simp only [Bool.and_eq_true, List.any_eq_true, List.all_eq_true] at hc
      obtain ⟨hall, w, hw, hs⟩ := hc
      have key : ∀ v ∈ ws, wcost { v with pc := .ready } < wcost v := by
        intro v hv
        have := hall v hv
        unfold isJoined at this
        split at this
        · rename_i hpc
          simp only [wcost, hpc, pcRank]
          omega
        · cases this
      exact (cost_map fun v hv => Nat.le_of_lt (key v hv)).2 ⟨w, hw, key w hw⟩
    · cases hf

theorem run_cost {m : Mode} {L : Learner P O D G} : ∀ (as : List Act) (ws ws' : List (Worker P O D G)),
    run m L as ws = some ws' → as.length + cost ws' ≤ cost ws
  | [], ws, ws', h => by cases h; simp
  | a :: as, ws, ws', h => by
    unfold run at h
    cases hs : step m L ws a with
    | none => rw [hs] at h; cases h
    | some v =>
      rw [hs] at h
      have := run_cost as v ws' h
      have := step_cost hs
      simp only [List.length_cons]
      omega

theorem launch_cost {L : Learner P O D G} {p : P} {ps : List P} {o : O} {data : List (List (List D))}
    (hl : (p :: ps).length = data.length) : cost (launch L (p :: ps) o data) = actionBound data := by
  rw [launch_get hl]
  unfold cost actionBound
  rw [List.map_map]
  rfl

end DeepGNN.DataParallel
