import Verif.Spec.LogInit

/-!
# C110: the logger is set up exactly once, whatever threads ask for it
-/

namespace DeepGNN

open LogInit
open DeepGNN.Spec (logReady callOver timesSent)

/-- Steps left for a thread. -/
def logRank : Pc → Nat
  | .look => 10 | .acquire => 9 | .lookAgain => 8 | .lookInit => 7 | .switch => 6
  | .configure => 5 | .attach => 4 | .mark => 3 | .publish => 2 | .release _ => 1
  | .returned => 0 | .raised => 0

/-- The part of `get_logger` under the lock. -/
def logInside : Pc → Bool
  | .lookAgain | .lookInit | .switch | .configure | .attach | .mark | .publish | .release _ => true
  | _ => false

theorem logInit_run_append (e : Env) (calls : List Call) (a b : List Nat) (s : State) :
    run e calls s (a ++ b) = (run e calls s a).bind (fun t => run e calls t b) := by
  induction a generalizing s with
  | nil => rfl
  | cons i rest ih =>
    simp only [List.cons_append, run]
    cases step e calls s i with
    | none => rfl
    | some t => exact ih t

/-- A property kept by every step is kept by every run. -/
theorem logInit_invariant {e : Env} {calls : List Call} (P : State → Prop)
    (hstep : ∀ s i t, P s → step e calls s i = some t → P t)
    {sched : List Nat} {s t : State} (h0 : P s) (hr : run e calls s sched = some t) : P t := by
  induction sched generalizing s with
  | nil => simp only [run, Option.some.injEq] at hr; exact hr ▸ h0
  | cons i rest ih =>
    simp only [run, Option.bind_eq_some_iff] at hr
    obtain ⟨u, hu, hr⟩ := hr
    exact ih (hstep s i u h0 hu) hr

/-- A step moves one thread, one rank or more down. -/
theorem logInit_step_rank {e : Env} {calls : List Call} {s t : State} {i : Nat}
    (h : step e calls s i = some t) :
    logRank (t.pcs i) < logRank (s.pcs i) ∧ ∀ j, j ≠ i → t.pcs j = s.pcs j := by
  unfold step at h
  split at h
  · cases h
  · rename_i c _
    cases hp : s.pcs i <;> rw [hp] at h <;> simp only at h
    case acquire =>
      split at h
      · cases h; exact ⟨by simp [State.goto, logRank], fun j hj => by simp [State.goto, hj]⟩
      · cases h
    all_goals cases h
    all_goals
      constructor
      · (repeat' split) <;> simp [State.goto, logRank]
      · intro j hj
        (repeat' split) <;> simp [State.goto, hj]

/-- Lock and places agree. -/
structure LogLocked (calls : List Call) (s : State) : Prop where
  holder : ∀ i, s.lock = some i → calls[i]? = some .get ∧ logInside (s.pcs i) = true
  inside : ∀ i, calls[i]? = some .get → logInside (s.pcs i) = true → s.lock = some i
  setups : ∀ i t, calls[i]? = some (.setup t) →
    s.pcs i = .switch ∨ s.pcs i = .configure ∨ s.pcs i = .attach ∨ s.pcs i = .mark ∨
    s.pcs i = .returned ∨ s.pcs i = .raised

theorem logLocked_start (calls : List Call) : LogLocked calls (start calls) := by
  refine ⟨fun i h => (by simp [start] at h), fun i hc h => ?_, fun i t hc => ?_⟩
  · simp [start, hc, Call.start, logInside] at h
  · simp [start, hc, Call.start]

theorem logLocked_step {e : Env} {calls : List Call} (s : State) (i : Nat) (t : State)
    (h : LogLocked calls s) (hs : step e calls s i = some t) : LogLocked calls t := by
  have hoth := (logInit_step_rank hs).2
  have key : ∀ c, calls[i]? = some c →
      (t.lock = s.lock ∨ (s.lock = none ∧ t.lock = some i) ∨
        (t.lock = none ∧ s.lock = some i)) ∧
      (c = .get → (logInside (t.pcs i) = true ↔ t.lock = some i)) ∧
      (∀ b, c = .setup b → t.lock = s.lock ∧ (t.pcs i = .switch ∨ t.pcs i = .configure ∨
        t.pcs i = .attach ∨ t.pcs i = .mark ∨ t.pcs i = .returned ∨ t.pcs i = .raised)) := by
    intro c hc
    have hin : c = .get → (logInside (s.pcs i) = true ↔ s.lock = some i) := by
      rintro rfl
      exact ⟨h.inside i hc, fun hl => (h.holder i hl).2⟩
    have hset := fun b (hb : c = .setup b) => h.setups i b (hb ▸ hc)
    unfold step at hs
    rw [hc] at hs
    simp only at hs
    cases c with
    | get =>
      have hin := hin rfl
      refine (and_assoc.1 ⟨?_, fun b hb => nomatch hb⟩)
      cases hp : s.pcs i <;> rw [hp] at hs hin <;> simp only at hs
      case acquire =>
        split at hs
        · rename_i hl; cases hs; simp [State.goto, logInside, hl]
        · cases hs
      all_goals cases hs
      all_goals simp only [logInside, Bool.false_eq_true, false_iff, true_iff] at hin
      all_goals
        (repeat' split) <;> simp_all [State.goto, logInside]
    | setup b =>
      have hset := hset b rfl
      refine (and_assoc.1 ⟨⟨?_, fun hb => nomatch hb⟩, ?_⟩)
      · rcases hset with hp | hp | hp | hp | hp | hp <;> rw [hp] at hs <;> simp only at hs <;>
          cases hs <;> (repeat' split) <;> simp [State.goto]
      · intro b' _
        rcases hset with hp | hp | hp | hp | hp | hp <;> rw [hp] at hs <;> simp only at hs <;>
          cases hs <;> (repeat' split) <;> simp [State.goto]
  have hc : ∃ c, calls[i]? = some c := by
    unfold step at hs
    split at hs
    · cases hs
    · exact ⟨_, by assumption⟩
  obtain ⟨c, hc⟩ := hc
  obtain ⟨hlock, hget, hset⟩ := key c hc
  refine ⟨fun j hj => ?_, fun j hcj hj => ?_, fun j b hcj => ?_⟩
  · by_cases hji : j = i
    · subst hji
      cases c with
      | get => exact ⟨hc, (hget rfl).2 hj⟩
      | setup b =>
        have := h.holder j ((hset b rfl).1 ▸ hj)
        rw [hc] at this
        simp at this
    · rcases hlock with hl | ⟨_, hl⟩ | ⟨hl, _⟩
      · rw [hoth j hji]; exact h.holder j (hl ▸ hj)
      · rw [hl] at hj; cases hj; exact absurd rfl hji
      · rw [hl] at hj; cases hj
  · by_cases hji : j = i
    · subst hji
      rw [hc] at hcj
      cases hcj
      exact (hget rfl).1 hj
    · rw [hoth j hji] at hj
      have hs' := h.inside j hcj hj
      rcases hlock with hl | ⟨hl, _⟩ | ⟨_, hl⟩
      · rw [hl]; exact hs'
      · rw [hl] at hs'; cases hs'
      · rw [hl] at hs'; cases hs'; exact absurd rfl hji
  · by_cases hji : j = i
    · subst hji
      rw [hc] at hcj
      cases hcj
      exact (hset b rfl).2
    · rw [hoth j hji]; exact h.setups j b hcj

/-- **No thread waits for ever.**  Whatever calls run in whatever order, and whichever of them fail to
configure logging: as long as some call is not over, some thread can move. -/
theorem C110_no_deadlock {e : Env} {calls : List Call} {sched : List Nat} {s : State}
    (hr : run e calls (start calls) sched = some s) {i : Nat} (hi : i < calls.length)
    (hn : ¬ callOver s i) : ∃ j t, step e calls s j = some t := by
  have hl : LogLocked calls s := logInit_invariant _ logLocked_step (logLocked_start calls) hr
  have move : ∀ j, j < calls.length → ¬ callOver s j → s.pcs j ≠ .acquire →
      ∃ t, step e calls s j = some t := by
    intro j hj hn hacq
    unfold step
    rw [List.getElem?_eq_getElem hj]
    cases hp : s.pcs j <;> simp_all [callOver]
  by_cases hacq : s.pcs i = .acquire
  · cases hlk : s.lock with
    | none =>
      refine ⟨i, ?_⟩
      unfold step
      rw [List.getElem?_eq_getElem hi, hacq, hlk]
      exact ⟨_, rfl⟩
    | some j =>
      obtain ⟨hcj, hin⟩ := hl.holder j hlk
      obtain ⟨hj, _⟩ := List.getElem?_eq_some_iff.1 hcj
      refine ⟨j, move j hj ?_ ?_⟩
      · rintro (h | h) <;> rw [h] at hin <;> cases hin
      · intro h; rw [h] at hin; cases hin
  · obtain ⟨t, ht⟩ := move i hi hn hacq
    exact ⟨i, t, ht⟩

theorem logInit_count {e : Env} {calls : List Call} {sched : List Nat} {s : State}
    (hr : run e calls (start calls) sched = some s) (i : Nat) :
    sched.count i + logRank (s.pcs i) ≤ 10 := by
  suffices H : ∀ (sched : List Nat) (s0 s : State), run e calls s0 sched = some s →
      sched.count i + logRank (s.pcs i) ≤ logRank (s0.pcs i) by
    refine Nat.le_trans (H sched _ s hr) ?_
    simp only [start]
    cases calls[i]? with
    | none => simp [logRank]
    | some c => cases c <;> simp [Call.start, logRank]
  intro sched
  induction sched with
  | nil => intro s0 s h; simp only [run, Option.some.injEq] at h; simp [h]
  | cons j rest ih =>
    intro s0 s h
    simp only [run, Option.bind_eq_some_iff] at h
    obtain ⟨u, hu, h⟩ := h
    have h1 := ih u s h
    have ⟨hlt, hoth⟩ := logInit_step_rank hu
    by_cases hji : j = i
    · subst hji
      simp only [List.count_cons_self]
      omega
    · rw [List.count_cons_of_ne hji, ← hoth i (Ne.symm hji)]
      exact h1

/-- **Every call is over after at most ten steps of its own**, in every schedule. -/
theorem C110_ten_steps {e : Env} {calls : List Call} {sched : List Nat} {s : State}
    (hr : run e calls (start calls) sched = some s) (i : Nat) :
    sched.count i ≤ 10 ∧ (sched.count i = 10 → callOver s i) := by
  have h := logInit_count hr i
  refine ⟨by omega, fun h10 => ?_⟩
  have h0 : logRank (s.pcs i) = 0 := by omega
  cases hp : s.pcs i <;> rw [hp] at h0 <;> simp_all [logRank, callOver]

/-- What a thread running `get_logger` may rely on at each place. -/
def logPlace (e : Env) (s : State) : Pc → Prop
  | .lookAgain | .lookInit => s.init = false → s.configs = 0 ∧ s.azure = 0
  | .switch => s.init = false ∧ s.configs = 0 ∧ s.azure = 0
  | .configure => s.init = false ∧ e.plain = true ∧ s.configs = 0 ∧ s.azure = 0
  | .attach => s.init = false ∧ e.plain = true ∧ s.configs = 1 ∧ s.console = true ∧ s.azure = 0
  | .mark => s.init = false ∧ logReady e s
  | .publish => s.init = true
  | .release b => b = true ∧ s.logger = true
  | .returned => s.logger = true
  | .raised => False
  | _ => True

/-- What holds while only `get_logger` runs and nothing raises. -/
structure LogOnce (e : Env) (n : Nat) (s : State) : Prop where
  locked : LogLocked (List.replicate n .get) s
  quiet : s.telemetry = false
  loggerInit : s.logger = true → s.init = true
  ready : s.init = true → logReady e s
  free : s.lock = none → s.init = false → s.configs = 0 ∧ s.azure = 0
  atMost : s.configs ≤ 1
  place : ∀ i, i < n → logPlace e s (s.pcs i)

theorem logOnce_start (e : Env) (n : Nat) : LogOnce e n (start (List.replicate n .get)) := by
  refine ⟨logLocked_start _, rfl, fun h => (by cases h), fun h => (by cases h),
    fun _ _ => ⟨rfl, rfl⟩, by simp [start], fun i hi => ?_⟩
  simp [start, hi, Call.start, logPlace]

theorem logOnce_step {e : Env} (hb : ∀ i, e.breaks i = false) {n : Nat} (s : State) (i : Nat)
    (t : State) (h : LogOnce e n s)
    (hs : step e (List.replicate n .get) s i = some t) : LogOnce e n t := by
  have hl := logLocked_step s i t h.locked hs
  have hoth := (logInit_step_rank hs).2
  have hi : i < n := by
    unfold step at hs
    split at hs
    · cases hs
    · rename_i c hc
      rw [List.getElem?_replicate] at hc
      split at hc
      · assumption
      · cases hc
  -- only the thread holding the lock is inside
  have alone : ∀ j, j < n → j ≠ i → logInside (s.pcs i) = true → logInside (s.pcs j) = false := by
    intro j hj hji hin
    have h1 := h.locked.inside i (by simp [hi]) hin
    cases hin' : logInside (s.pcs j) with
    | false => rfl
    | true =>
      have h2 := h.locked.inside j (by simp [hj]) hin'
      rw [h1] at h2
      cases h2
      exact absurd rfl hji
  -- threads outside only rely on `_logger` staying assigned
  have others : (s.logger = true → t.logger = true) → logInside (s.pcs i) = true →
      logPlace e t (t.pcs i) → ∀ j, j < n → logPlace e t (t.pcs j) := by
    intro hlog hin hp j hj
    by_cases hji : j = i
    · subst hji; exact hp
    · rw [hoth j hji]
      have hpl := h.place j hj
      have hout := alone j hj hji hin
      cases hq : s.pcs j <;> rw [hq] at hout hpl <;> simp_all [logInside, logPlace]
  have hpi := h.place i hi
  have hc : (List.replicate n Call.get)[i]? = some .get := by simp [hi]
  have h1 := h.quiet
  have h2 := h.loggerInit
  have h3 := h.ready
  have h4 := h.free
  have h5 := h.atMost
  have h6 := h.place
  have hlk : logInside (s.pcs i) = true → s.lock = some i := h.locked.inside i hc
  have hbi := hb i
  unfold step at hs
  rw [hc] at hs
  simp only at hs
  cases hp : s.pcs i <;> rw [hp] at hs hpi others hlk <;> simp only at hs
  case look =>
    split at hs <;> cases hs
    all_goals
      refine ⟨hl, h1, h2, h3, h4, h5, fun j hj => ?_⟩
      by_cases hji : j = i
      · subst hji; simp_all [State.goto, logPlace]
      · rw [hoth j hji]; exact h6 j hj
  case acquire =>
    split at hs
    · rename_i hnone
      cases hs
      refine ⟨hl, h1, h2, h3, fun h => (by cases h), h5, fun j hj => ?_⟩
      by_cases hji : j = i
      · subst hji
        simp only [State.goto, if_pos, logPlace]
        exact h4 hnone
      · rw [hoth j hji]; exact h6 j hj
    · cases hs
  all_goals cases hs
  all_goals simp only [logInside, true_implies] at others hlk
  all_goals clear h h6 alone hoth hb
  all_goals
    refine ⟨hl, ?_, ?_, ?_, ?_, ?_, others ?_ ?_⟩ <;> clear hl others <;> (repeat' split) <;>
      simp_all [State.goto, logPlace, logReady, Call.telemetry]

/-- **Set up once, and before anyone gets the logger.**  Any number of threads call `get_logger`, in any
order: logging is configured at most once, no call raises, telemetry stays off, and when a call has
returned the set-up is complete: configured once, the console handler attached, and one Azure handler
if there is a connection string. -/
theorem C110_once_partial {e : Env} (hb : ∀ i, e.breaks i = false) {n : Nat} {sched : List Nat}
    {s : State} (hr : run e (List.replicate n .get) (start (List.replicate n .get)) sched = some s) :
    s.configs ≤ 1 ∧ s.telemetry = false ∧
    ∀ i, i < n → s.pcs i ≠ .raised ∧ (s.pcs i = .returned → s.logger = true ∧ logReady e s) := by
  have h : LogOnce e n s := logInit_invariant _ (logOnce_step hb) (logOnce_start e n) hr
  refine ⟨h.atMost, h.quiet, fun i hi => ⟨fun hp => ?_, fun hp => ?_⟩⟩
  · have := h.place i hi
    rw [hp] at this
    exact this
  · have hlog : s.logger = true := by
      have := h.place i hi
      rw [hp] at this
      exact this
    exact ⟨hlog, h.ready (h.loggerInit hlog)⟩

/-- **Who fails, fails alone.**  Whatever calls run and whichever of them cannot configure logging: a call
that raises is one whose own configuration failed. -/
theorem C110_own_failure {e : Env} {calls : List Call} {sched : List Nat} {s : State}
    (hr : run e calls (start calls) sched = some s) {i : Nat} (hi : s.pcs i = .raised) :
    e.breaks i = true := by
  suffices H : ∀ i, (s.pcs i = .raised ∨ s.pcs i = .release false) → e.breaks i = true from
    H i (Or.inl hi)
  refine logInit_invariant (P := fun s => ∀ i, (s.pcs i = .raised ∨ s.pcs i = .release false) →
    e.breaks i = true) ?_ ?_ hr
  · intro s j t h hs k hk
    have hoth := (logInit_step_rank hs).2
    by_cases hkj : k = j
    · subst hkj
      have hk0 := h k
      unfold step at hs
      split at hs
      · cases hs
      · rename_i c _
        cases hp : s.pcs k <;> rw [hp] at hs hk0 <;> simp only at hs
        case acquire =>
          split at hs
          · cases hs; simp [State.goto] at hk
          · cases hs
        case release ok =>
          cases hs
          cases ok
          · exact hk0 (Or.inr rfl)
          · simp [State.goto] at hk
        all_goals cases hs
        all_goals revert hk
        all_goals (repeat' split) <;> simp_all [State.goto]
    · rw [hoth k hkj] at hk
      exact h k hk
  · intro k hk
    simp only [start] at hk
    cases hc : calls[k]? with
    | none => simp [hc] at hk
    | some c => cases c <;> simp [hc, Call.start] at hk

/-- What holds once logging has been set up and only `get_logger` runs. -/
structure LogKept (k : Nat) (s0 s : State) : Prop where
  init : s.init = true
  telemetry : s.telemetry = s0.telemetry
  console : s.console = s0.console
  azure : s.azure = s0.azure
  configs : s.configs = s0.configs
  early : ∀ i, i ≠ k → s.pcs i ≠ .switch ∧ s.pcs i ≠ .configure ∧ s.pcs i ≠ .attach ∧ s.pcs i ≠ .mark
  over : s.pcs k = .returned

theorem logKept_step {e : Env} {calls : List Call} {k : Nat} {s0 : State} (s : State) (i : Nat)
    (t : State) (h : LogKept k s0 s) (hs : step e calls s i = some t) : LogKept k s0 t := by
  have hoth := (logInit_step_rank hs).2
  have hik : i ≠ k := by
    rintro rfl
    unfold step at hs
    split at hs
    · cases hs
    · rw [h.over] at hs; cases hs
  obtain ⟨h1, h2, h3, h4, h5, h6, h7⟩ := h
  have he := h6 i hik
  suffices H : (t.init = true ∧ t.telemetry = s.telemetry ∧ t.console = s.console ∧
      t.azure = s.azure ∧ t.configs = s.configs) ∧
      t.pcs i ≠ .switch ∧ t.pcs i ≠ .configure ∧ t.pcs i ≠ .attach ∧ t.pcs i ≠ .mark by
    obtain ⟨⟨a, b, c, d, f⟩, hp⟩ := H
    refine ⟨a, b.trans h2, c.trans h3, d.trans h4, f.trans h5, fun j hj => ?_, ?_⟩
    · by_cases hji : j = i
      · subst hji; exact hp
      · rw [hoth j hji]; exact h6 j hj
    · rw [hoth k (Ne.symm hik)]; exact h7
  unfold step at hs
  split at hs
  · cases hs
  · cases hp : s.pcs i <;> rw [hp] at hs he <;> simp only at hs
    case acquire =>
      split at hs
      · cases hs; simp [State.goto, h1]
      · cases hs
    all_goals first
      | (cases hs; done)
      | (exact absurd rfl he.1)
      | (exact absurd rfl he.2.1)
      | (exact absurd rfl he.2.2.1)
      | (exact absurd rfl he.2.2.2)
      | (cases hs; (repeat' split) <;> simp_all [State.goto])

/-- What the set-up thread has done at each of its places, while no other has started. -/
def logSetupPlace (e : Env) (tel : Bool) (s : State) : Pc → Prop
  | .switch => s.telemetry = false ∧ s.configs = 0 ∧ s.azure = 0
  | .configure => e.plain = true ∧ s.telemetry = tel ∧ s.configs = 0
  | .attach => e.plain = true ∧ s.telemetry = tel ∧ s.configs = 1 ∧ s.console = true ∧ s.azure = 0
  | .mark | .returned => s.telemetry = (tel && e.plain && e.key) ∧ logReady e s
  | _ => True

theorem logSetup_alone {e : Env} {tel : Bool} {n : Nat} {first : List Nat} {s0 : State}
    (h0 : run e (.setup tel :: List.replicate n .get)
      (start (.setup tel :: List.replicate n .get)) first = some s0)
    (hrest : ∀ i, i < n → s0.pcs (i + 1) = .look) : logSetupPlace e tel s0 (s0.pcs 0) := by
  refine (logInit_invariant (e := e) (calls := .setup tel :: List.replicate n .get)
    (P := fun s => LogLocked (.setup tel :: List.replicate n .get) s ∧
      ((∀ i, i < n → s.pcs (i + 1) = .look) → logSetupPlace e tel s (s.pcs 0))) ?_ ?_ h0).2 hrest
  · rintro s j t ⟨hl, h⟩ hs
    refine ⟨logLocked_step s j t hl hs, fun hall => ?_⟩
    have ⟨hrank, hoth⟩ := logInit_step_rank hs
    by_cases hj : j = 0
    · subst hj
      have h := h (fun i hi => by rw [← hoth (i + 1) (by omega)]; exact hall i hi)
      have hc := hl.setups 0 tel rfl
      unfold step at hs
      simp only [List.getElem?_cons_zero] at hs
      rcases hc with hp | hp | hp | hp | hp | hp <;> rw [hp] at hs h <;> simp only at hs <;>
        cases hs <;> (repeat' split) <;>
        simp_all [State.goto, logSetupPlace, logReady, Call.telemetry]
    · exfalso
      have hjn : j - 1 < n := by
        unfold step at hs
        split at hs
        · cases hs
        · rename_i c hc
          obtain ⟨hlt, _⟩ := List.getElem?_eq_some_iff.1 hc
          simp at hlt
          omega
      have := hall (j - 1) hjn
      rw [show j - 1 + 1 = j by omega] at this
      rw [this] at hrank
      simp only [logRank] at hrank
      cases hp : s.pcs j <;> rw [hp] at hrank <;> simp at hrank
  · refine ⟨logLocked_start _, fun _ => ?_⟩
    simp [start, Call.start, logSetupPlace]

/-- **Set up first, then used from anywhere.**  If one thread has finished
`setup_default_logging_config` before any other starts, then `get_logger`, called from any number of
threads in any order, leaves that set-up as it is: configured once, one Azure handler if there is a
connection string, and telemetry exactly as asked for (if there is one). -/
theorem C110_set_up_first {e : Env} {tel : Bool} {n : Nat} {first sched : List Nat} {s0 s : State}
    (h0 : run e (.setup tel :: List.replicate n .get)
      (start (.setup tel :: List.replicate n .get)) first = some s0)
    (hover : s0.pcs 0 = .returned) (hrest : ∀ i, i < n → s0.pcs (i + 1) = .look)
    (hr : run e (.setup tel :: List.replicate n .get) s0 sched = some s) :
    logReady e s ∧ s.telemetry = (tel && e.plain && e.key) := by
  have hdone := logSetup_alone h0 hrest
  rw [hover] at hdone
  have hout : ∀ i, n < i → s0.pcs i = .returned := by
    intro i hi
    refine logInit_invariant (e := e) (calls := .setup tel :: List.replicate n .get)
      (P := fun s => s.pcs i = .returned) ?_ ?_ h0
    · intro s j t h hs
      by_cases hij : i = j
      · subst hij
        unfold step at hs
        split at hs
        · cases hs
        · rw [h] at hs; cases hs
      · rw [(logInit_step_rank hs).2 i hij]; exact h
    · have : (Call.setup tel :: List.replicate n .get)[i]? = none :=
        List.getElem?_eq_none (by simp; omega)
      simp [start, this]
  have hinit : s0.init = true := by
    refine (logInit_invariant (e := e) (calls := .setup tel :: List.replicate n .get)
      (P := fun s => LogLocked (.setup tel :: List.replicate n .get) s ∧
        (s.pcs 0 = .returned → s.init = true)) ?_ ?_ h0).2 hover
    · rintro s j t ⟨hl, h⟩ hs
      refine ⟨logLocked_step s j t hl hs, ?_⟩
      have mono : s.init = true → t.init = true := by
        intro hi
        unfold step at hs
        split at hs
        · cases hs
        · rename_i c _
          cases hp : s.pcs j <;> rw [hp] at hs <;> simp only at hs
          case acquire =>
            split at hs
            · cases hs; simpa [State.goto] using hi
            · cases hs
          all_goals cases hs
          all_goals (repeat' split) <;> simp [State.goto, hi]
      by_cases hj : j = 0
      · subst hj
        have hc := hl.setups 0 tel rfl
        intro ht
        unfold step at hs
        simp only [List.getElem?_cons_zero] at hs
        rcases hc with hp | hp | hp | hp | hp | hp <;> rw [hp] at hs <;> simp only at hs <;>
          cases hs <;> revert ht <;> (repeat' split) <;> simp [State.goto]
      · intro ht
        rw [(logInit_step_rank hs).2 0 (Ne.symm hj)] at ht
        exact mono (h ht)
    · exact ⟨logLocked_start _, fun h => by simp [start, Call.start] at h⟩
  have hk : LogKept 0 s0 s := by
    refine logInit_invariant _ logKept_step ⟨hinit, rfl, rfl, rfl, rfl, fun i hi => ?_, hover⟩ hr
    by_cases hin : i ≤ n
    · obtain ⟨k, rfl⟩ : ∃ k, i = k + 1 := ⟨i - 1, by omega⟩
      rw [hrest k (by omega)]
      simp
    · rw [hout i (by omega)]
      simp
  refine ⟨?_, hk.telemetry.trans hdone.1⟩
  have hready := hdone.2
  unfold logReady at hready ⊢
  rw [hk.configs, hk.console, hk.azure]
  exact hready

/-- An environment with the default logger class, a connection string and no failures. -/
def logEnv : Env := ⟨true, true, fun _ => false⟩

/-- The module variables at the end of a run. -/
def logSummary (s : State) (n : Nat) : Bool × Nat × Nat × Bool × List Pc :=
  (s.telemetry, s.azure, s.configs, s.logger, (List.range n).map s.pcs)

/-- Three threads call `get_logger` at the same time: the second waits for the first, the third comes
late. -/
example : (run logEnv (List.replicate 3 .get) (start (List.replicate 3 .get))
      ([0, 1, 0, 0, 0, 0, 0, 0, 0, 0, 2, 0] ++ [1, 1, 1])).map (logSummary · 3) =
    some (false, 1, 1, true, [.returned, .returned, .returned]) := by decide

/-- The first thread cannot configure logging and raises; the second then does. -/
example : (run ⟨true, true, fun i => i == 0⟩ [.get, .get] (start [.get, .get])
      ([0, 1, 0, 0, 0, 0, 0, 0] ++ [1, 1, 1, 1, 1, 1, 1, 1, 1])).map (logSummary · 2) =
    some (false, 1, 1, true, [.raised, .returned]) := by decide

/-- Telemetry switched on first, then two threads. -/
example : (run logEnv [.setup true, .get, .get] (start [.setup true, .get, .get])
      ([0, 0, 0, 0] ++ [1, 2, 2, 2, 2, 2, 2, 1, 1, 1])).map (logSummary · 3) =
    some (true, 1, 1, true, [.returned, .returned, .returned]) := by decide

/-- **Refuted: telemetry that was switched on stays on.**  `setup_default_logging_config(True)` does not
take the lock, so a `get_logger` that runs at the same time may switch telemetry off again: both calls
return, and no record is sent. -/
theorem C110_telemetry_refuted :
    ∃ (sched : List Nat) (s : State),
      run logEnv [.setup true, .get] (start [.setup true, .get]) sched = some s ∧
      s.pcs 0 = .returned ∧ s.pcs 1 = .returned ∧ timesSent s = 0 :=
  ⟨[1, 1, 1, 1, 0, 1, 1, 1, 1, 1, 1, 0, 0, 0], _, rfl, rfl, rfl, rfl⟩

/-- **Refuted: every record is sent once.**  The two calls may also both attach an Azure handler, so that
each record is sent twice. -/
theorem C110_twice_refuted :
    ∃ (sched : List Nat) (s : State),
      run logEnv [.setup true, .get] (start [.setup true, .get]) sched = some s ∧
      s.pcs 0 = .returned ∧ s.pcs 1 = .returned ∧ timesSent s = 2 :=
  ⟨[1, 1, 1, 1, 1, 0, 1, 0, 1, 0, 1, 1, 1, 0], _, rfl, rfl, rfl, rfl⟩

end DeepGNN
