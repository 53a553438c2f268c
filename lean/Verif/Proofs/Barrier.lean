import Verif.Spec.Barrier

namespace DeepGNN.Barrier
open DeepGNN.Spec

/-- All addresses, as `get_address` should return them. -/
def allAddresses (k : Nat) : List (Option String) := (List.range k).map fun i => some (address i)

/-- Past `__enter__`. -/
def Place.past : Place → Prop
  | .start => False
  | .failed => False
  | .entering => False
  | _ => True

/-- Calls and lock of a worker by its place. -/
def WOk (size : Nat) (c : Option String) (lock : Option Nat) (i : Nat) (w : Worker) : Prop :=
  match w.place with
  | .start => w.calls = [] ∧ lock = some 0
  | .failed => w.calls = [] ∧ lock = some 0
  | .entering =>
    (w.calls = [.put (address i), .setLock, .waitSet] ∧ lock = some 0) ∨
    (w.calls = [.setLock, .waitSet] ∧ lock = some 0 ∧ c = some (address i)) ∨
    (w.calls = [.waitSet] ∧ lock = some 1)
  | .asking got =>
    ∃ k, k < size ∧ got = allAddresses k ∧ w.calls = (List.range' k (size - k)).map .get ∧ lock = some 1
  | .inside a => a = allAddresses size ∧ w.calls = [] ∧ lock = some 1
  | .leaving => (w.calls = [.releaseLock, .waitReleased] ∧ lock = some 1) ∨ (w.calls = [.waitReleased] ∧ lock = some 2)
  | .left => w.calls = [] ∧ lock = some 2

structure Inv (size : Nat) (s : State) : Prop where
  len : s.locks.length = size
  wok : ∀ i, i < size → WOk size (s.cache i) s.locks[i]? i (s.workers i)
  ann : ∀ i, i < size → s.locks[i]? ≠ some 0 → s.cache i = some (address i)
  past : ∀ i, i < size → (s.workers i).place.past → ∀ j, j < size → s.locks[j]? ≠ some 0
  left : ∀ i, i < size → (s.workers i).place = .left → ∀ j, j < size → s.locks[j]? = some 2

theorem inv_init (size : Nat) : Inv size (init size) := by
  refine ⟨by simp [init], fun i hi => ?_, fun i hi h => ?_, fun i _ h => ?_, fun i _ h => ?_⟩
  · simp [init, WOk, List.getElem?_replicate, hi]
  · exact absurd (by simp [init, List.getElem?_replicate, hi]) h
  · exact absurd h (by simp [init, Place.past])
  · simp [init] at h

theorem update_same {α : Type} (f : Nat → α) (i : Nat) (x : α) : update f i x i = x := by simp [update]
theorem update_ne {α : Type} (f : Nat → α) {i j : Nat} (x : α) (h : j ≠ i) : update f i x j = f j := by simp [update, h]

theorem inv_update {size : Nat} {s : State} (h : Inv size s) {i : Nat} (hi : i < size) {c : Nat → Option String}
    {l : List Nat} {w : Worker} (hlen : l.length = s.locks.length) (hl : ∀ j, j ≠ i → l[j]? = s.locks[j]?)
    (hc : ∀ j, j ≠ i → c j = s.cache j) (hw : WOk size (c i) l[i]? i w) (ha : l[i]? ≠ some 0 → c i = some (address i))
    (h0 : s.locks[i]? ≠ some 0 → l[i]? ≠ some 0) (h2 : s.locks[i]? = some 2 → l[i]? = some 2)
    (hp : w.place.past → (s.workers i).place.past ∨ ∀ j, j < size → s.locks[j]? ≠ some 0)
    (hf : w.place = .left → (s.workers i).place = .left ∨ ∀ j, j < size → s.locks[j]? = some 2) :
    Inv size { cache := c, locks := l, workers := update s.workers i w } := by
  have up0 : ∀ j, s.locks[j]? ≠ some 0 → l[j]? ≠ some 0 := fun j hj => by
    by_cases e : j = i
    · subst e; exact h0 hj
    · rw [hl j e]; exact hj
  have up2 : ∀ j, s.locks[j]? = some 2 → l[j]? = some 2 := fun j hj => by
    by_cases e : j = i
    · subst e; exact h2 hj
    · rw [hl j e]; exact hj
  refine ⟨hlen.trans h.len, fun j hj => ?_, fun j hj hn => ?_, fun j hj hpast k hk => ?_, fun j hj hleft k hk => ?_⟩
  · by_cases e : j = i
    · subst e
      simpa only [update_same] using hw
    · simp only [update_ne _ _ e]
      rw [hl j e, hc j e]
      exact h.wok j hj
  · by_cases e : j = i
    · subst e; exact ha hn
    · simp only at hn ⊢
      rw [hl j e] at hn
      rw [hc j e]
      exact h.ann j hj hn
  · by_cases e : j = i
    · subst e
      simp only [update_same] at hpast
      rcases hp hpast with h' | h'
      · exact up0 k (h.past j hi h' k hk)
      · exact up0 k (h' k hk)
    · simp only [update_ne _ _ e] at hpast
      exact up0 k (h.past j hj hpast k hk)
  · by_cases e : j = i
    · subst e
      simp only [update_same] at hleft
      rcases hf hleft with h' | h'
      · exact up2 k (h.left j hi h' k hk)
      · exact up2 k (h' k hk)
    · simp only [update_ne _ _ e] at hleft
      exact up2 k (h.left j hj hleft k hk)

theorem inv_worker {size : Nat} {s : State} (h : Inv size s) {i : Nat} (hi : i < size) {w : Worker}
    (hw : WOk size (s.cache i) s.locks[i]? i w)
    (hp : w.place.past → (s.workers i).place.past ∨ ∀ j, j < size → s.locks[j]? ≠ some 0)
    (hf : w.place = .left → (s.workers i).place = .left ∨ ∀ j, j < size → s.locks[j]? = some 2) :
    Inv size (s.withWorker i w) :=
  inv_update h hi rfl (fun _ _ => rfl) (fun _ _ => rfl) hw (h.ann i hi) id id hp hf

theorem waitSet_iff {size : Nat} {s : State} (h : Inv size s) :
    waitSet s.locks = true ↔ ∀ j, j < size → s.locks[j]? = some 1 := by
  rw [waitSet, List.all_eq_true]
  constructor
  · intro ha j hj
    have hl : j < s.locks.length := by rw [h.len]; exact hj
    have := ha _ (List.getElem_mem hl)
    rw [List.getElem?_eq_getElem hl]
    simpa using this
  · intro ha x hx
    obtain ⟨j, hj, rfl⟩ := List.getElem_of_mem hx
    have := ha j (by rw [← h.len]; exact hj)
    rw [List.getElem?_eq_getElem hj] at this
    simpa using this

theorem waitReleased_iff {size : Nat} {s : State} (h : Inv size s) :
    waitReleased s.locks = true ↔ ∀ j, j < size → s.locks[j]? = some 2 := by
  rw [waitReleased, List.all_eq_true]
  constructor
  · intro ha j hj
    have hl : j < s.locks.length := by rw [h.len]; exact hj
    have := ha _ (List.getElem_mem hl)
    rw [List.getElem?_eq_getElem hl]
    simpa using this
  · intro ha x hx
    obtain ⟨j, hj, rfl⟩ := List.getElem_of_mem hx
    have := ha j (by rw [← h.len]; exact hj)
    rw [List.getElem?_eq_getElem hj] at this
    simpa using this

theorem allAddresses_succ (k : Nat) : allAddresses (k + 1) = allAddresses k ++ [some (address k)] := by
  simp [allAddresses, List.range_succ]

theorem getElem?_set_other {l : List Nat} {i j : Nat} (v : Nat) (h : j ≠ i) : (l.set i v)[j]? = l[j]? := by
  rw [List.getElem?_set]
  simp [Ne.symm h]

theorem getElem?_set_same {l : List Nat} {i : Nat} (v : Nat) (h : i < l.length) : (l.set i v)[i]? = some v := by
  rw [List.getElem?_set]
  simp [h]

/-- What the actor can be asked by a worker, and what comes of it. -/
theorem served {size : Nat} {s s' : State} (h : Inv size s) {i : Nat} (hi : i < size)
    (hs : step size s (.serve i) = some s') :
    ((s.workers i).place = .entering ∧ (s.workers i).calls = [.put (address i), .setLock, .waitSet] ∧
        s.locks[i]? = some 0 ∧
        s' = { cache := update s.cache i (some (address i)), locks := s.locks,
               workers := update s.workers i ⟨.entering, [.setLock, .waitSet]⟩ }) ∨
    ((s.workers i).place = .entering ∧ (s.workers i).calls = [.setLock, .waitSet] ∧ s.locks[i]? = some 0 ∧
        s.cache i = some (address i) ∧
        s' = { cache := s.cache, locks := s.locks.set i 1, workers := update s.workers i ⟨.entering, [.waitSet]⟩ }) ∨
    ((s.workers i).place = .entering ∧ (s.workers i).calls = [.waitSet] ∧ s.locks[i]? = some 1 ∧
        (∀ j, j < size → s.locks[j]? = some 1) ∧
        s' = s.withWorker i ⟨.asking [], (List.range size).map .get⟩) ∨
    ((s.workers i).place = .entering ∧ (s.workers i).calls = [.waitSet] ∧ s.locks[i]? = some 1 ∧
        ¬ (∀ j, j < size → s.locks[j]? = some 1) ∧ s' = s.withWorker i ⟨.entering, [.waitSet]⟩) ∨
    (∃ k, k < size ∧ (s.workers i).place = .asking (allAddresses k) ∧ s.locks[i]? = some 1 ∧
        (s.workers i).calls = (List.range' k (size - k)).map .get ∧
        s' = s.withWorker i ⟨if k + 1 = size then .inside (allAddresses size) else .asking (allAddresses (k + 1)),
          (List.range' (k + 1) (size - (k + 1))).map .get⟩) ∨
    ((s.workers i).place = .leaving ∧ (s.workers i).calls = [.releaseLock, .waitReleased] ∧ s.locks[i]? = some 1 ∧
        s' = { cache := s.cache, locks := s.locks.set i 2, workers := update s.workers i ⟨.leaving, [.waitReleased]⟩ }) ∨
    ((s.workers i).place = .leaving ∧ (s.workers i).calls = [.waitReleased] ∧ s.locks[i]? = some 2 ∧
        (∀ j, j < size → s.locks[j]? = some 2) ∧ s' = s.withWorker i ⟨.left, []⟩) ∨
    ((s.workers i).place = .leaving ∧ (s.workers i).calls = [.waitReleased] ∧ s.locks[i]? = some 2 ∧
        ¬ (∀ j, j < size → s.locks[j]? = some 2) ∧ s' = s.withWorker i ⟨.leaving, [.waitReleased]⟩) := by
  have hw := h.wok i hi
  have hpast := h.past i hi
  have hws := waitSet_iff h
  have hwr := waitReleased_iff h
  simp only [step, hi, if_true] at hs
  rcases hwk : s.workers i with ⟨p, c⟩
  rw [hwk] at hw hs hpast
  cases p with
  | start => simp only [WOk] at hw; rw [hw.1] at hs; cases hs
  | failed => simp only [WOk] at hw; rw [hw.1] at hs; cases hs
  | left => simp only [WOk] at hw; rw [hw.1] at hs; cases hs
  | inside a => simp only [WOk] at hw; rw [hw.2.1] at hs; cases hs
  | entering =>
    simp only [WOk] at hw
    rcases hw with ⟨e, hl⟩ | ⟨e, hl, hc⟩ | ⟨e, hl⟩ <;> subst e <;> simp only [serve] at hs
    · cases hs
      exact Or.inl ⟨rfl, rfl, hl, rfl⟩
    · cases hs
      exact Or.inr (Or.inl ⟨rfl, rfl, hl, hc, rfl⟩)
    · by_cases hb : waitSet s.locks = true
      · rw [if_pos hb] at hs
        cases hs
        exact Or.inr (Or.inr (Or.inl ⟨rfl, rfl, hl, hws.mp hb, rfl⟩))
      · rw [if_neg hb] at hs
        cases hs
        exact Or.inr (Or.inr (Or.inr (Or.inl ⟨rfl, rfl, hl, fun x => hb (hws.mpr x), rfl⟩)))
  | leaving =>
    simp only [WOk] at hw
    rcases hw with ⟨e, hl⟩ | ⟨e, hl⟩ <;> subst e <;> simp only [serve] at hs
    · cases hs
      exact Or.inr (Or.inr (Or.inr (Or.inr (Or.inr (Or.inl ⟨rfl, rfl, hl, rfl⟩)))))
    · by_cases hb : waitReleased s.locks = true
      · rw [if_pos hb] at hs
        cases hs
        exact Or.inr (Or.inr (Or.inr (Or.inr (Or.inr (Or.inr (Or.inl ⟨rfl, rfl, hl, hwr.mp hb, rfl⟩))))))
      · rw [if_neg hb] at hs
        cases hs
        exact Or.inr (Or.inr (Or.inr (Or.inr (Or.inr (Or.inr (Or.inr ⟨rfl, rfl, hl, fun x => hb (hwr.mpr x), rfl⟩))))))
  | asking got =>
    simp only [WOk] at hw
    obtain ⟨k, hk, hgot, hcalls, hl⟩ := hw
    subst hgot
    subst hcalls
    obtain ⟨m, hm⟩ : ∃ m, size - k = m + 1 := ⟨size - k - 1, by omega⟩
    have hm' : size - (k + 1) = m := by omega
    have hck : s.cache k = some (address k) := h.ann k hk (hpast trivial k hk)
    rw [hm, List.range'_succ, List.map_cons] at hs
    simp only [serve, hck] at hs
    cases hs
    refine Or.inr (Or.inr (Or.inr (Or.inr (Or.inl ⟨k, hk, rfl, hl, rfl, ?_⟩))))
    rw [hm', ← allAddresses_succ]
    by_cases e : k + 1 = size
    · have hm0 : m = 0 := by omega
      subst hm0
      simp [e]
    · rw [if_neg e, if_neg]
      intro hnil
      have := congrArg List.length hnil
      simp at this
      omega

theorem inv_step {size : Nat} {s s' : State} (h : Inv size s) {e : Event} (hs : step size s e = some s') :
    Inv size s' := by
  cases e with
  | enter i =>
    simp only [step] at hs
    split at hs <;> cases hs
    rename_i hi
    have hw := h.wok i hi.1
    simp only [WOk, hi.2] at hw
    exact inv_worker h hi.1 (Or.inl ⟨rfl, hw.2⟩) (fun x => absurd x (by simp [Place.past])) (fun x => by cases x)
  | fail i =>
    simp only [step] at hs
    split at hs <;> cases hs
    rename_i hi
    have hw := h.wok i hi.1
    simp only [WOk, hi.2] at hw
    exact inv_worker h hi.1 ⟨rfl, hw.2⟩ (fun x => absurd x (by simp [Place.past])) (fun x => by cases x)
  | leave i =>
    simp only [step] at hs
    split at hs
    · rename_i hi
      split at hs <;> cases hs
      rename_i a ha
      have hw := h.wok i hi
      simp only [WOk, ha] at hw
      exact inv_worker h hi (Or.inl ⟨rfl, hw.2.2⟩) (fun _ => Or.inl (by rw [ha]; trivial)) (fun x => by cases x)
    · cases hs
  | serve i =>
    by_cases hi : i < size
    · have hlen : i < s.locks.length := by rw [h.len]; exact hi
      rcases served h hi hs with ⟨hp, hc, hl, rfl⟩ | ⟨hp, hc, hl, ha, rfl⟩ | ⟨hp, hc, hl, hall, rfl⟩ |
        ⟨hp, hc, hl, hall, rfl⟩ | ⟨k, hk, hp, hl, hc, rfl⟩ | ⟨hp, hc, hl, rfl⟩ | ⟨hp, hc, hl, hall, rfl⟩ |
        ⟨hp, hc, hl, hall, rfl⟩
      · exact inv_update h hi rfl (fun _ _ => rfl) (fun j hj => update_ne _ _ hj)
          (Or.inr (Or.inl ⟨rfl, hl, update_same _ _ _⟩)) (fun _ => update_same _ _ _) id id
          (fun x => absurd x (by simp [Place.past])) (fun x => by cases x)
      · exact inv_update h hi (by simp) (fun j hj => getElem?_set_other 1 hj) (fun _ _ => rfl)
          (Or.inr (Or.inr ⟨rfl, getElem?_set_same 1 hlen⟩)) (fun _ => ha)
          (fun _ => by rw [getElem?_set_same 1 hlen]; simp) (fun x => by rw [hl] at x; cases x)
          (fun x => absurd x (by simp [Place.past])) (fun x => by cases x)
      · refine inv_worker h hi ⟨0, by omega, rfl, ?_, hl⟩ (fun _ => Or.inr fun j hj => by rw [hall j hj]; simp)
          (fun x => by cases x)
        simp [List.range_eq_range']
      · exact inv_worker h hi (Or.inr (Or.inr ⟨rfl, hl⟩)) (fun x => absurd x (by simp [Place.past])) (fun x => by cases x)
      · by_cases e : k + 1 = size
        · rw [if_pos e]
          exact inv_worker h hi ⟨rfl, by simp [e], hl⟩ (fun _ => Or.inl (by rw [hp]; trivial)) (fun x => by cases x)
        · rw [if_neg e]
          exact inv_worker h hi ⟨k + 1, by omega, rfl, rfl, hl⟩ (fun _ => Or.inl (by rw [hp]; trivial))
            (fun x => by cases x)
      · exact inv_update h hi (by simp) (fun j hj => getElem?_set_other 2 hj) (fun _ _ => rfl)
          (Or.inr ⟨rfl, getElem?_set_same 2 hlen⟩) (fun _ => h.ann i hi (by rw [hl]; simp))
          (fun _ => by rw [getElem?_set_same 2 hlen]; simp) (fun _ => getElem?_set_same 2 hlen)
          (fun _ => Or.inl (by rw [hp]; trivial)) (fun x => by cases x)
      · exact inv_worker h hi ⟨rfl, hl⟩ (fun _ => Or.inl (by rw [hp]; trivial)) (fun _ => Or.inr hall)
      · exact inv_worker h hi (Or.inr ⟨rfl, hl⟩) (fun _ => Or.inl (by rw [hp]; trivial)) (fun x => by cases x)
    · simp [step, hi] at hs

theorem run_cons {size : Nat} {s s' : State} {e : Event} {es : List Event} :
    run size s (e :: es) = some s' ↔ ∃ t, step size s e = some t ∧ run size t es = some s' := by
  simp only [run, List.foldlM_cons]
  cases h : step size s e with
  | none => simp
  | some t => simp

theorem run_append {size : Nat} {s t s' : State} {es fs : List Event} (h : run size s es = some t)
    (h' : run size t fs = some s') : run size s (es ++ fs) = some s' := by
  simp only [run, List.foldlM_append] at *
  rw [h]
  exact h'

theorem inv_run {size : Nat} {es : List Event} : ∀ {s s' : State}, Inv size s → run size s es = some s' → Inv size s' := by
  induction es with
  | nil => intro s s' h hr; simp [run] at hr; exact hr ▸ h
  | cons e es ih =>
    intro s s' h hr
    obtain ⟨t, ht, hr⟩ := run_cons.mp hr
    exact ih (inv_step h ht) hr

theorem reaches_inv {size : Nat} {s : State} (h : JobReaches size s) : Inv size s :=
  let ⟨_, hr⟩ := h
  inv_run (inv_init size) hr

theorem reaches_run {size : Nat} {s s' : State} {es : List Event} (h : JobReaches size s) (hr : run size s es = some s') :
    JobReaches size s' :=
  let ⟨fs, hf⟩ := h
  ⟨fs ++ es, run_append hf hr⟩

/-! ### Getting to the end -/

/-- Nothing keeps the job from ending. -/
structure Open (size : Nat) (s : State) : Prop where
  alive : ∀ i, i < size → (s.workers i).place ≠ .failed
  ahead : ∀ i, i < size → s.locks[i]? = some 2 → ∀ j, j < size → (s.workers j).place.past

/-- Steps ahead of a worker. -/
def todo (size : Nat) (w : Worker) : Nat :=
  match w.place with
  | .start => size + 9
  | .failed => 0
  | .entering => size + 5 + w.calls.length
  | .asking _ => 4 + w.calls.length
  | .inside _ => 4
  | .leaving => 1 + w.calls.length
  | .left => 0

/-- Steps ahead of all workers. -/
def total (size : Nat) (f : Nat → Worker) : Nat := ((List.range size).map fun i => todo size (f i)).sum

theorem sum_update_lt (m : Worker → Nat) (f : Nat → Worker) (i : Nat) (w : Worker) (hlt : m w < m (f i)) : ∀ n, i < n →
    ((List.range n).map fun j => m (update f i w j)).sum < ((List.range n).map fun j => m (f j)).sum := by
  intro n
  induction n with
  | zero => intro h; omega
  | succ n ih =>
    intro h
    rw [List.range_succ, List.map_append, List.map_append, List.sum_append, List.sum_append]
    by_cases e : i = n
    · subst e
      have hsame : ((List.range i).map fun j => m (update f i w j)) = (List.range i).map fun j => m (f j) :=
        List.map_congr_left fun j hj => by
          rw [update_ne]
          have := List.mem_range.mp hj
          omega
      rw [hsame]
      simp [update_same]
      exact hlt
    · have := ih (by omega)
      simp [update_ne f w (show n ≠ i by omega)]
      exact this

theorem total_lt {size : Nat} {f : Nat → Worker} {i : Nat} {w : Worker} (hi : i < size)
    (h : todo size w < todo size (f i)) : total size (update f i w) < total size f :=
  sum_update_lt (todo size) f i w h size hi

theorem open_worker {size : Nat} {s : State} (ho : Open size s) {i : Nat} {w : Worker} (hf : w.place ≠ .failed)
    (hp : (s.workers i).place.past → w.place.past) : Open size (s.withWorker i w) := by
  refine ⟨fun j hj => ?_, fun j hj hl k hk => ?_⟩
  · by_cases e : j = i
    · subst e; simp only [State.withWorker, update_same]; exact hf
    · simp only [State.withWorker, update_ne _ _ e]; exact ho.alive j hj
  · have := ho.ahead j hj hl k hk
    by_cases e : k = i
    · subst e; simp only [State.withWorker, update_same]; exact hp this
    · simp only [State.withWorker, update_ne _ _ e]; exact this

/-- While some worker has not ended, some event brings the end nearer. -/
theorem advance {size : Nat} {s : State} (h : Inv size s) (ho : Open size s)
    (hn : ¬ ∀ i, i < size → (s.workers i).place = .left) :
    ∃ e s', step size s e = some s' ∧ Open size s' ∧ total size s'.workers < total size s.workers := by
  -- a worker before the block
  by_cases h1 : ∃ i, i < size ∧ (s.workers i).place = .start
  · obtain ⟨i, hi, hp⟩ := h1
    refine ⟨.enter i, _, by simp only [step, hi, hp, and_self, if_true]; rfl, ?_, ?_⟩
    · exact open_worker ho (by simp) (by rw [hp]; exact False.elim)
    · refine total_lt hi ?_
      simp [todo, hp]
  · have h1' : ∀ i, i < size → (s.workers i).place ≠ .start := fun i hi he => h1 ⟨i, hi, he⟩
    -- a call of a worker in `__enter__` that is not the poll
    by_cases h2 : ∃ i, i < size ∧ (s.workers i).place = .entering ∧ (s.workers i).calls ≠ [.waitSet]
    · obtain ⟨i, hi, hp, hc⟩ := h2
      have hw := h.wok i hi
      simp only [WOk, hp] at hw
      have hno2 : ∀ j, j < size → s.locks[j]? ≠ some 2 := fun j hj hl => by
        have := ho.ahead j hj hl i hi
        rw [hp] at this
        exact this
      rcases hw with ⟨e, hl⟩ | ⟨e, hl, -⟩ | ⟨e, hl⟩
      · refine ⟨.serve i, _, by simp only [step, hi, if_true, e, serve]; rfl, ?_, ?_⟩
        · refine ⟨fun j hj => ?_, fun j hj hl' => absurd hl' (hno2 j hj)⟩
          by_cases e' : j = i
          · subst e'; simp [State.withWorker, update_same, hp]
          · simp only [State.withWorker, update_ne _ _ e']; exact ho.alive j hj
        · refine total_lt hi ?_
          simp [todo, hp, e]
      · refine ⟨.serve i, _, by simp only [step, hi, if_true, e, serve]; rfl, ?_, ?_⟩
        · refine ⟨fun j hj => ?_, fun j hj hl' => ?_⟩
          · by_cases e' : j = i
            · subst e'; simp [State.withWorker, update_same, hp]
            · simp only [State.withWorker, update_ne _ _ e']; exact ho.alive j hj
          · by_cases e' : j = i
            · subst e'
              simp only at hl'
              rw [getElem?_set_same 1 (by rw [h.len]; exact hi)] at hl'
              cases hl'
            · simp only at hl'
              rw [getElem?_set_other 1 e'] at hl'
              exact absurd hl' (hno2 j hj)
        · refine total_lt hi ?_
          simp [todo, hp, e]
      · exact absurd e hc
    · -- a worker that polls for the start
      by_cases h3 : ∃ i, i < size ∧ (s.workers i).place = .entering
      · obtain ⟨i, hi, hp⟩ := h3
        have hno2 : ∀ j, j < size → s.locks[j]? ≠ some 2 := fun j hj hl => by
          have := ho.ahead j hj hl i hi
          rw [hp] at this
          exact this
        have hall : ∀ j, j < size → s.locks[j]? = some 1 := fun j hj => by
          have hw := h.wok j hj
          have hno := hno2 j hj
          cases hpj : (s.workers j).place with
          | start => exact absurd hpj (h1' j hj)
          | failed => exact absurd hpj (ho.alive j hj)
          | entering =>
            simp only [WOk, hpj] at hw
            have hcj : (s.workers j).calls = [.waitSet] := Classical.byContradiction fun hcj => h2 ⟨j, hj, hpj, hcj⟩
            rw [hcj] at hw
            rcases hw with ⟨e, -⟩ | ⟨e, -, -⟩ | ⟨-, hl⟩
            · simp at e
            · simp at e
            · exact hl
          | asking got => simp only [WOk, hpj] at hw; obtain ⟨k, -, -, -, hl⟩ := hw; exact hl
          | inside a => simp only [WOk, hpj] at hw; exact hw.2.2
          | leaving =>
            simp only [WOk, hpj] at hw
            rcases hw with ⟨-, hl⟩ | ⟨-, hl⟩
            · exact hl
            · exact absurd hl hno
          | left => simp only [WOk, hpj] at hw; exact absurd hw.2 hno
        have hci : (s.workers i).calls = [.waitSet] := Classical.byContradiction fun hc => h2 ⟨i, hi, hp, hc⟩
        refine ⟨.serve i, _, by simp only [step, hi, if_true, hci, serve, (waitSet_iff h).mpr hall]; rfl, ?_, ?_⟩
        · exact open_worker ho (by simp) (by rw [hp]; exact False.elim)
        · refine total_lt hi ?_
          simp [todo, hp, hci]
          omega
      · have h3' : ∀ i, i < size → (s.workers i).place ≠ .entering := fun i hi he => h3 ⟨i, hi, he⟩
        -- a worker in the block
        by_cases h4 : ∃ i a, i < size ∧ (s.workers i).place = .inside a
        · obtain ⟨i, a, hi, hp⟩ := h4
          refine ⟨.leave i, _, by simp only [step, hi, if_true, hp]; rfl, ?_, ?_⟩
          · exact open_worker ho (by simp) (fun _ => trivial)
          · refine total_lt hi ?_
            simp [todo, hp]
        · by_cases h5 : ∃ i got, i < size ∧ (s.workers i).place = .asking got
          · obtain ⟨i, got, hi, hp⟩ := h5
            have hw := h.wok i hi
            simp only [WOk, hp] at hw
            obtain ⟨k, hk, hgot, hcalls, hl⟩ := hw
            obtain ⟨m, hm⟩ : ∃ m, size - k = m + 1 := ⟨size - k - 1, by omega⟩
            rw [hm, List.range'_succ, List.map_cons] at hcalls
            refine ⟨.serve i, _, by simp only [step, hi, if_true, hcalls, serve, hp]; rfl, ?_, ?_⟩
            · refine open_worker ho ?_ (fun _ => ?_)
              · simp only; split <;> simp
              · simp only; split <;> trivial
            · refine total_lt hi ?_
              by_cases hz : m = 0
              · subst hz
                simp [todo, hp, hcalls]
              · have hne : ¬ ((List.range' (k + 1) m).map Call.get = []) := fun hnil => by
                  have := congrArg List.length hnil
                  simp at this
                  exact hz this
                simp [todo, hp, hcalls, hz]
          · -- all others are in `__exit__` or after it
            have hrest : ∀ i, i < size → (s.workers i).place = .leaving ∨ (s.workers i).place = .left := fun i hi => by
              cases hp : (s.workers i).place with
              | start => exact absurd hp (h1' i hi)
              | failed => exact absurd hp (ho.alive i hi)
              | entering => exact absurd hp (h3' i hi)
              | asking got => exact absurd ⟨i, got, hi, hp⟩ h5
              | inside a => exact absurd ⟨i, a, hi, hp⟩ h4
              | leaving => exact Or.inl rfl
              | left => exact Or.inr rfl
            have hpastall : ∀ i, i < size → (s.workers i).place.past := fun i hi => by
              rcases hrest i hi with e | e <;> rw [e] <;> trivial
            by_cases h6 : ∃ i, i < size ∧ (s.workers i).place = .leaving ∧ (s.workers i).calls ≠ [.waitReleased]
            · obtain ⟨i, hi, hp, hc⟩ := h6
              have hw := h.wok i hi
              simp only [WOk, hp] at hw
              rcases hw with ⟨e, hl⟩ | ⟨e, hl⟩
              · refine ⟨.serve i, _, by simp only [step, hi, if_true, e, serve]; rfl, ?_, ?_⟩
                · refine ⟨fun j hj => ?_, fun j hj _ k hk => ?_⟩
                  · by_cases e' : j = i
                    · subst e'; simp [State.withWorker, update_same, hp]
                    · simp only [State.withWorker, update_ne _ _ e']; exact ho.alive j hj
                  · by_cases e' : k = i
                    · subst e'; simp only [State.withWorker, update_same, hp]; trivial
                    · simp only [State.withWorker, update_ne _ _ e']; exact hpastall k hk
                · refine total_lt hi ?_
                  simp [todo, hp, e]
              · exact absurd e hc
            · obtain ⟨i, hi, hp⟩ : ∃ i, i < size ∧ (s.workers i).place = .leaving :=
                Classical.byContradiction fun hx => hn fun i hi => (hrest i hi).resolve_left fun he => hx ⟨i, hi, he⟩
              have hall : ∀ j, j < size → s.locks[j]? = some 2 := fun j hj => by
                have hw := h.wok j hj
                rcases hrest j hj with hpj | hpj
                · have hcj : (s.workers j).calls = [.waitReleased] :=
                    Classical.byContradiction fun hcj => h6 ⟨j, hj, hpj, hcj⟩
                  simp only [WOk, hpj, hcj] at hw
                  rcases hw with ⟨e, -⟩ | ⟨-, hl⟩
                  · simp at e
                  · exact hl
                · simp only [WOk, hpj] at hw
                  exact hw.2
              have hci : (s.workers i).calls = [.waitReleased] := Classical.byContradiction fun hc => h6 ⟨i, hi, hp, hc⟩
              refine ⟨.serve i, _, by simp only [step, hi, if_true, hci, serve, (waitReleased_iff h).mpr hall]; rfl, ?_, ?_⟩
              · exact open_worker ho (by simp) (fun _ => trivial)
              · refine total_lt hi ?_
                simp [todo, hp]
                omega

theorem open_finish {size : Nat} : ∀ (n : Nat) {s : State}, Inv size s → Open size s → total size s.workers ≤ n →
    CanFinish size s := by
  intro n
  induction n with
  | zero =>
    intro s h ho ht
    by_cases hn : ∀ i, i < size → (s.workers i).place = .left
    · exact ⟨[], s, rfl, hn⟩
    · obtain ⟨e, s', -, -, hlt⟩ := advance h ho hn
      omega
  | succ n ih =>
    intro s h ho ht
    by_cases hn : ∀ i, i < size → (s.workers i).place = .left
    · exact ⟨[], s, rfl, hn⟩
    · obtain ⟨e, s', hs, ho', hlt⟩ := advance h ho hn
      obtain ⟨es, t, hr, hl⟩ := ih (inv_step h hs) ho' (by omega)
      exact ⟨e :: es, t, run_cons.mpr ⟨s', hs, hr⟩, hl⟩

/-! ### Staying stuck -/

/-- A worker that failed, or one that waits for the start while another has left. -/
def Stuck (size : Nat) (s : State) : Prop :=
  (∃ i, i < size ∧ (s.workers i).place = .failed) ∨
  ∃ i j, i < size ∧ j < size ∧ s.locks[i]? = some 2 ∧ (s.workers j).place = .entering

theorem stuck_step {size : Nat} {s s' : State} (h : Inv size s) (hk : Stuck size s) {e : Event}
    (hs : step size s e = some s') : Stuck size s' := by
  -- the workers an event does not belong to stay as they are
  have key : ∃ r, (∀ k, k ≠ r → s'.workers k = s.workers k) ∧ (∀ k, k ≠ r → s'.locks[k]? = s.locks[k]?) ∧
      ((s.workers r).place = .failed → r < size → False) ∧
      (s.locks[r]? = some 2 → r < size → s'.locks[r]? = some 2) ∧
      ((s.workers r).place = .entering → (∃ i, i < size ∧ s.locks[i]? = some 2) → r < size →
        (s'.workers r).place = .entering) := by
    cases e with
    | enter i =>
      simp only [step] at hs
      split at hs <;> cases hs
      rename_i hi
      exact ⟨i, fun k hk => update_ne _ _ hk, fun _ _ => rfl, fun x _ => (by rw [hi.2] at x; cases x), fun x _ => x,
        fun x _ _ => (by rw [hi.2] at x; cases x)⟩
    | fail i =>
      simp only [step] at hs
      split at hs <;> cases hs
      rename_i hi
      exact ⟨i, fun k hk => update_ne _ _ hk, fun _ _ => rfl, fun x _ => (by rw [hi.2] at x; cases x), fun x _ => x,
        fun x _ _ => (by rw [hi.2] at x; cases x)⟩
    | leave i =>
      simp only [step] at hs
      split at hs
      · split at hs <;> cases hs
        rename_i a ha
        exact ⟨i, fun k hk => update_ne _ _ hk, fun _ _ => rfl, fun x _ => (by rw [ha] at x; cases x), fun x _ => x,
          fun x _ _ => (by rw [ha] at x; cases x)⟩
      · cases hs
    | serve i =>
      by_cases hi : i < size
      · have hlen : i < s.locks.length := by rw [h.len]; exact hi
        rcases served h hi hs with ⟨hp, hc, hl, rfl⟩ | ⟨hp, hc, hl, ha, rfl⟩ | ⟨hp, hc, hl, hall, rfl⟩ |
          ⟨hp, hc, hl, hall, rfl⟩ | ⟨k, hk, hp, hl, hc, rfl⟩ | ⟨hp, hc, hl, rfl⟩ | ⟨hp, hc, hl, hall, rfl⟩ |
          ⟨hp, hc, hl, hall, rfl⟩
        · exact ⟨i, fun k hk => update_ne _ _ hk, fun _ _ => rfl, fun x _ => (by rw [hp] at x; cases x), fun x _ => x,
            fun _ _ _ => by simp [update_same]⟩
        · exact ⟨i, fun k hk => update_ne _ _ hk, fun k hk => getElem?_set_other 1 hk,
            fun x _ => (by rw [hp] at x; cases x), fun x _ => (by rw [hl] at x; cases x), fun _ _ _ => by simp [update_same]⟩
        · refine ⟨i, fun k hk => update_ne _ _ hk, fun _ _ => rfl, fun x _ => (by rw [hp] at x; cases x), fun x _ => x,
            fun _ hx _ => ?_⟩
          obtain ⟨k, hk', hk2⟩ := hx
          rw [hall k hk'] at hk2
          cases hk2
        · exact ⟨i, fun k hk => update_ne _ _ hk, fun _ _ => rfl, fun x _ => (by rw [hp] at x; cases x), fun x _ => x,
            fun _ _ _ => by simp [State.withWorker, update_same]⟩
        · exact ⟨i, fun k hk => update_ne _ _ hk, fun _ _ => rfl, fun x _ => (by rw [hp] at x; cases x), fun x _ => x,
            fun x _ _ => (by rw [hp] at x; cases x)⟩
        · exact ⟨i, fun k hk => update_ne _ _ hk, fun k hk => getElem?_set_other 2 hk,
            fun x _ => (by rw [hp] at x; cases x), fun _ _ => getElem?_set_same 2 hlen,
            fun x _ _ => (by rw [hp] at x; cases x)⟩
        · exact ⟨i, fun k hk => update_ne _ _ hk, fun _ _ => rfl, fun x _ => (by rw [hp] at x; cases x), fun x _ => x,
            fun x _ _ => (by rw [hp] at x; cases x)⟩
        · exact ⟨i, fun k hk => update_ne _ _ hk, fun _ _ => rfl, fun x _ => (by rw [hp] at x; cases x), fun x _ => x,
            fun x _ _ => (by rw [hp] at x; cases x)⟩
      · simp [step, hi] at hs
  obtain ⟨r, hw, hl, hfail, h2, hent⟩ := key
  rcases hk with ⟨i, hi, hp⟩ | ⟨i, j, hi, hj, hli, hpj⟩
  · by_cases e : i = r
    · subst e; exact (hfail hp hi).elim
    · exact Or.inl ⟨i, hi, by rw [hw i e]; exact hp⟩
  · refine Or.inr ⟨i, j, hi, hj, ?_, ?_⟩
    · by_cases e : i = r
      · subst e; exact h2 hli hi
      · rw [hl i e]; exact hli
    · by_cases e : j = r
      · subst e; exact hent hpj ⟨i, hi, hli⟩ hj
      · rw [hw j e]; exact hpj

theorem stuck_run {size : Nat} {es : List Event} : ∀ {s s' : State}, Inv size s → Stuck size s →
    run size s es = some s' → Stuck size s' := by
  induction es with
  | nil => intro s s' _ hk hr; simp [run] at hr; exact hr ▸ hk
  | cons e es ih =>
    intro s s' h hk hr
    obtain ⟨t, ht, hr⟩ := run_cons.mp hr
    exact ih (inv_step h ht) (stuck_step h hk ht) hr

theorem stuck_never {size : Nat} {s : State} (h : Inv size s) (hk : Stuck size s) : ¬ CanFinish size s := by
  rintro ⟨es, s', hr, hl⟩
  rcases stuck_run h hk hr with ⟨i, hi, hp⟩ | ⟨i, j, hi, hj, -, hp⟩
  · rw [hl i hi] at hp; cases hp
  · rw [hl j hj] at hp; cases hp

theorem past_iff {p : Place} : p.past ↔ p ≠ .start ∧ p ≠ .failed ∧ p ≠ .entering := by
  cases p <;> simp [Place.past]

/-! ### A job that cannot end, for every number of workers -/

/-- From any state in which all workers are before or in `__enter__`, all can get to the poll. -/
theorem gather {size : Nat} : ∀ (n : Nat) {s : State}, Inv size s →
    (∀ i, i < size → (s.workers i).place = .start ∨ (s.workers i).place = .entering) → total size s.workers ≤ n →
    ∃ es s', run size s es = some s' ∧ ∀ i, i < size → (s'.workers i).place = .entering ∧ (s'.workers i).calls = [.waitSet] := by
  intro n
  induction n with
  | zero =>
    intro s h hp ht
    by_cases hz : size = 0
    · exact ⟨[], s, rfl, fun i hi => by omega⟩
    · exfalso
      have hpos : 0 < todo size (s.workers 0) := by
        rcases hp 0 (by omega) with e | e <;> simp [todo, e] <;> omega
      have := sum_update_lt (todo size) s.workers 0 ⟨.left, []⟩ (by simpa [todo] using hpos) size (by omega)
      unfold total at ht
      omega
  | succ n ih =>
    intro s h hp ht
    by_cases h1 : ∃ i, i < size ∧ (s.workers i).place = .start
    · obtain ⟨i, hi, hpi⟩ := h1
      have hs : step size s (.enter i) = some (s.withWorker i ⟨.entering, [.put (address i), .setLock, .waitSet]⟩) := by
        simp only [step, hi, hpi, and_self, if_true]
      obtain ⟨es, s', hr, hq⟩ := ih (inv_step h hs) (fun j hj => by
        by_cases e : j = i
        · subst e; simp [State.withWorker, update_same]
        · simp only [State.withWorker, update_ne _ _ e]; exact hp j hj) (by
        have : total size (update s.workers i ⟨.entering, [.put (address i), .setLock, .waitSet]⟩) < total size s.workers :=
          total_lt hi (by simp [todo, hpi])
        simp only [State.withWorker]
        omega)
      exact ⟨_, s', run_cons.mpr ⟨_, hs, hr⟩, hq⟩
    · by_cases h2 : ∃ i, i < size ∧ (s.workers i).calls ≠ [.waitSet]
      · obtain ⟨i, hi, hc⟩ := h2
        have hpi : (s.workers i).place = .entering := (hp i hi).resolve_left fun e => h1 ⟨i, hi, e⟩
        have hw := h.wok i hi
        simp only [WOk, hpi] at hw
        rcases hw with ⟨e, -⟩ | ⟨e, -, -⟩ | ⟨e, -⟩
        · have hs : step size s (.serve i) = some { (s.withWorker i ⟨.entering, [.setLock, .waitSet]⟩) with
              cache := update s.cache i (some (address i)) } := by
            simp only [step, hi, if_true, e, serve, hpi]
          obtain ⟨es, s', hr, hq⟩ := ih (inv_step h hs) (fun j hj => by
            by_cases e' : j = i
            · subst e'; simp [State.withWorker, update_same]
            · simp only [State.withWorker, update_ne _ _ e']; exact hp j hj) (by
            have : total size (update s.workers i ⟨.entering, [.setLock, .waitSet]⟩) < total size s.workers :=
              total_lt hi (by simp [todo, hpi, e])
            simp only [State.withWorker]
            omega)
          exact ⟨_, s', run_cons.mpr ⟨_, hs, hr⟩, hq⟩
        · have hs : step size s (.serve i) = some { (s.withWorker i ⟨.entering, [.waitSet]⟩) with
              locks := s.locks.set i 1 } := by
            simp only [step, hi, if_true, e, serve, hpi]
          obtain ⟨es, s', hr, hq⟩ := ih (inv_step h hs) (fun j hj => by
            by_cases e' : j = i
            · subst e'; simp [State.withWorker, update_same]
            · simp only [State.withWorker, update_ne _ _ e']; exact hp j hj) (by
            have : total size (update s.workers i ⟨.entering, [.waitSet]⟩) < total size s.workers :=
              total_lt hi (by simp [todo, hpi, e])
            simp only [State.withWorker]
            omega)
          exact ⟨_, s', run_cons.mpr ⟨_, hs, hr⟩, hq⟩
        · exact absurd e hc
      · exact ⟨[], s, rfl, fun i hi => ⟨(hp i hi).resolve_left fun e => h1 ⟨i, hi, e⟩,
          Classical.byContradiction fun hc => h2 ⟨i, hi, hc⟩⟩⟩

/-- A worker in `get_address` gets into the block while all others wait. -/
theorem ask_all {size : Nat} {i : Nat} (hi : i < size) : ∀ (n k : Nat) {s : State}, Inv size s → size - k = n + 1 →
    (s.workers i).place = .asking (allAddresses k) → (s.workers i).calls = (List.range' k (size - k)).map .get →
    ∃ es s', run size s es = some s' ∧ (s'.workers i).place = .inside (allAddresses size) ∧
      ∀ j, j ≠ i → s'.workers j = s.workers j := by
  intro n
  induction n with
  | zero =>
    intro k s h hk hp hc
    obtain ⟨s', hs⟩ : ∃ s', step size s (.serve i) = some s' := by
      rw [hk] at hc
      simp only [step, hi, if_true]
      rw [hc]
      exact ⟨_, rfl⟩
    refine ⟨[.serve i], s', run_cons.mpr ⟨s', hs, rfl⟩, ?_⟩
    have hpl := h.past i hi (by rw [hp]; trivial) k (by omega)
    simp only [step, hi, if_true] at hs
    rw [hc, hk] at hs
    simp only [List.range'_succ, List.map_cons, List.range'_zero, List.map_nil, serve, hp, if_true] at hs
    cases hs
    refine ⟨?_, fun j hj => update_ne _ _ hj⟩
    simp only [State.withWorker, update_same]
    rw [h.ann k (by omega) hpl, ← allAddresses_succ]
    have : k + 1 = size := by omega
    rw [this]
  | succ n ih =>
    intro k s h hk hp hc
    have hpl := h.past i hi (by rw [hp]; trivial) k (by omega)
    have hs : step size s (.serve i) = some (s.withWorker i ⟨.asking (allAddresses (k + 1)),
        (List.range' (k + 1) (size - (k + 1))).map .get⟩) := by
      simp only [step, hi, if_true]
      rw [hc, hk, List.range'_succ, List.map_cons]
      have hm : size - (k + 1) = n + 1 := by omega
      simp only [serve, hp, h.ann k (by omega) hpl, ← allAddresses_succ, hm]
      rw [if_neg]
      intro hnil
      have := congrArg List.length hnil
      simp at this
    obtain ⟨es, s', hr, hin, hoth⟩ := ih (k + 1) (inv_step h hs) (by omega) (by simp [State.withWorker, update_same])
      (by simp [State.withWorker, update_same])
    refine ⟨_, s', run_cons.mpr ⟨_, hs, hr⟩, hin, fun j hj => ?_⟩
    rw [hoth j hj]
    exact update_ne _ _ hj

theorem stuck_reachable {size : Nat} (h2 : 2 ≤ size) : ∃ s, JobReaches size s ∧ s.locks[0]? = some 2 ∧
    (∀ j, j < size → j ≠ 0 → (s.workers j).place = .entering) ∧ (s.workers 0).place = .leaving := by
  obtain ⟨es, s1, hr1, hq⟩ := gather (total size (init size).workers) (inv_init size) (fun i _ => Or.inl rfl) (Nat.le_refl _)
  have hi1 := inv_run (inv_init size) hr1
  have hall : ∀ j, j < size → s1.locks[j]? = some 1 := fun j hj => by
    have hw := hi1.wok j hj
    simp only [WOk, (hq j hj).1] at hw
    rw [(hq j hj).2] at hw
    rcases hw with ⟨e, -⟩ | ⟨e, -, -⟩ | ⟨-, hl⟩
    · simp at e
    · simp at e
    · exact hl
  have h0 : 0 < size := by omega
  have hs2 : step size s1 (.serve 0) = some (s1.withWorker 0 ⟨.asking (allAddresses 0), (List.range' 0 (size - 0)).map .get⟩) := by
    simp only [step, h0, if_true, (hq 0 h0).2, serve, (waitSet_iff hi1).mpr hall]
    simp [allAddresses, List.range_eq_range']
  obtain ⟨es3, s3, hr3, hin, hoth⟩ := ask_all h0 (size - 1) 0 (inv_step hi1 hs2) (by omega)
    (by simp [State.withWorker, update_same]) (by simp [State.withWorker, update_same])
  have hi3 := inv_run (inv_step hi1 hs2) hr3
  have hs4 : step size s3 (.leave 0) = some (s3.withWorker 0 ⟨.leaving, [.releaseLock, .waitReleased]⟩) := by
    simp only [step, h0, if_true, hin]
  have hs5 : step size (s3.withWorker 0 ⟨.leaving, [.releaseLock, .waitReleased]⟩) (.serve 0) =
      some { (s3.withWorker 0 ⟨.leaving, [.releaseLock, .waitReleased]⟩).withWorker 0 ⟨.leaving, [.waitReleased]⟩ with
        locks := s3.locks.set 0 2 } := by
    simp only [step, h0, if_true, State.withWorker, update_same, serve]
  refine ⟨_, ⟨es ++ (.serve 0 :: (es3 ++ [.leave 0, .serve 0])), run_append hr1 (run_cons.mpr ⟨_, hs2, run_append hr3
    (run_cons.mpr ⟨_, hs4, run_cons.mpr ⟨_, hs5, rfl⟩⟩)⟩)⟩, ?_, fun j hj hne => ?_, ?_⟩
  · exact getElem?_set_same 2 (by rw [hi3.len]; exact h0)
  · simp only [State.withWorker, update_ne _ _ hne]
    rw [hoth j hne]
    simp only [State.withWorker, update_ne _ _ hne]
    exact (hq j hj).1
  · simp [State.withWorker, update_same]

/-! ### Ports -/

theorem foldl_digits_ge : ∀ (l : List Char) (v : Nat),
    v * 10 ^ l.length ≤ l.foldl (fun v c => v * 10 + (c.toNat - '0'.toNat)) v := by
  intro l
  induction l with
  | nil => intro v; simp
  | cons c l ih =>
    intro v
    refine Nat.le_trans ?_ (ih _)
    rw [List.length_cons, Nat.pow_succ, Nat.mul_comm (10 ^ l.length) 10, ← Nat.mul_assoc]
    exact Nat.mul_le_mul_right _ (Nat.le_add_right _ _)

theorem prefix_eq : "127.0.0.1:999".toList = ['1', '2', '7', '.', '0', '.', '0', '.', '1', ':', '9', '9', '9'] := by
  decide +kernel

theorem address_toList (rank : Nat) : (address rank).toList = "127.0.0.1:999".toList ++ Nat.toDigits 10 rank := by
  unfold address
  exact String.toList_ofList

theorem portOf_address (rank : Nat) : portOf (address rank) =
    (Nat.toDigits 10 rank).foldl (fun v c => v * 10 + (c.toNat - '0'.toNat)) 999 := by
  unfold portOf
  rw [address_toList, prefix_eq]
  generalize Nat.toDigits 10 rank = l
  simp [List.dropWhile]

theorem port_ge (rank : Nat) : 999 * 10 ^ (Nat.toDigits 10 rank).length ≤ portOf (address rank) := by
  rw [portOf_address]
  exact foldl_digits_ge _ 999

theorem address_inj {a b : Nat} (h : address a = address b) : a = b := by
  have h1 := congrArg String.toList h
  rw [address_toList, address_toList] at h1
  have h2 := List.append_cancel_left h1
  have h3 := Nat.ofDigitChars_ten_toDigits (n := a)
  rw [h2, Nat.ofDigitChars_ten_toDigits] at h3
  exact h3.symm

theorem digits_two {rank : Nat} (h : 10 ≤ rank) : 2 ≤ (Nat.toDigits 10 rank).length := by
  rw [Nat.toDigits_of_base_le (by omega) h, List.length_append]
  have := Nat.length_toDigits_pos (b := 10) (n := rank / 10)
  simp only [List.length_singleton]
  omega

end DeepGNN.Barrier
