import Verif.Model.Prefetch

/-
C36: prefetching.
-/

namespace DeepGNN

namespace Prefetch

variable {α β : Type}

/-- The query results among the items. -/
def results : List (Item β) → List β
  | [] => []
  | .result x :: l => x :: results l
  | .done _ :: l => results l

/-- The markers among the items. -/
def markers : List (Item β) → List Nat
  | [] => []
  | .result _ :: l => markers l
  | .done n :: l => n :: markers l

theorem results_append (a b : List (Item β)) : results (a ++ b) = results a ++ results b := by
  induction a with
  | nil => rfl
  | cons x a ih => cases x <;> simp [results, ih]

theorem markers_append (a b : List (Item β)) : markers (a ++ b) = markers a ++ markers b := by
  induction a with
  | nil => rfl
  | cons x a ih => cases x <;> simp [markers, ih]

theorem length_items (a : List (Item β)) : a.length = (results a).length + (markers a).length := by
  induction a with
  | nil => rfl
  | cons x a ih => cases x <;> simp [results, markers, ih] <;> omega

/-- Invariant for one producer. -/
structure Inv (query : α → β) (samples : List α) (s : State α β) (p : Producer α) : Prop where
  one : s.producers = [p]
  perm : (results s.out ++ results s.queue ++ p.pool.map query ++ p.todo.map query).Perm (samples.map query)
  clean : markers s.out = []
  count : p.count + p.todo.length = samples.length
  todo : p.sent = true → p.todo = []
  before : p.sent = false → markers s.queue = [] ∧ s.count = 0 ∧ s.phase = .idle ∧ s.index = s.out.length
  after : p.sent = true →
    (markers s.queue = [samples.length] ∧ s.count = 0 ∧ s.phase = .idle ∧ s.index = s.out.length) ∨
    (markers s.queue = [] ∧ s.count = samples.length ∧ s.index = s.out.length + 1 ∧
      (s.phase = .second → s.out.length < samples.length) ∧ (s.phase = .idle → 0 < samples.length) ∧
      (s.phase = .stopped → s.out.length = samples.length))

theorem inv_start (query : α → β) (samples : List α) : Inv query samples (start samples 1) ⟨samples, [], 0, false⟩ :=
  ⟨rfl, by simp [start, results], rfl, by simp, by simp, fun _ => ⟨rfl, rfl, rfl, rfl⟩, by simp⟩

theorem inv_length {query : α → β} {samples : List α} {s : State α β} {p : Producer α} (h : Inv query samples s p) :
    s.out.length + (results s.queue).length + p.pool.length + p.todo.length = samples.length := by
  have h1 := h.perm.length_eq
  have h2 := length_items s.out
  rw [h.clean] at h2
  simp only [List.length_append, List.length_map, List.length_nil] at h1 h2
  omega

theorem inv_step {z : Sizes} {query : α → β} {samples : List α} {s s' : State α β} {p : Producer α}
    (h : Inv query samples s p) (hs : Step z query s s') : ∃ p', Inv query samples s' p' := by
  have hlen := inv_length h
  cases hs with
  | @producer l r p0 p' q q' count index phase out hp =>
    have h1 : l ++ p0 :: r = [p] := h.one
    have hl : l = [] ∧ r = [] ∧ p0 = p := by
      cases l with
      | nil => simp at h1; exact ⟨rfl, h1.2, h1.1⟩
      | cons a l => simp at h1
    obtain ⟨rfl, rfl, rfl⟩ := hl
    refine ⟨p', ?_⟩
    cases hp with
    | @submit x todo pool count sent queue hb =>
      have hsent : sent = false := by
        cases hh : sent with
        | false => rfl
        | true => have := h.todo hh; cases this
      subst hsent
      refine ⟨rfl, ?_, h.clean, ?_, by simp, h.before, by simp⟩
      · have := h.perm
        simpa only [List.map_cons, List.map_append, List.map_nil, List.append_assoc, List.cons_append, List.nil_append] using this
      · have := h.count
        simp only [List.length_cons] at this
        simp only; omega
    | @finish a x b todo count sent queue ht hq =>
      have hm : markers (q ++ [Item.result (query x)]) = markers q := by simp [markers_append, markers]
      refine ⟨rfl, ?_, h.clean, h.count, h.todo, ?_, ?_⟩
      · refine List.Perm.trans ?_ h.perm
        simp only [results_append, results, List.map_append, List.map_cons, List.append_assoc, List.cons_append, List.nil_append]
        refine List.Perm.append_left _ (List.Perm.append_left _ ?_)
        exact List.perm_middle.symm
      · intro hh
        have := h.before hh
        simp only at this ⊢
        rw [hm]; exact this
      · intro hh
        have := h.after hh
        simp only at this ⊢
        rw [hm]; exact this
    | @marker pool count queue hq =>
      have hb := h.before rfl
      simp only at hb
      refine ⟨rfl, ?_, h.clean, h.count, fun _ => rfl, by simp, fun _ => .inl ?_⟩
      · have := h.perm
        simpa only [results_append, results, List.append_nil] using this
      · have := h.count
        simp only [List.length_nil, Nat.add_zero] at this
        simp only
        rw [markers_append, hb.1, this]
        exact ⟨rfl, hb.2⟩
  | @consumer s s' hc =>
    have h1 := h.one
    refine ⟨p, ?_⟩
    cases hc with
    | @known ps q count out h0 =>
      cases hsent : p.sent with
      | false => have := (h.before hsent).2.1; simp only at this; omega
      | true =>
        rcases h.after hsent with h2 | h2
        · have := h2.2.1; simp only at this; omega
        · refine ⟨h1, h.perm, h.clean, h.count, h.todo, by simp [hsent], fun _ => .inr ⟨h2.1, h2.2.1, h2.2.2.1, by simp, by simp, ?_⟩⟩
          intro _
          have a1 := h2.2.1; have a2 := h2.2.2.1
          simp only at a1 a2 ⊢
          omega
    | @item ps x q count index out h0 =>
      have hp : (results (out ++ [Item.result x]) ++ results q ++ p.pool.map query ++ p.todo.map query).Perm (samples.map query) := by
        have := h.perm
        simpa only [results_append, results, List.append_assoc, List.cons_append, List.nil_append] using this
      have hcl : markers (out ++ [Item.result x]) = [] := by
        rw [markers_append, h.clean]; rfl
      refine ⟨h1, hp, hcl, h.count, h.todo, ?_, ?_⟩
      · intro hh
        have := h.before hh
        simp only [markers, List.length_append, List.length_cons, List.length_nil] at this ⊢
        exact ⟨this.1, this.2.1, trivial, by omega⟩
      · intro hh
        rcases h.after hh with h2 | h2
        · left
          simp only [markers, List.length_append, List.length_cons, List.length_nil] at h2 ⊢
          exact ⟨h2.1, h2.2.1, trivial, by omega⟩
        · right
          simp only [markers, List.length_append, List.length_cons, List.length_nil] at h2 ⊢
          exact ⟨h2.1, h2.2.1, by omega, by simp, h2.2.2.2.2.1, by simp⟩
    | @last ps n q count index out h0 h3 =>
      cases hsent : p.sent with
      | false => have := (h.before hsent).1; simp [markers] at this
      | true =>
        rcases h.after hsent with h2 | h2
        · simp only [markers, List.cons.injEq] at h2
          refine ⟨h1, h.perm, h.clean, h.count, h.todo, by simp [hsent], fun _ => .inr ⟨h2.1.2, h2.1.1, ?_, by simp, by simp, ?_⟩⟩
          · simp only; omega
          · intro _; simp only; omega
        · simp [markers] at h2
    | @marker ps n q count index out h0 h3 =>
      cases hsent : p.sent with
      | false => have := (h.before hsent).1; simp [markers] at this
      | true =>
        rcases h.after hsent with h2 | h2
        · simp only [markers, List.cons.injEq] at h2
          simp only [results] at hlen
          refine ⟨h1, h.perm, h.clean, h.count, h.todo, by simp [hsent], fun _ => .inr ⟨h2.1.2, h2.1.1, ?_, ?_, by simp, by simp⟩⟩
          · simp only; omega
          · intro _; simp only; omega
        · simp [markers] at h2
    | @again ps i q count index out =>
      cases hsent : p.sent with
      | false => have := (h.before hsent).2.2.1; cases this
      | true =>
        rcases h.after hsent with h2 | h2
        · have := h2.2.2.1; cases this
        · cases i with
          | done n => simp [markers] at h2
          | result x =>
            have hp : (results (out ++ [Item.result x]) ++ results q ++ p.pool.map query ++ p.todo.map query).Perm (samples.map query) := by
              have := h.perm
              simpa only [results_append, results, List.append_assoc, List.cons_append, List.nil_append] using this
            have hcl : markers (out ++ [Item.result x]) = [] := by
              rw [markers_append, h.clean]; rfl
            refine ⟨h1, hp, hcl, h.count, h.todo, by simp [hsent], fun _ => .inr ?_⟩
            simp only [markers, List.length_append, List.length_cons, List.length_nil] at h2 ⊢
            have := h2.2.2.2.1 trivial
            exact ⟨h2.1, h2.2.1, by omega, by simp, fun _ => by omega, by simp⟩

theorem inv_reach {z : Sizes} {query : α → β} {samples : List α} {s : State α β}
    (h : Reach (Step z query) (start samples 1) s) : ∃ p, Inv query samples s p := by
  generalize ha : start samples 1 = a at h
  induction h with
  | refl => subst ha; exact ⟨_, inv_start query samples⟩
  | tail _ hs ih =>
    obtain ⟨p, hp⟩ := ih
    exact inv_step hp hs

/-- Work left in a state. -/
def work (s : State α β) : Nat :=
  (s.producers.map fun p => 4 * p.todo.length + 3 * p.pool.length + if p.sent then 0 else 3).sum + 2 * s.queue.length +
    match s.phase with
    | .idle => 1
    | .second => 2
    | .stopped => 0

theorem work_step {z : Sizes} {query : α → β} {s s' : State α β} (hs : Step z query s s') : work s' < work s := by
  cases hs with
  | @producer l r p p' q q' count index phase out hp =>
    cases hp with
    | submit _ => simp [work]; omega
    | finish _ _ => simp [work]; omega
    | marker _ => simp [work]; omega
  | consumer hc =>
    cases hc with
    | known _ => simp [work]
    | item _ => simp [work]
    | last _ _ => simp [work]; omega
    | marker _ _ => simp [work]; omega
    | again => simp [work]; omega

end Prefetch

open Prefetch

/-- One producer: in every interleaving, when the iteration stops the consumer has seen the query result of every sample
exactly once and nothing else. -/
theorem C36_results_partial {α β : Type} {z : Sizes} {query : α → β} {samples : List α} {s : State α β}
    (h : Reach (Step z query) (start samples 1) s) (hs : s.phase = .stopped) :
    ∃ order : List β, s.out = order.map Item.result ∧ order.Perm (samples.map query) := by
  obtain ⟨p, hp⟩ := inv_reach h
  have hlen := inv_length hp
  have hsent : p.sent = true := by
    cases hh : p.sent with
    | true => rfl
    | false => have := (hp.before hh).2.2.1; rw [hs] at this; cases this
  rcases hp.after hsent with h2 | h2
  · have := h2.2.2.1; rw [hs] at this; cases this
  · have h3 := h2.2.2.2.2.2 hs
    have e1 : results s.queue = [] := List.eq_nil_of_length_eq_zero (by omega)
    have e2 : p.pool = [] := List.eq_nil_of_length_eq_zero (by omega)
    have e3 := hp.todo hsent
    have h4 := hp.perm
    rw [e1, e2, e3] at h4
    simp only [List.append_nil, List.map_nil] at h4
    refine ⟨results s.out, ?_, h4⟩
    have := hp.clean
    clear h4 h3 h2 hp hlen h
    generalize s.out = l at *
    induction l with
    | nil => rfl
    | cons x l ih =>
      cases x with
      | result x => rw [results, List.map_cons, ← ih this]
      | done n => simp [markers] at this

/-- What was seen before is part of it: at any time the consumer has seen results of different samples only. -/
theorem C36_prefix_partial {α β : Type} {z : Sizes} {query : α → β} {samples : List α} {s : State α β}
    (h : Reach (Step z query) (start samples 1) s) :
    ∃ seen rest : List β, s.out = seen.map Item.result ∧ (seen ++ rest).Perm (samples.map query) := by
  obtain ⟨p, hp⟩ := inv_reach h
  refine ⟨results s.out, results s.queue ++ p.pool.map query ++ p.todo.map query, ?_, ?_⟩
  · have := hp.clean
    clear hp h
    generalize s.out = l at *
    induction l with
    | nil => rfl
    | cons x l ih =>
      cases x with
      | result x => rw [results, List.map_cons, ← ih this]
      | done n => simp [markers] at this
  · have := hp.perm
    simpa only [List.append_assoc] using this

/-- One producer: the threads never block each other for good: before the iteration stops some step is possible. -/
theorem C36_no_deadlock_partial {α β : Type} {z : Sizes} (hz : 0 < z.capacity ∧ 0 < z.bound ∧ 0 < z.threads) {query : α → β}
    {samples : List α} {s : State α β} (h : Reach (Step z query) (start samples 1) s) (hs : s.phase ≠ .stopped) :
    ∃ s', Step z query s s' := by
  obtain ⟨p, hp⟩ := inv_reach h
  have hlen := inv_length hp
  obtain ⟨ps, q, count, index, phase, out⟩ := s
  have e : ps = [p] := hp.one
  subst e
  simp only at hlen hs
  cases q with
  | cons i q =>
    cases phase with
    | stopped => exact absurd rfl hs
    | second => exact ⟨_, .consumer .again⟩
    | idle =>
      by_cases hk : 0 < count ∧ index = count + 1
      · obtain ⟨h1, rfl⟩ := hk
        exact ⟨_, .consumer (.known h1)⟩
      · cases i with
        | result x => exact ⟨_, .consumer (.item hk)⟩
        | done n =>
          by_cases h3 : index + 1 = n + 1
          · exact ⟨_, .consumer (.last hk h3)⟩
          · exact ⟨_, .consumer (.marker hk h3)⟩
  | nil =>
    obtain ⟨todo, pool, pc, sent⟩ := p
    cases pool with
    | cons x pool => exact ⟨_, .producer (l := []) (r := []) (.finish (a := []) hz.2.2 hz.1)⟩
    | nil =>
      cases todo with
      | cons x todo => exact ⟨_, .producer (l := []) (r := []) (.submit hz.2.1)⟩
      | nil =>
        cases sent with
        | false => exact ⟨_, .producer (l := []) (r := []) (.marker hz.1)⟩
        | true =>
          simp only [results, List.length_nil, Nat.add_zero] at hlen
          rcases hp.after rfl with h2 | h2
          · simp [markers] at h2
          · simp only at h2
            cases phase with
            | stopped => exact absurd rfl hs
            | second => have := h2.2.2.2.1 rfl; omega
            | idle =>
              have h3 := h2.2.2.2.2.1 rfl
              obtain ⟨-, rfl, rfl, -⟩ := h2
              rw [hlen]
              exact ⟨_, .consumer (.known h3)⟩

/-- Every run is finite, for any number of producers: each step reduces the work left. -/
theorem C36_terminates {α β : Type} {z : Sizes} {query : α → β} (samples : List α) (workers : Nat) :
    ∃ bound : Nat, ∀ run : Nat → State α β, run 0 = start samples workers →
      ∀ n, (∀ i < n, Step z query (run i) (run (i + 1))) → n ≤ bound := by
  refine ⟨work (start (β := β) samples workers), fun run h0 n hn => ?_⟩
  have key : ∀ k, k ≤ n → work (run k) + k ≤ work (run 0) := by
    intro k
    induction k with
    | zero => intro _; omega
    | succ k ih =>
      intro hk
      have h1 := ih (by omega)
      have h2 := work_step (hn k (by omega))
      omega
  have := key n (Nat.le_refl _)
  rw [h0] at this
  omega

/-- Memory is bounded, for any number of producers: at any time the queue holds at most as many results as its capacity, and every
producer has at most as many samples in its pool as the semaphore allows. -/
theorem C36_bounded {α β : Type} {z : Sizes} {query : α → β} {samples : List α} {workers : Nat} {s : State α β}
    (h : Reach (Step z query) (start samples workers) s) :
    s.queue.length ≤ z.capacity ∧ s.producers.length = workers ∧ ∀ p ∈ s.producers, p.pool.length ≤ z.bound := by
  generalize ha : start samples workers = a at h
  induction h with
  | refl =>
    subst ha
    refine ⟨Nat.zero_le _, List.length_replicate, fun p hp => ?_⟩
    rw [(List.mem_replicate.1 hp).2]; exact Nat.zero_le _
  | tail _ hs ih =>
    obtain ⟨h1, h2, h3⟩ := ih
    cases hs with
    | @producer l r p p' q q' count index phase out hp =>
      have h4 : ∀ x ∈ l ++ r, x.pool.length ≤ z.bound := fun x hx => h3 x (by
        simp only [List.mem_append, List.mem_cons] at hx ⊢
        rcases hx with hx | hx
        · exact .inl hx
        · exact .inr (.inr hx))
      have h5 := h3 p (by simp)
      have key : q'.length ≤ z.capacity ∧ p'.pool.length ≤ z.bound := by
        cases hp with
        | submit hb => simp only [List.length_append, List.length_cons, List.length_nil]; exact ⟨h1, by omega⟩
        | finish _ hq =>
          simp only [List.length_append, List.length_cons, List.length_nil] at h5 ⊢
          exact ⟨by omega, by omega⟩
        | marker hq => simp only [List.length_append, List.length_cons, List.length_nil]; exact ⟨by omega, h5⟩
      refine ⟨key.1, by simpa using h2, fun x hx => ?_⟩
      simp only [List.mem_append, List.mem_cons] at hx
      rcases hx with hx | rfl | hx
      · exact h4 x (List.mem_append_left _ hx)
      · exact key.2
      · exact h4 x (List.mem_append_right _ hx)
    | consumer hc =>
      cases hc with
      | known _ => exact ⟨h1, h2, h3⟩
      | item _ => simp only [List.length_cons] at h1; exact ⟨Nat.le_of_succ_le h1, h2, h3⟩
      | last _ _ => simp only [List.length_cons] at h1; exact ⟨Nat.le_of_succ_le h1, h2, h3⟩
      | marker _ _ => simp only [List.length_cons] at h1; exact ⟨Nat.le_of_succ_le h1, h2, h3⟩
      | again => simp only [List.length_cons] at h1; exact ⟨Nat.le_of_succ_le h1, h2, h3⟩

/-- The bounds are reached: a full pool and a full queue. -/
example : ∃ s : State Nat Nat, Reach (Step ⟨1, 2, 2⟩ (· + 10)) (start [1, 2, 3] 1) s ∧ s.queue.length = 1 ∧
    s.producers.map (·.pool.length) = [2] := by
  have h0 : Reach (Step ⟨1, 2, 2⟩ (· + 10)) (start [1, 2, 3] 1 : State Nat Nat) _ := .refl
  have h1 := h0.tail (.producer (l := []) (r := []) (.submit (x := 1) (todo := [2, 3]) (by decide)))
  have h2 := h1.tail (.producer (l := []) (r := []) (.submit (x := 2) (todo := [3]) (by decide)))
  have h3 := h2.tail (.producer (l := []) (r := []) (.finish (a := []) (x := 1) (b := [2]) (by decide) (by decide)))
  have h4 := h3.tail (.producer (l := []) (r := []) (.submit (x := 3) (todo := []) (by decide)))
  exact ⟨_, h4, rfl, rfl⟩

/-- Two samples; the marker overtakes the second result: the consumer sees both and stops. -/
example : ∃ s : State Nat Nat, Reach (Step ⟨2, 2, 2⟩ (· + 10)) (start [1, 2] 1) s ∧ s.phase = .stopped ∧
    s.out = [.result 12, .result 11] := by
  refine ⟨⟨[⟨[], [], 2, true⟩], [], 2, 3, .stopped, [.result 12, .result 11]⟩, ?_, rfl, rfl⟩
  have h0 : Reach (Step ⟨2, 2, 2⟩ (· + 10)) (start [1, 2] 1 : State Nat Nat) _ := .refl
  have h1 := h0.tail (.producer (l := []) (r := []) (.submit (x := 1) (todo := [2]) (by decide)))
  have h2 := h1.tail (.producer (l := []) (r := []) (.submit (x := 2) (todo := []) (by decide)))
  have h3 := h2.tail (.producer (l := []) (r := []) (.finish (a := [1]) (x := 2) (b := []) (by decide) (by decide)))
  have h4 := h3.tail (.producer (l := []) (r := []) (.marker (by decide)))
  have h5 := h4.tail (.consumer (.item (by decide)))
  have h6 := h5.tail (.consumer (.marker (by decide) (by decide)))
  have h7 := h6.tail (.producer (l := []) (r := []) (.finish (a := []) (x := 1) (b := []) (by decide) (by decide)))
  have h8 := h7.tail (.consumer .again)
  exact h8.tail (.consumer (.known (by decide)))

/-- Two producers (`max_workers=2`) over one sample: the consumer sees the result twice and the marker as a result. -/
theorem C36_workers_refuted : ∃ s : State Nat Nat, Reach (Step ⟨30, 20, 10⟩ (· + 10)) (start [1] 2) s ∧
    s.out = [.result 11, .result 11, .done 1] := by
  have h0 : Reach (Step ⟨30, 20, 10⟩ (· + 10)) (start [1] 2 : State Nat Nat) _ := .refl
  have h1 := h0.tail (.producer (l := []) (r := [_]) (.submit (x := 1) (todo := []) (by decide)))
  have h2 := h1.tail (.producer (l := [_]) (r := []) (.submit (x := 1) (todo := []) (by decide)))
  have h3 := h2.tail (.producer (l := []) (r := [_]) (.finish (a := []) (x := 1) (b := []) (by decide) (by decide)))
  have h4 := h3.tail (.producer (l := [_]) (r := []) (.finish (a := []) (x := 1) (b := []) (by decide) (by decide)))
  have h5 := h4.tail (.producer (l := []) (r := [_]) (.marker (by decide)))
  have h6 := h5.tail (.producer (l := [_]) (r := []) (.marker (by decide)))
  have h7 := h6.tail (.consumer (.item (by decide)))
  have h8 := h7.tail (.consumer (.item (by decide)))
  have h9 := h8.tail (.consumer (.marker (by decide) (by decide)))
  exact ⟨_, h9.tail (.consumer .again), rfl⟩

end DeepGNN
