import Verif.Spec.ConvertRun

namespace DeepGNN

open ConvertRun Spec

variable {α : Type} {d : Dispatcher α} {cap : Nat} {ok : α → Bool} {lines : List α}

theorem upd_self {β : Type} (f : Nat → β) (i : Nat) (v : β) : ConvertRun.upd f i v i = v := if_pos rfl

theorem upd_ne {β : Type} (f : Nat → β) {i j : Nat} (v : β) (h : j ≠ i) : ConvertRun.upd f i v j = f j := if_neg h

theorem linesFor_snoc (d : Dispatcher α) (l : List α) (a : α) (i : Nat) :
    linesFor d (l ++ [a]) i = linesFor d l i ++ (if d.target l.length a = i then [a] else []) := by
  simp only [linesFor, List.zipIdx_append, List.filter_append, List.map_append, Nat.zero_add]
  congr 1
  by_cases h : d.target l.length a = i
  · simp [h]
  · simp [h]

/-- What holds in all states of a conversion. -/
structure RunInv (d : Dispatcher α) (ok : α → Bool) (lines : List α) (s : St α) : Prop where
  input : s.input = lines.drop s.count
  le : s.count ≤ lines.length
  act : ∀ i, i ∈ s.active ↔ linesFor d (lines.take s.count) i ≠ []
  lt : ∀ i ∈ s.active, i < d.procs
  todoN : s.todo = none → s.flagged = []
  todoS : ∀ l, s.todo = some l → s.input = [] ∧ Order d s.active (s.flagged ++ l)
  pref : ∀ i, ∃ m, (s.workers i).written ++ m = linesFor d (lines.take s.count) i
  work : ∀ i, (s.workers i).phase ≠ .dead → ∃ m, (s.workers i).written ++ m = linesFor d (lines.take s.count) i ∧
    (s.workers i).pipe = m.map .line ++ (if i ∈ s.flagged ∧ (s.workers i).phase = .running then [.done] else []) ∧
    ((s.workers i).phase ≠ .running → m = [] ∧ i ∈ s.flagged)
  okw : ∀ i, ∀ a ∈ (s.workers i).written, ok a = true
  rep : ∀ i, (s.out ++ s.got).count i = if (s.workers i).phase = .reported then 1 else 0
  save : s.saved = true → s.todo = some [] ∧ s.got.length = s.flagged.length

theorem runInv_init : RunInv d ok lines { input := lines } where
  input := by simp
  le := by simp
  act := by intro i; simp [linesFor]
  lt := by intro i h; simp at h
  todoN := fun _ => rfl
  todoS := by intro l h; simp at h
  pref := fun i => ⟨[], by simp [linesFor]⟩
  work := fun i _ => ⟨[], by simp [linesFor]⟩
  okw := by intro i a h; simp at h
  rep := by intro i; simp
  save := by intro h; simp at h

theorem order_nodup {active order : List Nat} (h : Order d active order) : order.Nodup := by
  rw [Order] at h
  split at h
  · rw [h]; exact List.nodup_range
  · exact h.1

theorem order_lt {active order : List Nat} (h : Order d active order) (ha : ∀ i ∈ active, i < d.procs) : ∀ i ∈ order, i < d.procs := by
  intro i hi
  rw [Order] at h
  split at h
  · rw [h] at hi; exact List.mem_range.1 hi
  · exact ha i ((h.2 i).1 hi)

theorem runInv_step {s s' : St α} (h : RunInv d ok lines s) (hs : Step d cap ok s s') : RunInv d ok lines s' := by
  cases hs with
  | @send a l hp hi ht hc =>
    have e0 : lines[s.count]? = some a := by
      have h1 := h.input
      rw [hi] at h1
      have : (lines.drop s.count)[0]? = some a := by rw [← h1]; rfl
      simpa using this
    obtain ⟨hlt, -⟩ := List.getElem?_eq_some_iff.1 e0
    have e1 : lines.take (s.count + 1) = lines.take s.count ++ [a] := by rw [List.take_add_one, e0]; rfl
    have e2 : (lines.take s.count).length = s.count := by rw [List.length_take]; omega
    have e3 : ∀ i, linesFor d (lines.take (s.count + 1)) i =
        linesFor d (lines.take s.count) i ++ (if d.target s.count a = i then [a] else []) := by
      intro i; rw [e1, linesFor_snoc, e2]
    have hf := h.todoN hp
    refine ⟨?_, hlt, ?_, ?_, fun _ => hf, fun l' h' => ?_, fun i => ?_, fun i => ?_, fun i => ?_, fun i => ?_, fun h' => ?_⟩
    · have h1 := h.input
      rw [hi] at h1
      show l = lines.drop (s.count + 1)
      rw [← List.tail_drop, ← h1]
      rfl
    · intro i
      show i ∈ d.target s.count a :: s.active ↔ linesFor d (lines.take (s.count + 1)) i ≠ []
      rw [e3, List.mem_cons, h.act]
      by_cases hx : d.target s.count a = i
      · simp [hx]
      · simp only [if_neg hx, List.append_nil]
        constructor
        · rintro (h1 | h1)
          · exact absurd h1.symm hx
          · exact h1
        · exact .inr
    · intro i hi'
      rcases List.mem_cons.1 hi' with rfl | h1
      · exact ht
      · exact h.lt i h1
    · have : s.todo = some l' := h'
      rw [hp] at this
      cases this
    · show ∃ m, (ConvertRun.upd s.workers _ _ i).written ++ m = linesFor d (lines.take (s.count + 1)) i
      obtain ⟨m, hm⟩ := h.pref i
      rw [e3, ← hm]
      by_cases hx : i = d.target s.count a
      · subst hx
        exact ⟨m ++ [a], by rw [upd_self]; simp⟩
      · exact ⟨m, by rw [upd_ne _ _ hx, if_neg (fun h => hx h.symm), List.append_nil]⟩
    · show (ConvertRun.upd s.workers _ _ i).phase ≠ .dead → ∃ m, (ConvertRun.upd s.workers _ _ i).written ++ m =
        linesFor d (lines.take (s.count + 1)) i ∧
        (ConvertRun.upd s.workers _ _ i).pipe = _ ++ (if i ∈ s.flagged ∧ (ConvertRun.upd s.workers _ _ i).phase = .running then _ else _) ∧
        ((ConvertRun.upd s.workers _ _ i).phase ≠ .running → _ ∧ i ∈ s.flagged)
      by_cases hx : i = d.target s.count a
      · subst hx
        rw [upd_self]
        intro hd
        obtain ⟨m, h1, h2, h3⟩ := h.work _ hd
        have hr : (s.workers (d.target s.count a)).phase = .running := Decidable.byContradiction fun hr => by
          have := (h3 hr).2
          rw [hf] at this
          cases this
        refine ⟨m ++ [a], by rw [e3, ← h1, if_pos rfl, List.append_assoc], ?_, fun h' => absurd hr h'⟩
        show (s.workers _).pipe ++ [.line a] = _
        rw [h2, hf]
        simp
      · rw [upd_ne _ _ hx]
        intro hd
        obtain ⟨m, h1, h2, h3⟩ := h.work _ hd
        exact ⟨m, by rw [e3, h1, if_neg (fun h => hx h.symm), List.append_nil], h2, h3⟩
    · show ∀ a' ∈ (ConvertRun.upd s.workers _ _ i).written, _
      by_cases hx : i = d.target s.count a
      · subst hx; rw [upd_self]; exact h.okw _
      · rw [upd_ne _ _ hx]; exact h.okw _
    · show _ = if (ConvertRun.upd s.workers _ _ i).phase = .reported then 1 else 0
      by_cases hx : i = d.target s.count a
      · subst hx; rw [upd_self]; exact h.rep _
      · rw [upd_ne _ _ hx]; exact h.rep _
    · have := (h.save h').1
      rw [hp] at this
      cases this
  | @stop order hp hi ho =>
    refine ⟨h.input, h.le, h.act, h.lt, fun h' => (by cases h'), fun l h' => ?_, h.pref, h.work, h.okw, h.rep, fun h' => ?_⟩
    · cases h'
      rw [h.todoN hp]
      exact ⟨hi, ho⟩
    · have := (h.save h').1
      rw [hp] at this
      cases this
  | @flag i l hp hc =>
    obtain ⟨hin, hord⟩ := h.todoS _ hp
    have hnot : i ∉ s.flagged := by
      intro h1
      have := order_nodup hord
      rw [List.nodup_append] at this
      exact this.2.2 i h1 i List.mem_cons_self rfl
    refine ⟨h.input, h.le, h.act, h.lt, fun h' => (by cases h'), fun l' h' => ?_, fun j => ?_, fun j => ?_, fun j => ?_, fun j => ?_, fun h' => ?_⟩
    · cases h'
      refine ⟨hin, ?_⟩
      show Order d s.active (s.flagged ++ [i] ++ l)
      rw [List.append_assoc]
      exact hord
    · show ∃ m, (ConvertRun.upd s.workers i _ j).written ++ m = _
      by_cases hx : j = i
      · subst hx; rw [upd_self]; exact h.pref _
      · rw [upd_ne _ _ hx]; exact h.pref _
    · show (ConvertRun.upd s.workers i _ j).phase ≠ .dead → ∃ m, (ConvertRun.upd s.workers i _ j).written ++ m = _ ∧
        (ConvertRun.upd s.workers i _ j).pipe = _ ++ (if j ∈ s.flagged ++ [i] ∧ (ConvertRun.upd s.workers i _ j).phase = .running then _ else _) ∧
        ((ConvertRun.upd s.workers i _ j).phase ≠ .running → _ ∧ j ∈ s.flagged ++ [i])
      by_cases hx : j = i
      · subst hx
        rw [upd_self]
        intro hd
        obtain ⟨m, h1, h2, h3⟩ := h.work _ hd
        have hr : (s.workers j).phase = .running := Decidable.byContradiction fun hr => hnot (h3 hr).2
        refine ⟨m, h1, ?_, fun h' => absurd hr h'⟩
        show (s.workers j).pipe ++ [.done] = _
        rw [h2, if_neg (fun h => hnot h.1), if_pos ⟨by simp, hr⟩]
        simp
      · rw [upd_ne _ _ hx]
        intro hd
        obtain ⟨m, h1, h2, h3⟩ := h.work _ hd
        have hm : j ∈ s.flagged ++ [i] ↔ j ∈ s.flagged := by simp [hx]
        exact ⟨m, h1, by simp only [hm]; exact h2, by simp only [hm]; exact h3⟩
    · show ∀ a' ∈ (ConvertRun.upd s.workers i _ j).written, _
      by_cases hx : j = i
      · subst hx; rw [upd_self]; exact h.okw _
      · rw [upd_ne _ _ hx]; exact h.okw _
    · show _ = if (ConvertRun.upd s.workers i _ j).phase = .reported then 1 else 0
      by_cases hx : j = i
      · subst hx; rw [upd_self]; exact h.rep _
      · rw [upd_ne _ _ hx]; exact h.rep _
    · have := (h.save h').1
      rw [hp] at this
      cases this
  | @write i a l hi hr hl ha =>
    obtain ⟨m, h1, h2, h3⟩ := h.work i (by rw [hr]; decide)
    obtain ⟨m', rfl, hm'⟩ : ∃ m', m = a :: m' ∧
        l = m'.map .line ++ (if i ∈ s.flagged ∧ (s.workers i).phase = .running then [.done] else []) := by
      rw [hl] at h2
      cases m with
      | nil => split at h2 <;> simp at h2
      | cons b m' => simp only [List.map_cons, List.cons_append, List.cons.injEq, Msg.line.injEq] at h2; exact ⟨m', by rw [h2.1], h2.2⟩
    refine ⟨h.input, h.le, h.act, h.lt, h.todoN, h.todoS, fun j => ?_, fun j => ?_, fun j => ?_, fun j => ?_, h.save⟩
    · show ∃ m, (ConvertRun.upd s.workers i _ j).written ++ m = _
      by_cases hx : j = i
      · subst hx; rw [upd_self]; exact ⟨m', by rw [← h1]; simp⟩
      · rw [upd_ne _ _ hx]; exact h.pref _
    · show (ConvertRun.upd s.workers i _ j).phase ≠ .dead → ∃ m, (ConvertRun.upd s.workers i _ j).written ++ m = _ ∧
        (ConvertRun.upd s.workers i _ j).pipe = _ ++ (if j ∈ s.flagged ∧ (ConvertRun.upd s.workers i _ j).phase = .running then _ else _) ∧
        ((ConvertRun.upd s.workers i _ j).phase ≠ .running → _)
      by_cases hx : j = i
      · subst hx
        rw [upd_self]
        intro _
        exact ⟨m', by rw [← h1]; simp, by rw [hm', hr], fun h => absurd rfl h⟩
      · rw [upd_ne _ _ hx]; exact h.work j
    · show ∀ a' ∈ (ConvertRun.upd s.workers i _ j).written, _
      by_cases hx : j = i
      · subst hx
        rw [upd_self]
        intro a' h'
        rcases List.mem_append.1 h' with h' | h'
        · exact h.okw _ a' h'
        · rw [List.mem_singleton] at h'; rw [h']; exact ha
      · rw [upd_ne _ _ hx]; exact h.okw _
    · show _ = if (ConvertRun.upd s.workers i _ j).phase = .reported then 1 else 0
      by_cases hx : j = i
      · subst hx; rw [upd_self, h.rep, hr]
      · rw [upd_ne _ _ hx]; exact h.rep _
  | @fail i a l hi hr hl ha =>
    refine ⟨h.input, h.le, h.act, h.lt, h.todoN, h.todoS, fun j => ?_, fun j => ?_, fun j => ?_, fun j => ?_, h.save⟩
    · show ∃ m, (ConvertRun.upd s.workers i _ j).written ++ m = _
      by_cases hx : j = i
      · subst hx; rw [upd_self]; exact h.pref _
      · rw [upd_ne _ _ hx]; exact h.pref _
    · show (ConvertRun.upd s.workers i _ j).phase ≠ .dead → ∃ m, (ConvertRun.upd s.workers i _ j).written ++ m = _ ∧
        (ConvertRun.upd s.workers i _ j).pipe = _ ++ (if j ∈ s.flagged ∧ (ConvertRun.upd s.workers i _ j).phase = .running then _ else _) ∧
        ((ConvertRun.upd s.workers i _ j).phase ≠ .running → _)
      by_cases hx : j = i
      · subst hx; rw [upd_self]; intro hd; exact absurd rfl hd
      · rw [upd_ne _ _ hx]; exact h.work j
    · show ∀ a' ∈ (ConvertRun.upd s.workers i _ j).written, _
      by_cases hx : j = i
      · subst hx; rw [upd_self]; exact h.okw _
      · rw [upd_ne _ _ hx]; exact h.okw _
    · show _ = if (ConvertRun.upd s.workers i _ j).phase = .reported then 1 else 0
      by_cases hx : j = i
      · subst hx; rw [upd_self, h.rep, hr]; rfl
      · rw [upd_ne _ _ hx]; exact h.rep _
  | @close i l hi hr hl =>
    obtain ⟨m, h1, h2, h3⟩ := h.work i (by rw [hr]; decide)
    obtain ⟨rfl, hfl, rfl⟩ : m = [] ∧ i ∈ s.flagged ∧ l = [] := by
      rw [hl] at h2
      cases m with
      | nil =>
        split at h2
        · rename_i hc
          simp at h2
          exact ⟨rfl, hc.1, h2⟩
        · simp at h2
      | cons b m' => simp at h2
    refine ⟨h.input, h.le, h.act, h.lt, h.todoN, h.todoS, fun j => ?_, fun j => ?_, fun j => ?_, fun j => ?_, h.save⟩
    · show ∃ m, (ConvertRun.upd s.workers i _ j).written ++ m = _
      by_cases hx : j = i
      · subst hx; rw [upd_self]; exact h.pref _
      · rw [upd_ne _ _ hx]; exact h.pref _
    · show (ConvertRun.upd s.workers i _ j).phase ≠ .dead → ∃ m, (ConvertRun.upd s.workers i _ j).written ++ m = _ ∧
        (ConvertRun.upd s.workers i _ j).pipe = _ ++ (if j ∈ s.flagged ∧ (ConvertRun.upd s.workers i _ j).phase = .running then _ else _) ∧
        ((ConvertRun.upd s.workers i _ j).phase ≠ .running → _)
      by_cases hx : j = i
      · subst hx
        rw [upd_self]
        intro _
        refine ⟨[], h1, ?_, fun _ => ⟨rfl, hfl⟩⟩
        rw [if_neg (fun h => by cases h.2)]
        rfl
      · rw [upd_ne _ _ hx]; exact h.work j
    · show ∀ a' ∈ (ConvertRun.upd s.workers i _ j).written, _
      by_cases hx : j = i
      · subst hx; rw [upd_self]; exact h.okw _
      · rw [upd_ne _ _ hx]; exact h.okw _
    · show _ = if (ConvertRun.upd s.workers i _ j).phase = .reported then 1 else 0
      by_cases hx : j = i
      · subst hx; rw [upd_self, h.rep, hr]; rfl
      · rw [upd_ne _ _ hx]; exact h.rep _
  | @report i hi hr =>
    obtain ⟨m, h1, h2, h3⟩ := h.work i (by rw [hr]; decide)
    have h4 := h3 (by rw [hr]; decide)
    refine ⟨h.input, h.le, h.act, h.lt, h.todoN, h.todoS, fun j => ?_, fun j => ?_, fun j => ?_, fun j => ?_, h.save⟩
    · show ∃ m, (ConvertRun.upd s.workers i _ j).written ++ m = _
      by_cases hx : j = i
      · subst hx; rw [upd_self]; exact h.pref _
      · rw [upd_ne _ _ hx]; exact h.pref _
    · show (ConvertRun.upd s.workers i _ j).phase ≠ .dead → ∃ m, (ConvertRun.upd s.workers i _ j).written ++ m = _ ∧
        (ConvertRun.upd s.workers i _ j).pipe = _ ++ (if j ∈ s.flagged ∧ (ConvertRun.upd s.workers i _ j).phase = .running then _ else _) ∧
        ((ConvertRun.upd s.workers i _ j).phase ≠ .running → _)
      by_cases hx : j = i
      · subst hx
        rw [upd_self]
        intro _
        refine ⟨m, h1, ?_, fun _ => h4⟩
        rw [h2, if_neg (fun h => by rw [hr] at h; cases h.2), if_neg (fun h => by cases h.2)]
      · rw [upd_ne _ _ hx]; exact h.work j
    · show ∀ a' ∈ (ConvertRun.upd s.workers i _ j).written, _
      by_cases hx : j = i
      · subst hx; rw [upd_self]; exact h.okw _
      · rw [upd_ne _ _ hx]; exact h.okw _
    · show ((s.out ++ [i]) ++ s.got).count j = if (ConvertRun.upd s.workers i _ j).phase = .reported then 1 else 0
      have h5 := h.rep j
      rw [List.count_append] at h5
      rw [List.count_append, List.count_append]
      by_cases hx : j = i
      · subst hx
        rw [upd_self, if_pos rfl]
        rw [hr, if_neg (by decide)] at h5
        simp only [List.count_singleton_self]
        omega
      · rw [upd_ne _ _ hx, List.count_singleton, if_neg (by simpa using fun h => hx h.symm)]
        omega
  | @get i l hp hg ho =>
    refine ⟨h.input, h.le, h.act, h.lt, h.todoN, h.todoS, h.pref, h.work, h.okw, fun j => ?_, fun h' => ?_⟩
    · show (l ++ (s.got ++ [i])).count j = _
      rw [← h.rep j, ho]
      simp only [List.count_append, List.count_cons, List.count_nil]
      omega
    · have := (h.save h').2
      omega
  | save hp hg hs =>
    exact ⟨h.input, h.le, h.act, h.lt, h.todoN, h.todoS, h.pref, h.work, h.okw, h.rep, fun _ => ⟨hp, hg⟩⟩

theorem runInv_crash {s s' : St α} (h : RunInv d ok lines s) (hs : Crash d s s') : RunInv d ok lines s' := by
  cases hs with
  | @crash i hi hr =>
    refine ⟨h.input, h.le, h.act, h.lt, h.todoN, h.todoS, fun j => ?_, fun j => ?_, fun j => ?_, fun j => ?_, h.save⟩
    · show ∃ m, (ConvertRun.upd s.workers i _ j).written ++ m = _
      by_cases hx : j = i
      · subst hx; rw [upd_self]; exact h.pref _
      · rw [upd_ne _ _ hx]; exact h.pref _
    · show (ConvertRun.upd s.workers i _ j).phase ≠ .dead → ∃ m, (ConvertRun.upd s.workers i _ j).written ++ m = _ ∧
        (ConvertRun.upd s.workers i _ j).pipe = _ ++ (if j ∈ s.flagged ∧ (ConvertRun.upd s.workers i _ j).phase = .running then _ else _) ∧
        ((ConvertRun.upd s.workers i _ j).phase ≠ .running → _)
      by_cases hx : j = i
      · subst hx; rw [upd_self]; intro hd; exact absurd rfl hd
      · rw [upd_ne _ _ hx]; exact h.work j
    · show ∀ a' ∈ (ConvertRun.upd s.workers i _ j).written, _
      by_cases hx : j = i
      · subst hx; rw [upd_self]; exact h.okw _
      · rw [upd_ne _ _ hx]; exact h.okw _
    · show _ = if (ConvertRun.upd s.workers i _ j).phase = .reported then 1 else 0
      by_cases hx : j = i
      · subst hx
        rw [upd_self, h.rep]
        rcases hr with hr | hr <;> rw [hr] <;> rfl
      · rw [upd_ne _ _ hx]; exact h.rep _

theorem runInv {s : St α} (h : Reach d cap ok lines s) : RunInv d ok lines s := by
  induction h with
  | init => exact runInv_init
  | step _ hs ih => exact runInv_step ih hs
  | crash _ hs ih => exact runInv_crash ih hs

theorem nodup_of_count {l : List Nat} (h : ∀ i, l.count i ≤ 1) : l.Nodup := List.nodup_iff_count.2 h

/-- Distinct elements of a list without repetition, as many as it has: all of them. -/
theorem mem_of_nodup_subset {a b : List Nat} (ha : a.Nodup) (hs : ∀ x ∈ a, x ∈ b) (hl : a.length = b.length) : ∀ x ∈ b, x ∈ a := by
  induction a generalizing b with
  | nil => cases b with
    | nil => intro x hx; cases hx
    | cons => cases hl
  | cons y a ih =>
    obtain ⟨hy, ha'⟩ := List.nodup_cons.1 ha
    have hyb := hs y List.mem_cons_self
    have := List.length_erase_of_mem hyb
    have h2 := ih (b := b.erase y) ha' (fun x hx => (List.mem_erase_of_ne (fun e : x = y => hy (e ▸ hx))).2 (hs x (List.mem_cons_of_mem _ hx)))
      (by rw [this, ← hl]; rfl)
    intro x hx
    by_cases e : x = y
    · rw [e]; exact List.mem_cons_self
    · exact List.mem_cons_of_mem _ (h2 x ((List.mem_erase_of_ne e).2 hx))

end DeepGNN
