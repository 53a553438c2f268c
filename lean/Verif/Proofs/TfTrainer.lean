import Verif.Model.TfTrainer
import Verif.Proofs.DistSync

/-
Invariants of training with parameter servers.
-/

namespace DeepGNN.TfTrainer

open DeepGNN

abbrev DAct := DistSync.Act
abbrev Phase := DistSync.Phase

/-- What is needed of the operations of all workers. -/
structure Shape (n : Nat) (whole : Nat → List Op) : Prop where
  quiet : ∀ t p q tag, whole t = p ++ q → (Op.sync tag ∈ p ∨ q.head? = some (.sync tag)) → ∀ c j, Op.step c j ∉ q
  saver : ∀ t p q, whole t = p ++ .save :: q → t = 0 ∧ Op.sync session ∈ p ∧ Op.save ∉ q
  once : ∀ t p q c j, whole t = p ++ .step c j :: q → Op.step c j ∉ p
  first : ∀ t p q, whole t = p ++ .construct :: q → p = []
  begins : ∀ t, ∃ q, whole t = .construct :: q
  tags : ∀ t p q tag, whole t = p ++ .sync tag :: q → tag = session ∨ (tag = final ∧ Op.sync session ∈ p)
  ends : ∀ t, t < n → Op.sync session ∈ whole t ∧ Op.sync final ∈ whole t

/-- A worker: operations done, operations to do, phase of its synchronization. -/
structure Task (n : Nat) (acts : List DAct) (t : Nat) (whole past q : List Op) (phase : Option Phase) : Prop where
  split : whole = past ++ q
  called : ∀ tag, DistSync.Act.call t tag ∈ acts → Op.sync tag ∈ past ∨ q.head? = some (.sync tag)
  pass : ∀ tag, Op.sync tag ∈ past → ∀ i, i < n → DistSync.Act.call i tag ∈ acts
  off : past = [] → phase = some .off
  on : past ≠ [] → phase = some .idle ∨ ∃ tag i, phase = some (.waiting tag i) ∧ q.head? = some (.sync tag) ∧ DistSync.Act.call t tag ∈ acts

theorem Task.more {n : Nat} {acts : List DAct} {t : Nat} {whole past q : List Op} {phase : Option Phase} (h : Task n acts t whole past q phase)
    {x : DAct} (hx : ∀ tag, x ≠ .call t tag) : Task n (acts ++ [x]) t whole past q phase where
  split := h.split
  called := by
    intro tag hc
    rw [List.mem_append, List.mem_singleton] at hc
    rcases hc with hc | hc
    · exact h.called tag hc
    · exact absurd hc.symm (hx tag)
  pass := fun tag ht i hi => List.mem_append_left _ (h.pass tag ht i hi)
  off := h.off
  on := by
    intro hp
    rcases h.on hp with h0 | ⟨tag, i, h1, h2, h3⟩
    · exact Or.inl h0
    · exact Or.inr ⟨tag, i, h1, h2, List.mem_append_left _ h3⟩

structure Inv (n : Nat) (whole : Nat → List Op) (acts : List DAct) (past : Nat → List Op) (s : State) : Prop where
  dist : DistSync.Inv n acts s.sync
  size : s.todo.length = n
  task : ∀ (t : Nat) q, s.todo[t]? = some q → Task n acts t (whole t) (past t) q s.sync.phases[t]?
  upd : ∀ t c j, (t, c, j) ∈ s.updates ↔ t < n ∧ Op.step c j ∈ past t
  nodup : s.updates.Nodup
  saved : ∀ u, s.saved = some u → ∃ new, s.updates = new ++ u
  fin : Op.save ∈ past 0 → s.saved = some s.updates ∧ ∀ (t : Nat) q, s.todo[t]? = some q → ∀ c j, Op.step c j ∉ q

/-- One more operation of a worker. -/
def push (past : Nat → List Op) (t : Nat) (o : Op) : Nat → List Op := fun u => if u = t then past t ++ [o] else past u

theorem push_same (past : Nat → List Op) (t : Nat) (o : Op) : push past t o t = past t ++ [o] := if_pos rfl

theorem push_ne {past : Nat → List Op} {t u : Nat} {o : Op} (h : u ≠ t) : push past t o u = past u := if_neg h

theorem mem_push {past : Nat → List Op} {t u : Nat} {o x : Op} : x ∈ push past t o u ↔ x ∈ past u ∨ (u = t ∧ x = o) := by
  unfold push
  split
  · rename_i h
    subst h
    simp
  · rename_i h
    simp [h]

theorem get_set {β : Type} {l : List β} {t u : Nat} {x y : β} (h : (l.set t x)[u]? = some y) : (u = t ∧ y = x) ∨ (u ≠ t ∧ l[u]? = some y) := by
  rw [List.getElem?_set] at h
  split at h
  · rename_i htu
    split at h
    · exact Or.inl ⟨htu.symm, (Option.some.inj h).symm⟩
    · cases h
  · rename_i htu
    exact Or.inr ⟨fun h => htu h.symm, h⟩

theorem get_lt {β : Type} {l : List β} {t : Nat} {x : β} (h : l[t]? = some x) : t < l.length := (List.getElem?_eq_some_iff.1 h).1

/-- An operation of a worker that does not touch the synchronization. -/
theorem Inv.local {n : Nat} {whole : Nat → List Op} (hs : Shape n whole) {acts : List DAct} {past : Nat → List Op} {s : State} (hi : Inv n whole acts past s)
    {t : Nat} {o : Op} {q : List Op} (hq : s.todo[t]? = some (o :: q)) (ho : ∀ tag, o ≠ .sync tag) (hc : o ≠ .construct) :
    ∀ (u : Nat) v, (s.todo.set t q)[u]? = some v → Task n acts u (whole u) (push past t o u) v s.sync.phases[u]? := by
  intro u v huv
  rcases get_set huv with ⟨rfl, rfl⟩ | ⟨hne, huv⟩
  · have h := hi.task u _ hq
    rw [push_same]
    have hp : past u ≠ [] := by
      intro h0
      obtain ⟨w, hw⟩ := hs.begins u
      have := h.split
      rw [h0, hw] at this
      simp only [List.nil_append, List.cons.injEq] at this
      exact hc this.1.symm
    refine ⟨by rw [h.split]; simp, ?_, ?_, by simp, ?_⟩
    · intro tag hcall
      rcases h.called tag hcall with h1 | h1
      · exact Or.inl (List.mem_append_left _ h1)
      · simp only [List.head?_cons, Option.some.injEq] at h1
        exact absurd h1 (ho tag)
    · intro tag htag
      rw [List.mem_append, List.mem_singleton] at htag
      rcases htag with htag | htag
      · exact h.pass tag htag
      · exact absurd htag.symm (ho tag)
    · intro _
      rcases h.on hp with h0 | ⟨tag, i, h1, h2, h3⟩
      · exact Or.inl h0
      · simp only [List.head?_cons, Option.some.injEq] at h2
        exact absurd h2 (ho tag)
  · rw [push_ne hne]
    exact hi.task u v huv

theorem fin_set {s : State} {t : Nat} {o : Op} {q : List Op} (hq : s.todo[t]? = some (o :: q))
    (h : ∀ (t : Nat) q, s.todo[t]? = some q → ∀ c j, Op.step c j ∉ q) : ∀ (u : Nat) v, (s.todo.set t q)[u]? = some v → ∀ c j, Op.step c j ∉ v := by
  intro u v huv c j hm
  rcases get_set huv with ⟨rfl, rfl⟩ | ⟨-, huv⟩
  · exact h u _ hq c j (List.mem_cons_of_mem _ hm)
  · exact h u v huv c j hm

theorem Inv.exec {n : Nat} {whole : Nat → List Op} (hs : Shape n whole) {acts : List DAct} {past : Nat → List Op} {s s' : State}
    (hi : Inv n whole acts past s) {a : Act} (h : TfTrainer.exec n s a = some s') : ∃ acts' past', Inv n whole acts' past' s' := by
  cases a with
  | op t =>
    simp only [TfTrainer.exec] at h
    split at h
    · -- construct
      rename_i p hq
      rw [Option.map_eq_some_iff] at h
      obtain ⟨d, hd, rfl⟩ := h
      have hlt := get_lt hq
      have ht := hi.task t _ hq
      have hp0 : past t = [] := hs.first t _ _ ht.split
      have ht0 : t ≠ 0 := by
        rintro rfl
        exact hi.dist.on (ht.off hp0)
      have hd' := hd
      rw [DistSync.exec] at hd'
      split at hd'
      · simp only [if_neg ht0, Option.some.injEq] at hd'
        subst hd'
        refine ⟨acts ++ [.start t], push past t .construct, DistSync.inv_exec hi.dist hd, by simpa using hi.size, ?_, ?_, hi.nodup, hi.saved, ?_⟩
        · intro u v huv
          rcases get_set huv with ⟨rfl, rfl⟩ | ⟨hne, huv⟩
          · rw [push_same, hp0]
            have e : (s.sync.phases.set u DistSync.Phase.idle)[u]? = some .idle := by
              rw [List.getElem?_set_self (by rw [hi.dist.size, ← hi.size]; exact hlt)]
            show Task _ _ _ _ _ _ (s.sync.phases.set u DistSync.Phase.idle)[u]?
            rw [e]
            refine ⟨by rw [ht.split, hp0]; rfl, ?_, ?_, by simp, fun _ => Or.inl rfl⟩
            · intro tag hc
              rw [List.mem_append, List.mem_singleton] at hc
              rcases hc with hc | hc
              · rcases ht.called tag hc with h1 | h1
                · rw [hp0] at h1; simp at h1
                · simp at h1
              · cases hc
            · intro tag htag
              simp at htag
          · rw [push_ne hne]
            show Task _ _ _ _ _ _ (s.sync.phases.set t DistSync.Phase.idle)[u]?
            rw [List.getElem?_set_ne (fun h => hne h.symm)]
            exact (hi.task u v huv).more (by intro tag h; cases h)
        · intro u c j
          rw [mem_push]
          show (u, c, j) ∈ s.updates ↔ _
          rw [hi.upd]
          simp
        · intro hsv
          rw [mem_push] at hsv
          rcases hsv with hsv | ⟨-, hsv⟩
          · obtain ⟨h1, h2⟩ := hi.fin hsv
            exact ⟨h1, fin_set hq h2⟩
          · cases hsv
      · cases hd'
    · -- step
      rename_i c j p hq
      simp only [Option.some.injEq] at h
      subst h
      have ht := hi.task t _ hq
      have hlt : t < n := by rw [← hi.size]; exact get_lt hq
      refine ⟨acts, push past t (.step c j), hi.dist, by simpa using hi.size, hi.local hs hq (by intro tag h; cases h) (by simp), ?_, ?_, ?_, ?_⟩
      · intro u c' j'
        rw [mem_push, List.mem_cons, hi.upd]
        simp only [Prod.mk.injEq, Op.step.injEq]
        constructor
        · rintro (⟨rfl, rfl, rfl⟩ | ⟨h1, h2⟩)
          · exact ⟨hlt, Or.inr ⟨rfl, rfl, rfl⟩⟩
          · exact ⟨h1, Or.inl h2⟩
        · rintro ⟨h1, h2 | ⟨rfl, rfl, rfl⟩⟩
          · exact Or.inr ⟨h1, h2⟩
          · exact Or.inl ⟨rfl, rfl, rfl⟩
      · rw [List.nodup_cons]
        refine ⟨?_, hi.nodup⟩
        rw [hi.upd]
        rintro ⟨-, hm⟩
        exact hs.once t _ _ c j ht.split hm
      · intro u hu
        obtain ⟨new, hn⟩ := hi.saved u hu
        exact ⟨(t, c, j) :: new, by show (t, c, j) :: s.updates = _; rw [hn]; rfl⟩
      · intro hsv
        rw [mem_push] at hsv
        rcases hsv with hsv | ⟨-, hsv⟩
        · obtain ⟨-, h2⟩ := hi.fin hsv
          exact absurd List.mem_cons_self (h2 t _ hq c j)
        · cases hsv
    · -- look
      rename_i p hq
      simp only [Option.some.injEq] at h
      subst h
      refine ⟨acts, push past t .look, hi.dist, by simpa using hi.size, hi.local hs hq (by intro tag h; cases h) (by simp), ?_, hi.nodup, hi.saved, ?_⟩
      · intro u c' j'
        rw [mem_push, hi.upd]
        simp
      · intro hsv
        rw [mem_push] at hsv
        rcases hsv with hsv | ⟨-, hsv⟩
        · obtain ⟨h1, h2⟩ := hi.fin hsv
          exact ⟨h1, fin_set hq h2⟩
        · cases hsv
    · -- sync
      rename_i tag p hq
      rw [Option.map_eq_some_iff] at h
      obtain ⟨d, hd, rfl⟩ := h
      have hlt := get_lt hq
      have ht := hi.task t _ hq
      have hd' := hd
      rw [DistSync.exec] at hd'
      split at hd'
      · rename_i hidle
        simp only [Option.some.injEq] at hd'
        subst hd'
        refine ⟨acts ++ [.call t tag], past, DistSync.inv_exec hi.dist hd, hi.size, ?_, hi.upd, hi.nodup, hi.saved, hi.fin⟩
        intro u v huv
        have huv : s.todo[u]? = some v := huv
        by_cases hne : u = t
        · subst hne
          rw [hq] at huv
          obtain rfl := Option.some.inj huv
          have e : (s.sync.phases.set u (DistSync.Phase.waiting tag 0))[u]? = some (.waiting tag 0) := by
            rw [List.getElem?_set_self (by rw [hi.dist.size, ← hi.size]; exact hlt)]
          show Task _ _ _ _ _ _ (s.sync.phases.set u (DistSync.Phase.waiting tag 0))[u]?
          rw [e]
          refine ⟨ht.split, ?_, fun tg htg i hi' => List.mem_append_left _ (ht.pass tg htg i hi'), ?_, ?_⟩
          · intro tg hc
            rw [List.mem_append, List.mem_singleton] at hc
            rcases hc with hc | hc
            · exact ht.called tg hc
            · cases hc
              exact Or.inr rfl
          · intro h0
            rw [ht.off h0] at hidle
            cases hidle
          · intro _
            exact Or.inr ⟨tag, 0, rfl, rfl, by simp⟩
        · show Task _ _ _ _ _ _ (s.sync.phases.set t (DistSync.Phase.waiting tag 0))[u]?
          rw [List.getElem?_set_ne (fun h => hne h.symm)]
          exact (hi.task u v huv).more (by intro tg h; cases h; exact hne rfl)
      · cases hd'
    · -- save
      rename_i p hq
      have ht := hi.task t _ hq
      obtain ⟨rfl, hsess, -⟩ := hs.saver t _ _ ht.split
      have hquiet : ∀ (u : Nat) v, s.todo[u]? = some v → ∀ c j, Op.step c j ∉ v := by
        intro u v huv
        have hu := hi.task u v huv
        have hcall := ht.pass session hsess u (by rw [← hi.size]; exact get_lt huv)
        exact hs.quiet u _ _ session hu.split (hu.called session hcall)
      have hlocal := hi.local hs hq (by intro tag h; cases h) (by simp)
      have hupd : ∀ u c j, (u, c, j) ∈ s.updates ↔ u < n ∧ Op.step c j ∈ push past 0 .save u := by
        intro u c' j'
        rw [mem_push, hi.upd]
        simp
      split at h
      · rename_i hlen
        simp only [Option.some.injEq] at h
        subst h
        refine ⟨acts, push past 0 .save, hi.dist, by simpa using hi.size, hlocal, hupd, hi.nodup, hi.saved, ?_⟩
        intro _
        refine ⟨?_, fin_set hq hquiet⟩
        show s.saved = some s.updates
        cases hu : s.saved with
        | none => rw [hu] at hlen; cases hlen
        | some u =>
          obtain ⟨new, hn⟩ := hi.saved u hu
          rw [hu] at hlen
          simp only [Option.map_some, Option.some.injEq] at hlen
          rw [hn, List.length_append] at hlen
          have : new = [] := List.length_eq_zero_iff.1 (by omega)
          rw [hn, this]
          rfl
      · simp only [Option.some.injEq] at h
        subst h
        refine ⟨acts, push past 0 .save, hi.dist, by simpa using hi.size, hlocal, hupd, hi.nodup, ?_, ?_⟩
        · intro u hu
          cases hu
          exact ⟨[], rfl⟩
        · intro _
          exact ⟨rfl, fin_set hq hquiet⟩
    · cases h
  | check t =>
    simp only [TfTrainer.exec] at h
    rw [Option.map_eq_some_iff] at h
    obtain ⟨d, hd, rfl⟩ := h
    refine ⟨acts ++ [.check t], past, DistSync.inv_exec hi.dist hd, hi.size, ?_, hi.upd, hi.nodup, hi.saved, hi.fin⟩
    intro u v huv
    have hu := (hi.task u v huv).more (x := .check t) (by intro tg h; cases h)
    rw [DistSync.exec] at hd
    split at hd
    · rename_i tag i hw
      split at hd
      · split at hd
        · simp only [Option.some.injEq] at hd
          subst hd
          by_cases hne : u = t
          · subst hne
            have hl : u < s.sync.phases.length := get_lt hw
            show Task _ _ _ _ _ _ (s.sync.phases.set u (DistSync.Phase.waiting tag (i + 1)))[u]?
            rw [List.getElem?_set_self hl]
            refine ⟨hu.split, hu.called, hu.pass, ?_, ?_⟩
            · intro h0
              have := hu.off h0
              rw [hw] at this
              cases this
            · intro h0
              rcases hu.on h0 with h1 | ⟨tg, i', h1, h2, h3⟩
              · rw [hw] at h1; cases h1
              · rw [hw] at h1
                cases h1
                exact Or.inr ⟨tag, i + 1, rfl, h2, h3⟩
          · show Task _ _ _ _ _ _ (s.sync.phases.set t (DistSync.Phase.waiting tag (i + 1)))[u]?
            rw [List.getElem?_set_ne (fun h => hne h.symm)]
            exact hu
        · simp only [Option.some.injEq] at hd
          subst hd
          exact hu
      · cases hd
    · cases hd
  | ret t =>
    simp only [TfTrainer.exec] at h
    split at h
    · rename_i tag p hq
      rw [Option.map_eq_some_iff] at h
      obtain ⟨d, hd, rfl⟩ := h
      have ht := hi.task t _ hq
      have hd' := hd
      rw [DistSync.exec] at hd'
      split at hd'
      · rename_i hw
        simp only [Option.some.injEq] at hd'
        subst hd'
        have hl : t < s.sync.phases.length := get_lt hw
        refine ⟨acts ++ [.ret t tag], push past t (.sync tag), DistSync.inv_exec hi.dist hd, by simpa using hi.size, ?_, ?_, hi.nodup, hi.saved, ?_⟩
        · intro u v huv
          rcases get_set huv with ⟨rfl, rfl⟩ | ⟨hne, huv⟩
          · show Task _ _ _ _ _ _ (s.sync.phases.set u DistSync.Phase.idle)[u]?
            rw [List.getElem?_set_self hl, push_same]
            have hm := ht.more (x := .ret u tag) (by intro tg h; cases h)
            refine ⟨by rw [ht.split]; simp, ?_, ?_, by simp, fun _ => Or.inl rfl⟩
            · intro tg hc
              rcases hm.called tg hc with h1 | h1
              · exact Or.inl (List.mem_append_left _ h1)
              · simp only [List.head?_cons, Option.some.injEq] at h1
                exact Or.inl (by rw [h1]; simp)
            · intro tg htg i hin
              rw [List.mem_append, List.mem_singleton] at htg
              rcases htg with htg | htg
              · exact hm.pass tg htg i hin
              · cases htg
                exact List.mem_append_left _ ((hi.dist.wait u tag n hw).2 i hin)
          · rw [push_ne hne]
            show Task _ _ _ _ _ _ (s.sync.phases.set t DistSync.Phase.idle)[u]?
            rw [List.getElem?_set_ne (fun h => hne h.symm)]
            exact (hi.task u v huv).more (by intro tag h; cases h)
        · intro u c j
          rw [mem_push]
          show (u, c, j) ∈ s.updates ↔ _
          rw [hi.upd]
          simp
        · intro hsv
          rw [mem_push] at hsv
          rcases hsv with hsv | ⟨-, hsv⟩
          · obtain ⟨h1, h2⟩ := hi.fin hsv
            exact ⟨h1, fin_set hq h2⟩
          · cases hsv
      · cases hd'
    · cases h
  | timer =>
    simp only [TfTrainer.exec] at h
    split at h
    · rename_i c j p hq
      simp only [Option.some.injEq] at h
      subst h
      refine ⟨acts, past, hi.dist, hi.size, hi.task, hi.upd, hi.nodup, ?_, ?_⟩
      · intro u hu
        cases hu
        exact ⟨[], rfl⟩
      · intro hsv
        exact ⟨rfl, (hi.fin hsv).2⟩
    · cases h

theorem Inv.run {n : Nat} {whole : Nat → List Op} (hs : Shape n whole) : ∀ {as : List Act} {acts : List DAct} {past : Nat → List Op} {s s' : State},
    Inv n whole acts past s → TfTrainer.run n s as = some s' → ∃ acts' past', Inv n whole acts' past' s'
  | [], acts, past, s, s', hi, h => by
    cases h
    exact ⟨acts, past, hi⟩
  | a :: as, acts, past, s, s', hi, h => by
    rw [TfTrainer.run, Option.bind_eq_some_iff] at h
    obtain ⟨u, h1, h2⟩ := h
    obtain ⟨acts', past', hi'⟩ := hi.exec hs h1
    exact Inv.run hs hi' h2

/-- After the construction of the chief. -/
theorem inv_first {n : Nat} {files : List (List Char)} {job : Nat → List Op} {s : State}
    (h : TfTrainer.exec n (init n files job) (.op 0) = some s) :
    ∃ acts past, Inv n (fun t => .construct :: job t) acts past s := by
  have hn : 0 < n := by
    rcases Nat.eq_zero_or_pos n with rfl | hn
    · simp [TfTrainer.exec, init] at h
    · exact hn
  have h0 : (init n files job).todo[0]? = some (.construct :: job 0) := by
    simp [init, hn]
  simp only [TfTrainer.exec, h0] at h
  rw [Option.map_eq_some_iff] at h
  obtain ⟨d, hd, rfl⟩ := h
  have hinv := DistSync.inv_start hd
  have hd' := hd
  rw [DistSync.exec] at hd'
  split at hd'
  · simp only [if_true, Option.some.injEq] at hd'
    subst hd'
    refine ⟨[.start 0], push (fun _ => []) 0 .construct, hinv, by simp [init], ?_, ?_, by simp [init], ?_, ?_⟩
    · intro u v huv
      have hl := get_lt huv
      simp only [init, List.length_set, List.length_map, List.length_range] at hl
      rcases get_set huv with ⟨rfl, rfl⟩ | ⟨hne, huv⟩
      · rw [push_same]
        show Task _ _ _ _ _ _ ((DistSync.init n files).phases.set 0 DistSync.Phase.idle)[0]?
        rw [List.getElem?_set_self (by simpa [DistSync.init] using hn)]
        refine ⟨rfl, ?_, ?_, by simp, fun _ => Or.inl rfl⟩
        · intro tag hc; simp at hc
        · intro tag hc; simp at hc
      · rw [push_ne hne]
        show Task _ _ _ _ _ _ ((DistSync.init n files).phases.set 0 DistSync.Phase.idle)[u]?
        rw [List.getElem?_set_ne (fun h => hne h.symm)]
        simp only [init, List.getElem?_map, List.getElem?_range hl, Option.map_some, Option.some.injEq] at huv
        subst huv
        refine ⟨rfl, ?_, ?_, ?_, by simp⟩
        · intro tag hc; simp at hc
        · intro tag hc; simp at hc
        · intro _
          simp [DistSync.init, hl]
    · intro u c j
      rw [mem_push]
      simp [init]
    · intro u hu
      cases hu
    · intro hsv
      rw [mem_push] at hsv
      simp at hsv
  · cases hd'

/-! The operations of one training. -/

theorem split_two {A B p q : List Op} (h : A ++ B = p ++ q) :
    (∃ a, p = A ++ a ∧ B = a ++ q) ∨ (∃ c x, A = p ++ x :: c ∧ q = x :: c ++ B) := by
  rw [List.append_eq_append_iff] at h
  rcases h with ⟨a, h1, h2⟩ | ⟨c, h1, h2⟩
  · exact Or.inl ⟨a, h1, h2⟩
  · cases c with
    | nil =>
      refine Or.inl ⟨[], ?_, ?_⟩
      · rw [List.append_nil] at h1 ⊢
        exact h1.symm
      · simpa using h2.symm
    | cons x c => exact Or.inr ⟨c, x, h1, h2⟩

/-- What follows the steps of the training of a worker. -/
structure Tail (t : Nat) (B : List Op) : Prop where
  noStep : ∀ c j, Op.step c j ∉ B
  noConstruct : Op.construct ∉ B
  head : ∃ R, B = .sync session :: R ∧ (t = 0 → ∃ R', R = .save :: R' ∧ Op.save ∉ R')
  noSave : t ≠ 0 → Op.save ∉ B
  tags : ∀ tag, Op.sync tag ∈ B → tag = session ∨ tag = final
  last : Op.sync final ∈ B

/-- Operations that neither train nor save. -/
def Plain (l : List Op) : Prop := ∀ o ∈ l, o = .look ∨ o = .sync session ∨ o = .sync final

theorem plain_evaluate (k : Nat) : Plain (evaluate k) := by
  intro o ho
  simp only [evaluate, exitEnd, List.mem_append, List.mem_replicate, List.mem_singleton] at ho
  rcases ho with (⟨-, ho⟩ | ho) | ho
  · exact Or.inl ho
  · exact Or.inr (Or.inl ho)
  · exact Or.inr (Or.inr ho)

theorem plain_flatMap (l : List Nat) : Plain (l.flatMap evaluate) := by
  intro o ho
  rw [List.mem_flatMap] at ho
  obtain ⟨k, -, ho⟩ := ho
  exact plain_evaluate k o ho

theorem tail_ok (t : Nat) {more : List Op} (hm : Plain more) :
    Tail t ((if t = 0 then chiefEnd else []) ++ (exitEnd ++ ([.sync final] ++ more))) := by
  have h1 : ∀ c j, Op.step c j ∉ more := by
    intro c j h
    rcases hm _ h with h | h | h <;> cases h
  have h2 : Op.construct ∉ more := by
    intro h
    rcases hm _ h with h | h | h <;> cases h
  have h3 : Op.save ∉ more := by
    intro h
    rcases hm _ h with h | h | h <;> cases h
  have h4 : ∀ tag, Op.sync tag ∈ more → tag = session ∨ tag = final := by
    intro tag h
    rcases hm _ h with h | h | h
    · cases h
    · cases h
      exact Or.inl rfl
    · cases h
      exact Or.inr rfl
  by_cases ht : t = 0
  · rw [if_pos ht]
    refine ⟨?_, ?_, ?_, fun h => absurd ht h, ?_, ?_⟩
    · intro c j
      simp [chiefEnd, exitEnd, h1]
    · simp [chiefEnd, exitEnd, h2]
    · refine ⟨_, rfl, fun _ => ⟨_, rfl, ?_⟩⟩
      simp [exitEnd, h3]
    · intro tag
      simp only [chiefEnd, exitEnd, List.mem_append, List.mem_cons, List.not_mem_nil, or_false, Op.sync.injEq, reduceCtorEq]
      rintro (h | h | h | h)
      · exact Or.inl h
      · exact Or.inl h
      · exact Or.inr h
      · exact h4 tag h
    · simp [exitEnd]
  · rw [if_neg ht]
    refine ⟨?_, ?_, ?_, ?_, ?_, ?_⟩
    · intro c j
      simp [exitEnd, h1]
    · simp [exitEnd, h2]
    · exact ⟨_, rfl, fun h => absurd h ht⟩
    · intro _
      simp [exitEnd, h3]
    · intro tag
      simp only [exitEnd, List.nil_append, List.mem_append, List.mem_cons, List.not_mem_nil, or_false, Op.sync.injEq]
      rintro (h | h | h)
      · exact Or.inl h
      · exact Or.inr h
      · exact h4 tag h
    · simp [exitEnd]

def steps (c k : Nat) : List Op := (List.range k).map (.step c)

theorem nodup_steps (c k : Nat) : (Op.construct :: steps c k).Nodup := by
  rw [List.nodup_cons]
  refine ⟨by simp [steps], ?_⟩
  unfold steps List.Nodup
  rw [List.pairwise_map]
  exact List.Pairwise.imp (fun h h' => h (by cases h'; rfl)) List.nodup_range

theorem shape_ok (n : Nat) (k : Nat → Nat) (more : Nat → List Op) (hm : ∀ t, Plain (more t)) :
    Shape n (fun t => .construct :: (train 0 t (k t) ++ more t)) := by
  have key : ∀ t, ∃ B, Op.construct :: (train 0 t (k t) ++ more t) = (.construct :: steps 0 (k t)) ++ B ∧ Tail t B := by
    intro t
    refine ⟨_, ?_, tail_ok t (hm t)⟩
    simp [train, steps]
  have noSync : ∀ t tag, Op.sync tag ∉ Op.construct :: steps 0 (k t) := by
    intro t tag
    simp [steps]
  refine ⟨?_, ?_, ?_, ?_, ?_, ?_, ?_⟩
  · intro t p q tag h hs c j hq
    obtain ⟨B, hB, hT⟩ := key t
    rw [hB] at h
    rcases split_two h with ⟨a, h1, h2⟩ | ⟨d, x, h1, h2⟩
    · exact hT.noStep c j (by rw [h2]; exact List.mem_append_right _ hq)
    · rcases hs with hs | hs
      · exact noSync t tag (by rw [h1]; exact List.mem_append_left _ hs)
      · rw [h2] at hs
        simp only [List.cons_append, List.head?_cons, Option.some.injEq] at hs
        exact noSync t tag (by rw [h1, hs]; simp)
  · intro t p q h
    obtain ⟨B, hB, hT⟩ := key t
    rw [hB] at h
    rcases split_two h with ⟨a, h1, h2⟩ | ⟨d, x, h1, h2⟩
    · have ht : t = 0 := by
        refine Decidable.byContradiction fun hne => ?_
        exact hT.noSave hne (by rw [h2]; simp)
      obtain ⟨R, hR, hR'⟩ := hT.head
      obtain ⟨R', hR', hn⟩ := hR' ht
      rw [hR, hR'] at h2
      cases a with
      | nil => simp at h2
      | cons y a =>
        simp only [List.cons_append, List.cons.injEq] at h2
        obtain ⟨rfl, h2⟩ := h2
        refine ⟨ht, by rw [h1]; simp, ?_⟩
        cases a with
        | nil =>
          simp only [List.nil_append, List.cons.injEq, true_and] at h2
          rw [← h2]
          exact hn
        | cons z a =>
          simp only [List.cons_append, List.cons.injEq] at h2
          exact absurd (by rw [h2.2]; simp) hn
    · simp only [List.cons_append, List.cons.injEq] at h2
      have : Op.save ∈ Op.construct :: steps 0 (k t) := by rw [h1, ← h2.1]; simp
      simp [steps] at this
  · intro t p q c j h
    obtain ⟨B, hB, hT⟩ := key t
    rw [hB] at h
    rcases split_two h with ⟨a, h1, h2⟩ | ⟨d, x, h1, h2⟩
    · exact absurd (by rw [h2]; simp) (hT.noStep c j)
    · simp only [List.cons_append, List.cons.injEq] at h2
      have hn := nodup_steps 0 (k t)
      rw [h1, List.nodup_append] at hn
      intro hp
      exact hn.2.2 _ hp x (by simp) h2.1
  · intro t p q h
    obtain ⟨B, hB, hT⟩ := key t
    cases p with
    | nil => rfl
    | cons y p =>
      simp only [List.cons_append, List.cons.injEq] at h hB
      have : Op.construct ∈ steps 0 (k t) ++ B := by
        rw [← hB.2, h.2]
        simp
      rw [List.mem_append] at this
      rcases this with h3 | h3
      · simp [steps] at h3
      · exact absurd h3 hT.noConstruct
  · intro t
    exact ⟨_, rfl⟩
  · intro t p q tag h
    obtain ⟨B, hB, hT⟩ := key t
    rw [hB] at h
    rcases split_two h with ⟨a, h1, h2⟩ | ⟨d, x, h1, h2⟩
    · obtain ⟨R, hR, -⟩ := hT.head
      cases a with
      | nil =>
        rw [hR] at h2
        simp only [List.nil_append, List.cons.injEq, Op.sync.injEq] at h2
        exact Or.inl h2.1.symm
      | cons y a =>
        rcases hT.tags tag (by rw [h2]; simp) with h3 | h3
        · exact Or.inl h3
        · refine Or.inr ⟨h3, ?_⟩
          rw [hR] at h2
          simp only [List.cons_append, List.cons.injEq] at h2
          rw [h1, ← h2.1]
          simp
    · simp only [List.cons_append, List.cons.injEq] at h2
      exact absurd (by rw [h1, ← h2.1]; simp) (noSync t tag)
  · intro t _
    obtain ⟨B, hB, hT⟩ := key t
    obtain ⟨R, hR, -⟩ := hT.head
    refine ⟨?_, ?_⟩
    · show _ ∈ Op.construct :: (train 0 t (k t) ++ more t)
      rw [hB, hR]
      simp
    · show _ ∈ Op.construct :: (train 0 t (k t) ++ more t)
      rw [hB]
      exact List.mem_append_right _ hT.last

theorem mem_steps {t c j : Nat} {k : Nat} {more : List Op} (hm : Plain more) :
    Op.step c j ∈ Op.construct :: (train 0 t k ++ more) ↔ c = 0 ∧ j < k := by
  have e : Op.construct :: (train 0 t k ++ more) = (.construct :: steps 0 k) ++ ((if t = 0 then chiefEnd else []) ++ (exitEnd ++ ([.sync final] ++ more))) := by
    simp [train, steps]
  rw [e, List.mem_append]
  constructor
  · rintro (h | h)
    · simp only [steps, List.mem_cons, reduceCtorEq, List.mem_map, List.mem_range, Op.step.injEq, false_or] at h
      obtain ⟨a, h1, h2, h3⟩ := h
      exact ⟨h2.symm, h3 ▸ h1⟩
    · exact absurd h ((tail_ok t hm).noStep c j)
  · rintro ⟨rfl, h⟩
    exact Or.inl (by simp [steps, h])

theorem look_after {t k : Nat} {more p q : List Op} (h : Op.construct :: (train 0 t k ++ more) = p ++ .look :: q) (hm : Plain more) :
    Op.sync session ∈ p := by
  have e : Op.construct :: (train 0 t k ++ more) = (.construct :: steps 0 k) ++ ((if t = 0 then chiefEnd else []) ++ (exitEnd ++ ([.sync final] ++ more))) := by
    simp [train, steps]
  rw [e] at h
  have hT := tail_ok t hm
  generalize (if t = 0 then chiefEnd else []) ++ (exitEnd ++ ([.sync final] ++ more)) = B at h hT
  rcases split_two h with ⟨a, h1, h2⟩ | ⟨d, x, h1, h2⟩
  · obtain ⟨R, hR, -⟩ := hT.head
    rw [hR] at h2
    cases a with
    | nil => simp at h2
    | cons y a =>
      simp only [List.cons_append, List.cons.injEq] at h2
      rw [h1, ← h2.1]
      simp
  · simp only [List.cons_append, List.cons.injEq] at h2
    have : Op.look ∈ Op.construct :: steps 0 k := by rw [h1, ← h2.1]; simp
    simp [steps] at this

theorem saved_before {k : Nat} {more p q : List Op} (h : Op.construct :: (train 0 0 k ++ more) = p ++ q)
    (hf : Op.sync final ∈ p ∨ q.head? = some (.sync final)) : Op.save ∈ p := by
  have e : Op.construct :: (train 0 0 k ++ more) = (.construct :: steps 0 k ++ [.sync session]) ++ (.save :: (exitEnd ++ ([.sync final] ++ more))) := by
    simp [train, steps, chiefEnd]
  have hne : Op.sync final ∉ Op.construct :: steps 0 k ++ [.sync session] := by
    have : final ≠ session := by decide
    simp [steps, this]
  rw [e] at h
  rcases split_two h with ⟨a, h1, h2⟩ | ⟨d, x, h1, h2⟩
  · cases a with
    | nil =>
      rw [List.append_nil] at h1
      rw [List.nil_append] at h2
      rcases hf with hf | hf
      · exact absurd (h1 ▸ hf) hne
      · rw [← h2] at hf
        simp at hf
    | cons y a =>
      simp only [List.cons_append, List.cons.injEq] at h2
      rw [h1, ← h2.1]
      simp
  · rcases hf with hf | hf
    · exact absurd (by rw [h1]; exact List.mem_append_left _ hf) hne
    · rw [h2] at hf
      simp only [List.cons_append, List.head?_cons, Option.some.injEq] at hf
      exact absurd (by rw [h1, hf]; simp) hne

theorem final_done {t k : Nat} {more p q : List Op} (h : Op.construct :: (train 0 t k ++ more) = p ++ q) (hq : q.length ≤ more.length) :
    Op.sync final ∈ p := by
  have hlen := congrArg List.length h
  rw [← List.cons_append, List.length_append, List.length_append] at hlen
  have hp : p = (Op.construct :: train 0 t k) ++ (more.take (p.length - (Op.construct :: train 0 t k).length)) := by
    have := congrArg (List.take p.length) h
    rw [List.take_left, ← List.cons_append, List.take_append, List.take_of_length_le (by omega)] at this
    exact this.symm
  rw [hp]
  refine List.mem_append_left _ ?_
  simp [train]

/-! Every run can be continued to the end of all operations. -/

def waits : Phase → Nat
  | .waiting _ _ => 0
  | _ => 1

def weight (s : State) : Nat := (s.todo.map fun q => 2 * q.length).sum + (s.sync.phases.map waits).sum

theorem sum_map_set {β : Type} (f : β → Nat) : ∀ {l : List β} {t : Nat} {x y : β}, l[t]? = some y →
    ((l.set t x).map f).sum + f y = (l.map f).sum + f x
  | [], t, x, y, h => by simp at h
  | z :: l, 0, x, y, h => by
    simp only [List.getElem?_cons_zero, Option.some.injEq] at h
    subst h
    simp only [List.set_cons_zero, List.map_cons, List.sum_cons]
    omega
  | z :: l, t + 1, x, y, h => by
    simp only [List.getElem?_cons_succ] at h
    have := sum_map_set f (x := x) h
    simp only [List.set_cons_succ, List.map_cons, List.sum_cons]
    omega

theorem run_one {n : Nat} {s s' : State} {a : Act} (h : exec n s a = some s') : run n s [a] = some s' := by
  rw [run, h, Option.bind_some, run]

theorem run_append {n : Nat} : ∀ {as bs : List Act} {s s' : State}, run n s as = some s' → run n s (as ++ bs) = run n s' bs
  | [], bs, s, s', h => by
    cases h
    rfl
  | a :: as, bs, s, s', h => by
    rw [run, Option.bind_eq_some_iff] at h
    obtain ⟨u, h1, h2⟩ := h
    rw [List.cons_append, run, h1, Option.bind_some]
    exact run_append h2

theorem release {n : Nat} {t : Nat} {tag : List Char} {p : List Op} : ∀ (k : Nat) {s : State} {i : Nat},
    s.sync.phases[t]? = some (.waiting tag i) → s.todo[t]? = some (.sync tag :: p) → i + k = n →
    (∀ j, j < n → DistSync.fileName tag j ∈ s.sync.files) →
    run n s (List.replicate k (.check t) ++ [.ret t]) =
      some { s with sync := { s.sync with phases := s.sync.phases.set t .idle }, todo := s.todo.set t p }
  | 0, s, i, hp, hq, hk, hf => by
    have : i = n := by omega
    subst this
    apply run_one
    simp [exec, hq, DistSync.exec, hp]
  | k + 1, s, i, hp, hq, hk, hf => by
    have hlt := get_lt hp
    have hex : exec n s (.check t) = some { s with sync := { s.sync with phases := s.sync.phases.set t (.waiting tag (i + 1)) } } := by
      simp only [exec, DistSync.exec, hp]
      rw [if_pos (by omega), if_pos (hf i (by omega))]
      rfl
    have ih := release (t := t) (tag := tag) (p := p) k (s := { s with sync := { s.sync with phases := s.sync.phases.set t (.waiting tag (i + 1)) } })
      (i := i + 1) (by simp [hlt]) hq (by omega) hf
    rw [List.replicate_succ, List.cons_append, run, hex, Option.bind_some, ih]
    simp

theorem weight_todo {s s' : State} {t : Nat} {o : Op} {p : List Op} (hq : s.todo[t]? = some (o :: p)) (h1 : s'.todo = s.todo.set t p)
    (h2 : s'.sync.phases = s.sync.phases) : weight s' < weight s := by
  unfold weight
  rw [h1, h2]
  have := sum_map_set (fun q : List Op => 2 * q.length) (x := p) hq
  simp only [List.length_cons] at this
  omega

theorem weight_phase {s s' : State} {t : Nat} {o : Op} {p : List Op} {x y : Phase} (hq : s.todo[t]? = some (o :: p)) (h1 : s'.todo = s.todo.set t p)
    (hy : s.sync.phases[t]? = some y) (h2 : s'.sync.phases = s.sync.phases.set t x) : weight s' < weight s := by
  unfold weight
  rw [h1, h2]
  have := sum_map_set (fun q : List Op => 2 * q.length) (x := p) hq
  have h3 := sum_map_set waits (x := x) hy
  have h4 : waits x ≤ 1 := by cases x <;> simp [waits]
  simp only [List.length_cons] at this
  omega

theorem Inv.progress {n : Nat} {whole : Nat → List Op} (hs : Shape n whole) {acts : List DAct} {past : Nat → List Op} {s : State}
    (hi : Inv n whole acts past s) (hn : ∃ (t : Nat) (o : Op) (p : List Op), s.todo[t]? = some (o :: p)) :
    ∃ as s', TfTrainer.run n s as = some s' ∧ weight s' < weight s := by
  by_cases hw : ∃ (t : Nat) (o : Op) (p : List Op), s.todo[t]? = some (o :: p) ∧ ∀ tag i, s.sync.phases[t]? ≠ some (.waiting tag i)
  · obtain ⟨t, o, p, hq, hnw⟩ := hw
    have ht := hi.task t _ hq
    have hlt : t < s.sync.phases.length := by
      rw [hi.dist.size, ← hi.size]
      exact get_lt hq
    cases o with
    | construct =>
      have hoff := ht.off (hs.first t _ _ ht.split)
      refine ⟨[.op t], _, run_one (by simp only [TfTrainer.exec, hq, DistSync.exec, hoff, if_true, Option.map_some]; rfl), ?_⟩
      exact weight_phase hq rfl hoff rfl
    | step c j =>
      refine ⟨[.op t], _, run_one (by simp only [TfTrainer.exec, hq]; rfl), ?_⟩
      exact weight_todo hq rfl rfl
    | look =>
      refine ⟨[.op t], _, run_one (by simp only [TfTrainer.exec, hq]; rfl), ?_⟩
      exact weight_todo hq rfl rfl
    | save =>
      by_cases hl : s.saved.map List.length = some s.updates.length
      · refine ⟨[.op t], _, run_one (by simp only [TfTrainer.exec, hq, if_pos hl]; rfl), ?_⟩
        exact weight_todo hq rfl rfl
      · refine ⟨[.op t], _, run_one (by simp only [TfTrainer.exec, hq, if_neg hl]; rfl), ?_⟩
        exact weight_todo hq rfl rfl
    | sync tag =>
      have hp : past t ≠ [] := by
        intro h0
        obtain ⟨w, hw⟩ := hs.begins t
        have := ht.split
        rw [h0, hw] at this
        simp at this
      rcases ht.on hp with hidle | ⟨tg, i, h1, -, -⟩
      · refine ⟨[.op t], _, run_one (by simp only [TfTrainer.exec, hq, DistSync.exec, hidle, if_true, Option.map_some]; rfl), ?_⟩
        have h3 := sum_map_set waits (x := DistSync.Phase.waiting tag 0) hidle
        simp only [weight]
        simp only [waits] at h3
        omega
      · exact absurd h1 (hnw tg i)
  · have hall : ∀ (t : Nat) q, s.todo[t]? = some q → q = [] ∨ ∃ tag i, s.sync.phases[t]? = some (.waiting tag i) ∧ q.head? = some (.sync tag) ∧
        DistSync.Act.call t tag ∈ acts := by
      intro t q hq
      cases q with
      | nil => exact Or.inl rfl
      | cons o p =>
        refine Or.inr ?_
        have hex : ∃ tag i, s.sync.phases[t]? = some (.waiting tag i) := by
          refine Classical.byContradiction fun hne => hw ⟨t, o, p, hq, ?_⟩
          intro tag i h
          exact hne ⟨tag, i, h⟩
        obtain ⟨tag, i, h1⟩ := hex
        have ht := hi.task t _ hq
        have hp : past t ≠ [] := by
          intro h0
          rw [ht.off h0] at h1
          cases h1
        rcases ht.on hp with h2 | ⟨tg, i', h2, h3, h4⟩
        · rw [h2] at h1; cases h1
        · exact ⟨tg, i', h2, h3, h4⟩
    -- whoever waits for a tag that all have called goes on
    have hgo : ∀ (t : Nat) q tag, s.todo[t]? = some q → q.head? = some (.sync tag) → (∀ u, u < n → DistSync.Act.call u tag ∈ acts) →
        ∃ as s', TfTrainer.run n s as = some s' ∧ weight s' < weight s := by
      intro t q tag hq hh hc
      rcases hall t q hq with rfl | ⟨tg, i, h1, h2, -⟩
      · simp at hh
      · rw [hh] at h2
        cases h2
        cases q with
        | nil => simp at hh
        | cons o p =>
          simp only [List.head?_cons, Option.some.injEq] at hh
          subst hh
          have hle := (hi.dist.wait t tag i h1).1
          refine ⟨_, _, release (n - i) h1 hq (by omega) (fun j hj => (hi.dist.file tag j).2 (hc j hj)), ?_⟩
          exact weight_phase hq rfl h1 rfl
    by_cases hse : ∃ (t : Nat) (q : List Op), s.todo[t]? = some q ∧ q.head? = some (.sync session)
    · obtain ⟨t, q, hq, hh⟩ := hse
      refine hgo t q session hq hh ?_
      intro u hu
      obtain ⟨v, hv⟩ : ∃ v, s.todo[u]? = some v := ⟨_, List.getElem?_eq_getElem (by rw [hi.size]; exact hu)⟩
      have hut := hi.task u v hv
      rcases hall u v hv with rfl | ⟨tg, i, -, h2, h3⟩
      · have := hut.split
        rw [List.append_nil] at this
        exact hut.pass session (this ▸ (hs.ends u hu).1) u hu
      · cases v with
        | nil => simp at h2
        | cons o p =>
          simp only [List.head?_cons, Option.some.injEq] at h2
          subst h2
          rcases hs.tags u _ _ tg hut.split with rfl | ⟨-, h4⟩
          · exact h3
          · exact hut.pass session h4 u hu
    · obtain ⟨t, o, p, hq⟩ := hn
      rcases hall t _ hq with h0 | ⟨tg, i, -, h2, h3⟩
      · cases h0
      · have hfin : ∀ (u : Nat) v tg, s.todo[u]? = some v → v.head? = some (.sync tg) → tg = final := by
          intro u v tg hv hh
          cases v with
          | nil => simp at hh
          | cons o p =>
            simp only [List.head?_cons, Option.some.injEq] at hh
            subst hh
            rcases hs.tags u _ _ tg (hi.task u _ hv).split with rfl | ⟨h4, -⟩
            · exact absurd ⟨u, _, hv, rfl⟩ hse
            · exact h4
        obtain rfl := hfin t _ tg hq h2
        refine hgo t _ final hq h2 ?_
        intro u hu
        obtain ⟨v, hv⟩ : ∃ v, s.todo[u]? = some v := ⟨_, List.getElem?_eq_getElem (by rw [hi.size]; exact hu)⟩
        have hut := hi.task u v hv
        rcases hall u v hv with rfl | ⟨tg, i, -, h5, h6⟩
        · have := hut.split
          rw [List.append_nil] at this
          exact hut.pass final (this ▸ (hs.ends u hu).2) u hu
        · obtain rfl := hfin u v tg hv h5
          exact h6

theorem Inv.completes {n : Nat} {whole : Nat → List Op} (hs : Shape n whole) : ∀ (w : Nat) {acts : List DAct} {past : Nat → List Op} {s : State},
    Inv n whole acts past s → weight s ≤ w → ∃ as s', TfTrainer.run n s as = some s' ∧ ∀ q ∈ s'.todo, q = []
  | 0, acts, past, s, hi, hw => by
    refine ⟨[], s, rfl, ?_⟩
    intro q hq
    refine Decidable.byContradiction fun hne => ?_
    obtain ⟨t, ht⟩ := List.getElem?_of_mem hq
    have := sum_map_set (fun q : List Op => 2 * q.length) (x := ([] : List Op)) ht
    have hl : 0 < q.length := List.length_pos_iff.2 hne
    unfold weight at hw
    simp only [List.length_nil] at this
    omega
  | w + 1, acts, past, s, hi, hw => by
    by_cases hn : ∃ (t : Nat) (o : Op) (p : List Op), s.todo[t]? = some (o :: p)
    · obtain ⟨as, s1, h1, hlt⟩ := hi.progress hs hn
      obtain ⟨acts', past', hi'⟩ := Inv.run hs hi h1
      obtain ⟨bs, s2, h2, h3⟩ := Inv.completes hs w hi' (by omega)
      exact ⟨as ++ bs, s2, by rw [run_append h1, h2], h3⟩
    · refine ⟨[], s, rfl, ?_⟩
      intro q hq
      cases q with
      | nil => rfl
      | cons o p =>
        obtain ⟨t, ht⟩ := List.getElem?_of_mem hq
        exact absurd ⟨t, o, p, ht⟩ hn

end DeepGNN.TfTrainer
