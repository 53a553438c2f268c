import Verif.Model.Synchronized

namespace DeepGNN.Synchronized

theorem run_append {n : Nat} : ∀ {s : State} {a b : List Act}, run n s (a ++ b) = (run n s a).bind fun t => run n t b
  | s, [], b => rfl
  | s, x :: a, b => by
    rw [List.cons_append, run, run]
    cases exec n s x with
    | none => rfl
    | some t => exact run_append

theorem get_set {α : Type} (l : List α) (k m : Nat) (p : α) : (l.set k p)[m]? = if k = m ∧ m < l.length then some p else l[m]? := by
  rw [List.getElem?_set]
  by_cases hkm : k = m
  · subst hkm
    by_cases hl : k < l.length
    · simp [hl]
    · simp [hl, List.getElem?_eq_none (Nat.not_lt.1 hl)]
  · simp [hkm]

/-- What is known of servers. -/
structure ServerInv (n : Nat) (acts : List Act) (s : State) : Prop where
  made : ∀ i, s.children[i]? = some .created → Act.create i ∈ acts
  listed : ∀ i, i ∈ s.serverFiles → Act.create i ∈ acts ∧ Act.post i ∈ acts
  seen : ∀ (r : Nat) (l : List Nat), s.clients[r]? = some (.opened l) → ∀ i ∈ l, Act.create i ∈ acts ∧ Act.post i ∈ acts

theorem ServerInv.frame {n : Nat} {acts : List Act} {s t : State} {x : Act} (h : ServerInv n acts s) (h1 : t.children = s.children)
    (h2 : ∀ i ∈ t.serverFiles, i ∈ s.serverFiles)
    (h3 : ∀ (r : Nat) (l : List Nat), t.clients[r]? = some (.opened l) → l = [] ∨ s.clients[r]? = some (.opened l)) :
    ServerInv n (acts ++ [x]) t := by
  refine ⟨?_, ?_, ?_⟩
  · intro i hi
    rw [h1] at hi
    exact List.mem_append_left _ (h.made i hi)
  · intro i hi
    have := h.listed i (h2 i hi)
    exact ⟨List.mem_append_left _ this.1, List.mem_append_left _ this.2⟩
  · intro r l hl i hi
    rcases h3 r l hl with rfl | hl
    · simp at hi
    · have := h.seen r l hl i hi
      exact ⟨List.mem_append_left _ this.1, List.mem_append_left _ this.2⟩

theorem ServerInv.exec {n : Nat} {acts : List Act} {s t : State} {x : Act} (h : ServerInv n acts s) (hx : exec n s x = some t) :
    ServerInv n (acts ++ [x]) t := by
  cases x with
  | create k =>
    rw [Synchronized.exec] at hx
    split at hx
    · simp only [Option.some.injEq] at hx
      subst hx
      refine ⟨?_, ?_, ?_⟩
      · intro i hi
        simp only [get_set] at hi
        split at hi
        · rename_i hk; simp [hk.1]
        · exact List.mem_append_left _ (h.made i hi)
      · intro i hi
        have := h.listed i hi
        exact ⟨List.mem_append_left _ this.1, List.mem_append_left _ this.2⟩
      · intro r l hl i hi
        have := h.seen r l hl i hi
        exact ⟨List.mem_append_left _ this.1, List.mem_append_left _ this.2⟩
    · cases hx
  | post k =>
    rw [Synchronized.exec] at hx
    split at hx
    · rename_i hk
      split at hx
      · simp only [Option.some.injEq] at hx
        subst hx
        refine ⟨?_, ?_, ?_⟩
        · intro i hi
          simp only [get_set] at hi
          split at hi
          · cases hi
          · exact List.mem_append_left _ (h.made i hi)
        · intro i hi
          have := h.listed i hi
          exact ⟨List.mem_append_left _ this.1, List.mem_append_left _ this.2⟩
        · intro r l hl i hi
          have := h.seen r l hl i hi
          exact ⟨List.mem_append_left _ this.1, List.mem_append_left _ this.2⟩
      · simp only [Option.some.injEq] at hx
        subst hx
        refine ⟨?_, ?_, ?_⟩
        · intro i hi
          simp only [get_set] at hi
          split at hi
          · cases hi
          · exact List.mem_append_left _ (h.made i hi)
        · intro i hi
          rcases List.mem_cons.1 hi with rfl | hi
          · exact ⟨List.mem_append_left _ (h.made i hk), by simp⟩
          · have := h.listed i hi
            exact ⟨List.mem_append_left _ this.1, List.mem_append_left _ this.2⟩
        · intro r l hl i hi
          have := h.seen r l hl i hi
          exact ⟨List.mem_append_left _ this.1, List.mem_append_left _ this.2⟩
    · cases hx
  | ask k =>
    rw [Synchronized.exec] at hx
    split at hx
    · simp only [Option.some.injEq] at hx
      subst hx
      exact h.frame rfl (fun _ h => h) (fun _ _ h => Or.inr h)
    · cases hx
  | look k =>
    rw [Synchronized.exec] at hx
    split at hx
    · split at hx
      · simp only [Option.some.injEq] at hx
        subst hx
        exact h.frame rfl (fun _ h => h) (fun _ _ h => Or.inr h)
      · simp only [Option.some.injEq] at hx
        subst hx
        exact h.frame rfl (fun _ h => h) (fun _ _ h => Or.inr h)
    · cases hx
  | timeout k =>
    rw [Synchronized.exec] at hx
    split at hx
    · simp only [Option.some.injEq] at hx
      subst hx
      exact h.frame rfl (fun _ h => h) (fun _ _ h => Or.inr h)
    · cases hx
  | stop k =>
    rw [Synchronized.exec] at hx
    split at hx
    · simp only [Option.some.injEq] at hx
      subst hx
      exact h.frame rfl (fun _ h => h) (fun _ _ h => Or.inr h)
    · cases hx
  | unlist k =>
    rw [Synchronized.exec] at hx
    split at hx
    · simp only [Option.some.injEq] at hx
      subst hx
      exact h.frame rfl (fun _ h => List.mem_of_mem_erase h) (fun _ _ h => Or.inr h)
    · cases hx
  | begin k =>
    rw [Synchronized.exec] at hx
    split at hx
    · simp only [Option.some.injEq] at hx
      subst hx
      refine h.frame rfl (fun _ h => h) ?_
      intro r l hl
      simp only [get_set] at hl
      split at hl
      · cases hl; exact Or.inl rfl
      · exact Or.inr hl
    · cases hx
  | see k j =>
    rw [Synchronized.exec] at hx
    split at hx
    · rename_i seen hk
      split at hx
      · rename_i hj
        simp only [Option.some.injEq] at hx
        subst hx
        refine ⟨fun i hi => List.mem_append_left _ (h.made i hi), ?_, ?_⟩
        · intro i hi
          have := h.listed i hi
          exact ⟨List.mem_append_left _ this.1, List.mem_append_left _ this.2⟩
        · intro r l hl i hi
          simp only [get_set] at hl
          split at hl
          · cases hl
            rcases List.mem_cons.1 hi with rfl | hi
            · have := h.listed i hj.2
              exact ⟨List.mem_append_left _ this.1, List.mem_append_left _ this.2⟩
            · have := h.seen k seen hk i hi
              exact ⟨List.mem_append_left _ this.1, List.mem_append_left _ this.2⟩
          · have := h.seen r l hl i hi
            exact ⟨List.mem_append_left _ this.1, List.mem_append_left _ this.2⟩
      · cases hx
    · cases hx
  | connect k =>
    rw [Synchronized.exec] at hx
    split at hx
    · split at hx
      · simp only [Option.some.injEq] at hx
        subst hx
        refine h.frame rfl (fun _ h => h) ?_
        intro r l hl
        simp only [get_set] at hl
        split at hl
        · cases hl
        · exact Or.inr hl
      · cases hx
    · cases hx
  | close k =>
    have key : ∀ t : State, t = { s with clients := s.clients.set k .closed, clientFiles := s.clientFiles.erase k } →
        ServerInv n (acts ++ [Act.close k]) t := by
      rintro t rfl
      refine h.frame rfl (fun _ h => h) ?_
      intro r l hl
      simp only [get_set] at hl
      split at hl
      · cases hl
      · exact Or.inr hl
    rw [Synchronized.exec] at hx
    split at hx
    · split at hx
      · simp only [Option.some.injEq] at hx
        exact key t hx.symm
      · cases hx
    · split at hx
      · simp only [Option.some.injEq] at hx
        exact key t hx.symm
      · cases hx
    · cases hx

/-- What is known of clients and of the servers that stop. -/
structure ClientInv (acts : List Act) (s : State) : Prop where
  fresh : ∀ r, s.clients[r]? = some .none → Act.begin r ∉ acts ∧ Act.close r ∉ acts
  alive : ∀ r, Act.begin r ∈ acts → Act.close r ∈ acts ∨ r ∈ s.clientFiles
  idle : ∀ i, s.parents[i]? = some .idle → Act.ask i ∉ acts
  once : ∀ i, acts.count (.ask i) ≤ 1
  waits : ∀ i, s.parents[i]? = some .waiting → Act.ask i ∈ acts
  looked : ∀ i, (s.parents[i]? = some .cleared ∨ s.parents[i]? = some .stopped ∨ s.parents[i]? = some .done) → Act.timeout i ∉ acts →
    ∃ u v, acts = u ++ Act.look i :: v ∧ Act.ask i ∈ u ∧ ∀ r, Act.begin r ∈ u → Act.close r ∈ u

/-- Actions that change neither the owners of servers nor client files. -/
theorem ClientInv.frame {acts : List Act} {s t : State} {x : Act} (h : ClientInv acts s) (hp : t.parents = s.parents)
    (hf : ∀ r ∈ s.clientFiles, r ∈ t.clientFiles ∨ x = .close r)
    (hn : ∀ r, t.clients[r]? = some .none → s.clients[r]? = some .none ∧ x ≠ .begin r ∧ x ≠ .close r)
    (hx : ∀ i, x ≠ .ask i) (hb : ∀ r, x = .begin r → r ∈ t.clientFiles) : ClientInv (acts ++ [x]) t := by
  refine ⟨?_, ?_, ?_, ?_, ?_, ?_⟩
  · intro r hr
    obtain ⟨h1, h2, h3⟩ := hn r hr
    have := h.fresh r h1
    simp only [List.mem_append, List.mem_singleton, not_or]
    exact ⟨⟨this.1, h2.symm⟩, ⟨this.2, h3.symm⟩⟩
  · intro r hr
    simp only [List.mem_append, List.mem_singleton] at hr ⊢
    rcases hr with hr | hr
    · rcases h.alive r hr with h1 | h1
      · exact Or.inl (Or.inl h1)
      · rcases hf r h1 with h2 | h2
        · exact Or.inr h2
        · exact Or.inl (Or.inr h2.symm)
    · exact Or.inr (hb r hr.symm)
  · intro i hi
    rw [hp] at hi
    simp only [List.mem_append, List.mem_singleton, not_or]
    exact ⟨h.idle i hi, (hx i).symm⟩
  · intro i
    rw [List.count_append, List.count_singleton]
    have h1 := h.once i
    have : (x == Act.ask i) = false := by simpa using hx i
    simp only [this]
    simpa using h1
  · intro i hi
    rw [hp] at hi
    exact List.mem_append_left _ (h.waits i hi)
  · intro i hi ht
    rw [hp] at hi
    simp only [List.mem_append, not_or] at ht
    obtain ⟨u, v, h1, h2, h3⟩ := h.looked i hi ht.1
    exact ⟨u, v ++ [x], by rw [h1, List.append_assoc, List.cons_append], h2, h3⟩

/-- Actions of owners of servers. -/
theorem ClientInv.parent {acts : List Act} {s t : State} {x : Act} {k : Nat} {p : Parent} (h : ClientInv acts s)
    (ht : t.parents = s.parents.set k p) (hc : t.clients = s.clients) (hf : t.clientFiles = s.clientFiles) (hp : p ≠ .idle)
    (hb : ∀ r, x ≠ .begin r) (hcl : ∀ r, x ≠ .close r) (hx : ∀ i, x = .ask i → i = k ∧ s.parents[k]? = some .idle)
    (hw : p = .waiting → Act.ask k ∈ acts ++ [x])
    (hl : (p = .cleared ∨ p = .stopped ∨ p = .done) → Act.timeout k ∉ acts ++ [x] →
      ∃ u v, acts ++ [x] = u ++ Act.look k :: v ∧ Act.ask k ∈ u ∧ ∀ r, Act.begin r ∈ u → Act.close r ∈ u) :
    ClientInv (acts ++ [x]) t := by
  refine ⟨?_, ?_, ?_, ?_, ?_, ?_⟩
  · intro r hr
    rw [hc] at hr
    have := h.fresh r hr
    simp only [List.mem_append, List.mem_singleton, not_or]
    exact ⟨⟨this.1, (hb r).symm⟩, ⟨this.2, (hcl r).symm⟩⟩
  · intro r hr
    rw [hf]
    simp only [List.mem_append, List.mem_singleton] at hr ⊢
    rcases hr with hr | hr
    · rcases h.alive r hr with h1 | h1
      · exact Or.inl (Or.inl h1)
      · exact Or.inr h1
    · exact absurd hr.symm (hb r)
  · intro i hi
    rw [ht, get_set] at hi
    split at hi
    · simp only [Option.some.injEq] at hi
      exact absurd hi hp
    · rename_i hne
      simp only [List.mem_append, List.mem_singleton, not_or]
      refine ⟨h.idle i hi, ?_⟩
      intro hxi
      obtain ⟨rfl, h1⟩ := hx i hxi.symm
      apply hne
      refine ⟨rfl, ?_⟩
      rcases Nat.lt_or_ge i s.parents.length with h2 | h2
      · exact h2
      · rw [List.getElem?_eq_none h2] at h1; cases h1
  · intro i
    rw [List.count_append, List.count_singleton]
    by_cases hxi : x = Act.ask i
    · obtain ⟨rfl, h1⟩ := hx i hxi
      have := List.count_eq_zero.2 (h.idle i h1)
      rw [this]
      split <;> omega
    · have h1 := h.once i
      have : (x == Act.ask i) = false := by simpa using hxi
      simp only [this]
      simpa using h1
  · intro i hi
    rw [ht, get_set] at hi
    split at hi
    · rename_i hk
      simp only [Option.some.injEq] at hi
      rw [← hk.1]
      exact hw hi
    · exact List.mem_append_left _ (h.waits i hi)
  · intro i hi htm
    rw [ht, get_set] at hi
    split at hi
    · rename_i hk
      rw [← hk.1] at htm ⊢
      simp only [Option.some.injEq] at hi
      exact hl hi htm
    · simp only [List.mem_append, not_or] at htm
      obtain ⟨u, v, h1, h2, h3⟩ := h.looked i hi htm.1
      exact ⟨u, v ++ [x], by rw [h1, List.append_assoc, List.cons_append], h2, h3⟩

theorem ClientInv.exec {n : Nat} {acts : List Act} {s t : State} {x : Act} (h : ClientInv acts s) (hx : exec n s x = some t) :
    ClientInv (acts ++ [x]) t := by
  cases x with
  | create k =>
    rw [Synchronized.exec] at hx
    split at hx
    · simp only [Option.some.injEq] at hx
      subst hx
      exact h.frame rfl (fun _ h => Or.inl h) (fun _ h => ⟨h, by simp, by simp⟩) (by simp) (by simp)
    · cases hx
  | post k =>
    rw [Synchronized.exec] at hx
    split at hx
    · split at hx <;>
      · simp only [Option.some.injEq] at hx
        subst hx
        exact h.frame rfl (fun _ h => Or.inl h) (fun _ h => ⟨h, by simp, by simp⟩) (by simp) (by simp)
    · cases hx
  | ask k =>
    rw [Synchronized.exec] at hx
    split at hx
    · rename_i hk
      simp only [Option.some.injEq] at hx
      subst hx
      exact h.parent (k := k) (p := .waiting) rfl rfl rfl (by simp) (by simp) (by simp)
        (by intro i hi; cases hi; exact ⟨rfl, hk⟩) (by intro _; simp) (by simp)
    · cases hx
  | look k =>
    rw [Synchronized.exec] at hx
    split at hx
    · rename_i hk
      split at hx
      · rename_i hnone
        simp only [Option.some.injEq] at hx
        subst hx
        refine h.parent (k := k) (p := .cleared) rfl rfl rfl (by simp) (by simp) (by simp) (by simp) (by simp) ?_
        intro _ _
        refine ⟨acts, [], rfl, h.waits k hk, ?_⟩
        intro r hr
        rcases h.alive r hr with h1 | h1
        · exact h1
        · rw [hnone] at h1; simp at h1
      · simp only [Option.some.injEq] at hx
        subst hx
        exact h.frame rfl (fun _ h => Or.inl h) (fun _ h => ⟨h, by simp, by simp⟩) (by simp) (by simp)
    · cases hx
  | timeout k =>
    rw [Synchronized.exec] at hx
    split at hx
    · simp only [Option.some.injEq] at hx
      subst hx
      exact h.parent (k := k) (p := .cleared) rfl rfl rfl (by simp) (by simp) (by simp) (by simp) (by simp)
        (by intro _ ht; simp at ht)
    · cases hx
  | stop k =>
    rw [Synchronized.exec] at hx
    split at hx
    · rename_i hk
      simp only [Option.some.injEq] at hx
      subst hx
      refine h.parent (k := k) (p := .stopped) rfl rfl rfl (by simp) (by simp) (by simp) (by simp) (by simp) ?_
      intro _ ht
      simp only [List.mem_append, not_or] at ht
      obtain ⟨u, v, h1, h2, h3⟩ := h.looked k (Or.inl hk) ht.1
      exact ⟨u, v ++ [_], by rw [h1, List.append_assoc, List.cons_append], h2, h3⟩
    · cases hx
  | unlist k =>
    rw [Synchronized.exec] at hx
    split at hx
    · rename_i hk
      simp only [Option.some.injEq] at hx
      subst hx
      refine h.parent (k := k) (p := .done) rfl rfl rfl (by simp) (by simp) (by simp) (by simp) (by simp) ?_
      intro _ ht
      simp only [List.mem_append, not_or] at ht
      obtain ⟨u, v, h1, h2, h3⟩ := h.looked k (Or.inr (Or.inl hk.1)) ht.1
      exact ⟨u, v ++ [_], by rw [h1, List.append_assoc, List.cons_append], h2, h3⟩
    · cases hx
  | begin k =>
    rw [Synchronized.exec] at hx
    split at hx
    · rename_i hk
      simp only [Option.some.injEq] at hx
      subst hx
      refine h.frame rfl (fun _ h => Or.inl (List.mem_cons_of_mem _ h)) ?_ (by simp) ?_
      · intro r hr
        simp only [get_set] at hr
        split at hr
        · cases hr
        · rename_i hne
          refine ⟨hr, ?_, by simp⟩
          intro e
          cases e
          apply hne
          refine ⟨rfl, ?_⟩
          rcases Nat.lt_or_ge k s.clients.length with h2 | h2
          · exact h2
          · rw [List.getElem?_eq_none h2] at hr; cases hr
      · intro r hr
        cases hr
        exact List.mem_cons_self
    · cases hx
  | see k j =>
    rw [Synchronized.exec] at hx
    split at hx
    · split at hx
      · simp only [Option.some.injEq] at hx
        subst hx
        refine h.frame rfl (fun _ h => Or.inl h) ?_ (by simp) (by simp)
        intro r hr
        simp only [get_set] at hr
        split at hr
        · cases hr
        · exact ⟨hr, by simp, by simp⟩
      · cases hx
    · cases hx
  | connect k =>
    rw [Synchronized.exec] at hx
    split at hx
    · split at hx
      · simp only [Option.some.injEq] at hx
        subst hx
        refine h.frame rfl (fun _ h => Or.inl h) ?_ (by simp) (by simp)
        intro r hr
        simp only [get_set] at hr
        split at hr
        · cases hr
        · exact ⟨hr, by simp, by simp⟩
      · cases hx
    · cases hx
  | close k =>
    have key : ∀ t : State, s.clients[k]? ≠ none →
        t = { s with clients := s.clients.set k .closed, clientFiles := s.clientFiles.erase k } →
        ClientInv (acts ++ [Act.close k]) t := by
      rintro t hk rfl
      have hlt : k < s.clients.length := by
        rcases Nat.lt_or_ge k s.clients.length with h2 | h2
        · exact h2
        · exact absurd (List.getElem?_eq_none h2) hk
      refine h.frame rfl ?_ ?_ (by simp) (by simp)
      · intro r hr
        by_cases hrk : r = k
        · exact Or.inr (by rw [hrk])
        · exact Or.inl ((List.mem_erase_of_ne hrk).2 hr)
      · intro r hr
        simp only [get_set] at hr
        split at hr
        · cases hr
        · rename_i hne
          refine ⟨hr, by simp, ?_⟩
          intro e
          cases e
          exact hne ⟨rfl, hlt⟩
    rw [Synchronized.exec] at hx
    split at hx
    · rename_i hk
      split at hx
      · simp only [Option.some.injEq] at hx
        exact key t (by rw [hk]; simp) hx.symm
      · cases hx
    · rename_i hk
      split at hx
      · simp only [Option.some.injEq] at hx
        exact key t (by rw [hk]; simp) hx.symm
      · cases hx
    · cases hx

theorem serverInv_run {n : Nat} : ∀ {acts rest : List Act} {s t : State}, ServerInv n acts s → run n s rest = some t →
    ServerInv n (acts ++ rest) t
  | acts, [], s, t, hi, h => by
    cases h
    rwa [List.append_nil]
  | acts, a :: rest, s, t, hi, h => by
    rw [run, Option.bind_eq_some_iff] at h
    obtain ⟨u, h1, h2⟩ := h
    have := serverInv_run (hi.exec h1) h2
    rwa [List.append_assoc, List.singleton_append] at this

theorem clientInv_run {n : Nat} : ∀ {acts rest : List Act} {s t : State}, ClientInv acts s → run n s rest = some t →
    ClientInv (acts ++ rest) t
  | acts, [], s, t, hi, h => by
    cases h
    rwa [List.append_nil]
  | acts, a :: rest, s, t, hi, h => by
    rw [run, Option.bind_eq_some_iff] at h
    obtain ⟨u, h1, h2⟩ := h
    have := clientInv_run (hi.exec h1) h2
    rwa [List.append_assoc, List.singleton_append] at this

theorem serverInv_init (n m : Nat) : ServerInv n [] (init n m []) := by
  refine ⟨?_, ?_, ?_⟩
  · intro i hi
    simp only [init, List.getElem?_replicate] at hi
    split at hi <;> cases hi
  · intro i hi; simp [init] at hi
  · intro r l hl
    simp only [init, List.getElem?_replicate] at hl
    split at hl <;> cases hl

theorem clientInv_init (n m : Nat) (files : List Nat) : ClientInv [] (init n m files) := by
  refine ⟨by simp, by simp, by simp, by simp, ?_, ?_⟩
  · intro i hi
    simp only [init, List.getElem?_replicate] at hi
    split at hi <;> cases hi
  · intro i hi
    simp only [init, List.getElem?_replicate] at hi
    split at hi <;> rcases hi with hi | hi | hi <;> cases hi

theorem posted_exec {n : Nat} {s t : State} {x : Act} {i : Nat} (h : exec n s x = some t) (hx : x ≠ .unlist i) :
    (i ∈ s.serverFiles → i ∈ t.serverFiles) ∧ (x = .post i → i ∈ t.serverFiles) := by
  cases x with
  | unlist k =>
    have hk : i ≠ k := fun e => hx (by rw [e])
    rw [exec] at h
    split at h
    · cases h
      exact ⟨fun hm => (List.mem_erase_of_ne hk).2 hm, fun e => by cases e⟩
    · cases h
  | post k =>
    rw [exec] at h
    split at h
    · split at h
      · rename_i hk
        cases h
        exact ⟨id, fun e => by cases e; exact hk⟩
      · cases h
        exact ⟨fun hm => List.mem_cons_of_mem _ hm, fun e => by cases e; exact List.mem_cons_self⟩
    · cases h
  | _ =>
    rw [exec] at h
    refine ⟨fun hm => ?_, fun e => by cases e⟩
    repeat' split at h
    all_goals first | (cases h; exact hm) | cases h

theorem posted_run {n : Nat} {i : Nat} : ∀ {acts : List Act} {s t : State}, run n s acts = some t →
    Act.post i ∈ acts → Act.unlist i ∉ acts → i ∈ t.serverFiles := by
  have keep : ∀ (acts : List Act) (s t : State), run n s acts = some t → i ∈ s.serverFiles → Act.unlist i ∉ acts → i ∈ t.serverFiles := by
    intro acts
    induction acts with
    | nil => intro s t h hm _; cases h; exact hm
    | cons x acts ih =>
      intro s t h hm hu
      rw [run, Option.bind_eq_some_iff] at h
      obtain ⟨u, h1, h2⟩ := h
      exact ih u t h2 ((posted_exec h1 (fun e => hu (by rw [e]; exact List.mem_cons_self))).1 hm) (fun e => hu (List.mem_cons_of_mem _ e))
  intro acts
  induction acts with
  | nil => intro s t _ hp; cases hp
  | cons x acts ih =>
    intro s t h hp hu
    rw [run, Option.bind_eq_some_iff] at h
    obtain ⟨u, h1, h2⟩ := h
    have hu' : Act.unlist i ∉ acts := fun e => hu (List.mem_cons_of_mem _ e)
    rcases List.mem_cons.1 hp with e | e
    · exact keep acts u t h2 ((posted_exec h1 (fun e => hu (by rw [e]; exact List.mem_cons_self))).2 e.symm) hu'
    · exact ih h2 e hu'

/-- All servers in the list are found. -/
theorem see_all {n r : Nat} : ∀ {l : List Nat} {s : State} {seen : List Nat}, s.clients[r]? = some (.opened seen) →
    (∀ i ∈ l, i < n ∧ i ∈ s.serverFiles) → ∃ t, run n s (l.map (Act.see r)) = some t ∧
      ∃ seen', t.clients[r]? = some (.opened seen') ∧ (∀ i ∈ l, i ∈ seen') ∧ ∀ i ∈ seen, i ∈ seen'
  | [], s, seen, hc, _ => ⟨s, rfl, seen, hc, fun _ h => absurd h List.not_mem_nil, fun _ h => h⟩
  | i :: l, s, seen, hc, hl => by
    have hi := hl i List.mem_cons_self
    have hlt : r < s.clients.length := by
      rcases Nat.lt_or_ge r s.clients.length with h2 | h2
      · exact h2
      · rw [List.getElem?_eq_none h2] at hc; cases hc
    obtain ⟨t, h1, seen', h2, h3, h4⟩ := see_all (n := n) (r := r) (l := l) (s := { s with clients := s.clients.set r (.opened (i :: seen)) })
      (seen := i :: seen) (by simp [hlt]) (fun j hj => hl j (List.mem_cons_of_mem _ hj))
    refine ⟨t, ?_, seen', h2, ?_, fun j hj => h4 j (List.mem_cons_of_mem _ hj)⟩
    · rw [List.map_cons, run, exec]
      simp only [hc]
      rw [if_pos hi]
      exact h1
    · intro j hj
      rcases List.mem_cons.1 hj with rfl | hj
      · exact h4 j List.mem_cons_self
      · exact h3 j hj

end DeepGNN.Synchronized
