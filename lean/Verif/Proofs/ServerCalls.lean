import Verif.Spec.ServerCalls

/-
Invariant of the server.
-/

namespace DeepGNN.Calls

variable {ρ α σ : Type} {svc : σ → Method → ρ → σ × α × Status} {σ0 : σ} {Q : Nat}

theorem count_map_erase {β : Type} [BEq β] [LawfulBEq β] (f : β → Nat) {l : List β} {e : β} (h : e ∈ l) (x : Nat) :
    ((l.erase e).map f).count x + (if f e = x then 1 else 0) = (l.map f).count x := by
  rw [((List.perm_cons_erase h).map f).count_eq x, List.map_cons, List.count_cons]
  simp

theorem count_erase_add {l : List Nat} {h : Nat} (hm : h ∈ l) (x : Nat) :
    (l.erase h).count x + (if h = x then 1 else 0) = l.count x := by
  have := count_map_erase id hm x
  simpa using this

/-- The request of a call object that is not answered yet. -/
def reqOf (heap : Nat → Option (Call ρ)) (h : Nat) : Option (Req ρ) :=
  match heap h with
  | some c => if c.status = .process then c.request else none
  | none => none

/-- The requests handed to call objects and not answered yet. -/
def inflight (s : State ρ α σ) : List (Req ρ) :=
  (s.events.map (·.2.1) ++ s.running.map (·.2)).filterMap (reqOf s.heap)

theorem reqOf_upd_ne {heap : Nat → Option (Call ρ)} {h k : Nat} (v : Option (Call ρ)) (hk : k ≠ h) :
    reqOf (upd heap h v) k = reqOf heap k := by
  simp [reqOf, upd, hk]

theorem filterMap_upd {heap : Nat → Option (Call ρ)} {h : Nat} (v : Option (Call ρ)) {l : List Nat} (hl : h ∉ l) :
    l.filterMap (reqOf (upd heap h v)) = l.filterMap (reqOf heap) := by
  induction l with
  | nil => rfl
  | cons k l ih =>
    have hk : k ≠ h := fun e => hl (by simp [e])
    rw [List.filterMap_cons, List.filterMap_cons, reqOf_upd_ne v hk, ih fun hm => hl (by simp [hm])]

/-- The state of the service after some requests. -/
def stateAfter (svc : σ → Method → ρ → σ × α × Status) : σ → List (Req ρ) → σ
  | s, [] => s
  | s, r :: rs => stateAfter svc (svc s r.method r.payload).1 rs

theorem stateAfter_snoc (s : σ) (rs : List (Req ρ)) (r : Req ρ) :
    stateAfter svc s (rs ++ [r]) = (svc (stateAfter svc s rs) r.method r.payload).1 := by
  induction rs generalizing s with
  | nil => rfl
  | cons x rs ih => exact ih _

theorem sequential_snoc (s : σ) (rs : List (Req ρ)) (r : Req ρ) :
    Spec.sequential svc s (rs ++ [r]) =
      Spec.sequential svc s rs ++ [(r, (svc (stateAfter svc s rs) r.method r.payload).2)] := by
  induction rs generalizing s with
  | nil => rfl
  | cons x rs ih => simp only [List.cons_append, Spec.sequential, ih, stateAfter]

/-- The status sent to the client. -/
def sentStatus (x : Req ρ × α × Status) : Req ρ × α × Status :=
  (x.1, x.2.1, if forwards x.1.method then x.2.2 else 0)

structure Inv (svc : σ → Method → ρ → σ × α × Status) (σ0 : σ) (Q : Nat) (s : State ρ α σ) : Prop where
  cnt : ∀ h, s.registered.count h + (s.events.map (·.2.1)).count h + (s.running.map (·.2)).count h +
    s.finishing.count h = (s.heap h).isSome.toNat
  fresh : ∀ h, s.next ≤ h → s.heap h = none
  reg : ∀ h ∈ s.registered, ∃ c, s.heap h = some c ∧ c.status = .process ∧ c.request = none
  ev : ∀ e ∈ s.events, ∃ c, s.heap e.2.1 = some c ∧ c.queue = e.1 ∧ (c.status = .finish ∨ (c.status = .process ∧
    ((e.2.2 = true ∧ c.request ≠ none) ∨ (e.2.2 = false ∧ c.request = none ∧ s.shutdown = true))))
  run : ∀ x ∈ s.running, ∃ c, s.heap x.2 = some c ∧ c.queue = x.1 ∧ c.status = .process ∧ c.request ≠ none
  fin : ∀ h ∈ s.finishing, ∃ c, s.heap h = some c ∧ c.status = .finish
  queue : ∀ h c, s.heap h = some c → c.queue < Q
  method : ∀ h c r, s.heap h = some c → c.request = some r → r.method = c.method
  bad : s.bad = false
  closed : s.closed = true → s.shutdown = true ∧ s.registered = [] ∧ s.running = [] ∧ s.finishing = [] ∧
    ∀ e ∈ s.events, e.2.2 = true → ∀ c, s.heap e.2.1 = some c → c.status = .finish
  avail : s.shutdown = false → ∀ q < Q, ∀ m, ∃ h c, s.heap h = some c ∧ c.queue = q ∧ c.method = m ∧
    c.status = .process ∧ (h ∈ s.registered ∨ (q, h, true) ∈ s.events)
  ids : ∀ i (r : Req ρ), s.arrived[i]? = some r → r.id = i
  known : ∀ r, r ∈ s.pending ∨ r ∈ inflight s ∨ r ∈ s.replies.map (·.1) → r ∈ s.arrived
  once : ∀ i < s.arrived.length, (s.pending.map (·.id)).count i + ((inflight s).map (·.id)).count i +
    (s.replies.map (·.1.id)).count i = 1
  state : s.svc = stateAfter svc σ0 (s.replies.map (·.1))
  log : s.replies = (Spec.sequential svc σ0 (s.replies.map (·.1))).map sentStatus
  exited : ∀ q ∈ s.exited, q < Q ∧ s.closed = true ∧ ∀ e ∈ s.events, e.1 ≠ q
  exitedOnce : s.exited.Nodup

theorem isSome_upd (heap : Nat → Option (Call ρ)) (h : Nat) (c : Call ρ) {c0 : Call ρ} (hc : heap h = some c0) (k : Nat) :
    (upd heap h (some c) k).isSome = (heap k).isSome := by
  by_cases hk : k = h
  · subst hk; simp [upd, hc]
  · simp [upd, hk]

theorem upd_self {β : Type} (f : Nat → β) (h : Nat) (v : β) : upd f h v h = v := by simp [upd]

theorem upd_ne {β : Type} (f : Nat → β) {h k : Nat} (v : β) (hk : k ≠ h) : upd f h v k = f k := by simp [upd, hk]

/-- A call object is in one place only. -/
theorem Inv.only {s : State ρ α σ} (hs : Inv svc σ0 Q s) (h : Nat) :
    s.registered.count h + (s.events.map (·.2.1)).count h + (s.running.map (·.2)).count h + s.finishing.count h ≤ 1 := by
  rw [hs.cnt]; exact Bool.toNat_le _

theorem inv_arrive {s : State ρ α σ} (hs : Inv svc σ0 Q s) (m : Method) (p : ρ) :
    Inv svc σ0 Q { s with pending := s.pending ++ [⟨s.arrived.length, m, p⟩],
                          arrived := s.arrived ++ [⟨s.arrived.length, m, p⟩] } := by
  refine { hs with ids := ?_, known := ?_, once := ?_ }
  · intro i r hi
    dsimp only at hi
    rw [List.getElem?_append] at hi
    split at hi
    · exact hs.ids i r hi
    · rename_i hlt
      have hlt := Nat.le_of_not_lt hlt
      match hj : i - s.arrived.length with
      | 0 =>
        rw [hj] at hi
        simp at hi
        rw [← hi]; dsimp only; omega
      | j + 1 => rw [hj] at hi; simp at hi
  · intro r hr
    simp only [List.mem_append, List.mem_singleton] at hr ⊢
    rcases hr with (hr | hr) | hr
    · exact Or.inl (hs.known r (Or.inl hr))
    · exact Or.inr hr
    · exact Or.inl (hs.known r (Or.inr hr))
  · intro i hi
    have hfl : inflight { s with pending := s.pending ++ [⟨s.arrived.length, m, p⟩],
                                 arrived := s.arrived ++ [⟨s.arrived.length, m, p⟩] } = inflight s := rfl
    rw [hfl]
    simp only [List.length_append, List.length_singleton] at hi
    simp only [List.map_append, List.count_append, List.map_cons, List.map_nil, List.count_cons, List.count_nil]
    have hlt : ∀ r ∈ s.arrived, r.id < s.arrived.length := by
      intro r hr
      obtain ⟨j, hj⟩ := List.mem_iff_getElem?.1 hr
      rw [hs.ids j r hj]
      exact (List.getElem?_eq_some_iff.1 hj).1
    by_cases he : i = s.arrived.length
    · subst he
      have h1 : (s.pending.map (·.id)).count s.arrived.length = 0 := by
        rw [List.count_eq_zero]
        intro hm
        obtain ⟨r, hr, hri⟩ := List.mem_map.1 hm
        have := hlt r (hs.known r (Or.inl hr))
        omega
      have h2 : ((inflight s).map (·.id)).count s.arrived.length = 0 := by
        rw [List.count_eq_zero]
        intro hm
        obtain ⟨r, hr, hri⟩ := List.mem_map.1 hm
        have := hlt r (hs.known r (Or.inr (Or.inl hr)))
        omega
      have h3 : (s.replies.map (·.1.id)).count s.arrived.length = 0 := by
        rw [List.count_eq_zero]
        intro hm
        obtain ⟨x, hr, hri⟩ := List.mem_map.1 hm
        have := hlt x.1 (hs.known x.1 (Or.inr (Or.inr (List.mem_map.2 ⟨x, hr, rfl⟩))))
        omega
      rw [h1, h2, h3]
      simp
    · have := hs.once i (by omega)
      have hne : (s.arrived.length == i) = false := by simp; omega
      rw [hne]
      simp only [Bool.false_eq_true, if_false]
      omega

theorem eraseIdx_cons_perm {β : Type} {l : List β} {i : Nat} {x : β} (h : l[i]? = some x) : l.Perm (x :: l.eraseIdx i) := by
  induction l generalizing i with
  | nil => simp at h
  | cons y l ih =>
    match i with
    | 0 =>
      simp at h
      subst h
      exact List.Perm.refl _
    | i + 1 =>
      simp at h
      rw [List.eraseIdx_cons_succ]
      exact ((ih h).cons y).trans (List.Perm.swap _ _ _)

theorem inv_deliver {s : State ρ α σ} (hs : Inv svc σ0 Q s) {h i : Nat} {c : Call ρ} {r : Req ρ}
    (hc : s.heap h = some c) (hr : s.pending[i]? = some r) (hsh : s.shutdown = false) (hreg : h ∈ s.registered)
    (hm : c.method = r.method) :
    Inv svc σ0 Q { s with
          pending := s.pending.eraseIdx i
          registered := s.registered.erase h
          heap := upd s.heap h (some { c with request := some r })
          events := s.events ++ [(c.queue, h, true)] } := by
  have honly := hs.only h
  have hpos := List.count_pos_iff.2 hreg
  have hne : h ∉ s.events.map (·.2.1) := List.count_eq_zero.1 (by omega)
  have hnr : h ∉ s.running.map (·.2) := List.count_eq_zero.1 (by omega)
  have hnf : h ∉ s.finishing := List.count_eq_zero.1 (by omega)
  have her : h ∉ s.registered.erase h := by
    have := count_erase_add hreg h
    rw [if_pos rfl] at this
    exact List.count_eq_zero.1 (by omega)
  obtain ⟨c', hc', hst, hrq⟩ := hs.reg h hreg
  obtain rfl : c = c' := by rw [hc] at hc'; exact Option.some.inj hc'
  have hcl : s.closed = false := by
    cases hcl : s.closed with
    | false => rfl
    | true => have := (hs.closed hcl).1; rw [hsh] at this; cases this
  have hperm : (inflight { s with
          pending := s.pending.eraseIdx i
          registered := s.registered.erase h
          heap := upd s.heap h (some { c with request := some r })
          events := s.events ++ [(c.queue, h, true)] }).Perm (r :: inflight s) := by
    have e1 : reqOf (upd s.heap h (some { c with request := some r })) h = some r := by
      simp [reqOf, upd, hst]
    unfold inflight
    dsimp only
    rw [List.map_append, List.map_cons, List.map_nil, List.filterMap_append, List.filterMap_append,
      List.filterMap_append, filterMap_upd _ hne, filterMap_upd _ hnr, List.filterMap_cons, e1, List.filterMap_nil,
      List.append_assoc]
    exact List.perm_middle
  have hpp := eraseIdx_cons_perm hr
  refine { hs with cnt := ?_, fresh := ?_, reg := ?_, ev := ?_, run := ?_, fin := ?_, queue := ?_, method := ?_, closed := ?_,
                   avail := ?_, known := ?_, once := ?_, exited := ?_ }
  · intro k
    dsimp only
    rw [isSome_upd _ _ _ hc, ← hs.cnt k]
    have := count_erase_add hreg k
    simp only [List.map_append, List.count_append, List.map_cons, List.map_nil, List.count_cons, List.count_nil, beq_iff_eq]
    omega
  · intro k hk
    dsimp only at hk ⊢
    have : k ≠ h := by
      intro e; subst e; rw [hs.fresh k hk] at hc; cases hc
    rw [upd_ne _ _ this]
    exact hs.fresh k hk
  · intro k hk
    dsimp only at hk ⊢
    have hkh : k ≠ h := by intro e; subst e; exact her hk
    rw [upd_ne _ _ hkh]
    exact hs.reg k (List.mem_of_mem_erase hk)
  · intro e he
    dsimp only at he ⊢
    rcases List.mem_append.1 he with he | he
    · have hkh : e.2.1 ≠ h := by intro e'; exact hne (List.mem_map.2 ⟨e, he, e'⟩)
      rw [upd_ne _ _ hkh]
      exact hs.ev e he
    · rw [List.mem_singleton.1 he]
      exact ⟨_, upd_self _ _ _, rfl, Or.inr ⟨hst, Or.inl ⟨rfl, by simp⟩⟩⟩
  · intro x hx
    dsimp only at hx ⊢
    have hkh : x.2 ≠ h := by intro e'; exact hnr (List.mem_map.2 ⟨x, hx, e'⟩)
    rw [upd_ne _ _ hkh]
    exact hs.run x hx
  · intro k hk
    dsimp only at hk ⊢
    have hkh : k ≠ h := by intro e; subst e; exact hnf hk
    rw [upd_ne _ _ hkh]
    exact hs.fin k hk
  · intro k d hd
    dsimp only at hd
    by_cases hkh : k = h
    · subst hkh
      rw [upd_self] at hd
      rw [← Option.some.inj hd]
      exact hs.queue k c hc
    · rw [upd_ne _ _ hkh] at hd
      exact hs.queue k d hd
  · intro k d t hd ht
    dsimp only at hd
    by_cases hkh : k = h
    · subst hkh
      rw [upd_self] at hd
      rw [← Option.some.inj hd] at ht ⊢
      rw [← Option.some.inj ht]
      exact hm.symm
    · rw [upd_ne _ _ hkh] at hd
      exact hs.method k d t hd ht
  · intro h'
    dsimp only at h'
    rw [hcl] at h'; cases h'
  · intro _ q hq m
    obtain ⟨k, d, hd, h1, h2, h3, h4⟩ := hs.avail hsh q hq m
    dsimp only
    by_cases hkh : k = h
    · subst hkh
      obtain rfl : c = d := by rw [hc] at hd; exact Option.some.inj hd
      exact ⟨k, _, upd_self _ _ _, h1, h2, h3, Or.inr (by rw [h1]; simp)⟩
    · refine ⟨k, d, by rw [upd_ne _ _ hkh]; exact hd, h1, h2, h3, ?_⟩
      rcases h4 with h4 | h4
      · exact Or.inl ((List.mem_erase_of_ne hkh).2 h4)
      · exact Or.inr (List.mem_append_left _ h4)
  · intro t ht
    dsimp only at ht ⊢
    rcases ht with ht | ht | ht
    · exact hs.known t (Or.inl (hpp.mem_iff.2 (List.mem_cons_of_mem _ ht)))
    · rcases List.mem_cons.1 (hperm.mem_iff.1 ht) with ht | ht
      · exact hs.known t (Or.inl (hpp.mem_iff.2 (by rw [ht]; exact List.mem_cons_self)))
      · exact hs.known t (Or.inr (Or.inl ht))
    · exact hs.known t (Or.inr (Or.inr ht))
  · intro j hj
    have h1 := hs.once j hj
    have h2 := (hpp.map (·.id)).count_eq j
    rw [(hperm.map (·.id)).count_eq j]
    dsimp only
    simp only [List.map_cons, List.count_cons] at h2 ⊢
    omega
  · intro q hq
    have := (hs.exited q hq).2.1
    rw [hcl] at this; cases this

/-- An event is taken and its call object is freed. -/
theorem inv_free {s : State ρ α σ} (hs : Inv svc σ0 Q s) {e : Nat × Nat × Bool} {c : Call ρ} (he : e ∈ s.events)
    (hc : s.heap e.2.1 = some c) (hreq : reqOf s.heap e.2.1 = none) (hav : c.status = .finish ∨ s.shutdown = true) :
    Inv svc σ0 Q { s with events := s.events.erase e, heap := upd s.heap e.2.1 none } := by
  have honly := hs.only e.2.1
  have hpos := List.count_pos_iff.2 (List.mem_map.2 ⟨e, he, rfl⟩ : e.2.1 ∈ s.events.map (·.2.1))
  have hng : e.2.1 ∉ s.registered := List.count_eq_zero.1 (by omega)
  have hnr : e.2.1 ∉ s.running.map (·.2) := List.count_eq_zero.1 (by omega)
  have hnf : e.2.1 ∉ s.finishing := List.count_eq_zero.1 (by omega)
  have her : e.2.1 ∉ (s.events.erase e).map (·.2.1) := by
    have := count_map_erase (fun x : Nat × Nat × Bool => x.2.1) he e.2.1
    rw [if_pos rfl] at this
    exact List.count_eq_zero.1 (by omega)
  have hperm : (inflight { s with events := s.events.erase e, heap := upd s.heap e.2.1 none }).Perm (inflight s) := by
    unfold inflight
    dsimp only
    rw [List.filterMap_append, List.filterMap_append, filterMap_upd _ her, filterMap_upd _ hnr]
    refine List.Perm.append_right _ ?_
    have := ((List.perm_cons_erase he).map (·.2.1)).filterMap (reqOf s.heap)
    rw [List.map_cons, List.filterMap_cons, hreq] at this
    exact this.symm
  have hsome : ∀ k d, upd s.heap e.2.1 none k = some d → k ≠ e.2.1 ∧ s.heap k = some d := by
    intro k d hd
    by_cases hk : k = e.2.1
    · rw [hk, upd_self] at hd; cases hd
    · rw [upd_ne _ _ hk] at hd; exact ⟨hk, hd⟩
  refine { hs with cnt := ?_, fresh := ?_, reg := ?_, ev := ?_, run := ?_, fin := ?_, queue := ?_, method := ?_, closed := ?_,
                   avail := ?_, known := ?_, once := ?_, exited := ?_ }
  · intro k
    dsimp only
    have h1 := count_map_erase (fun x : Nat × Nat × Bool => x.2.1) he k
    have h2 := hs.cnt k
    by_cases hk : k = e.2.1
    · subst hk
      rw [upd_self]
      simp only [Option.isSome_none, Bool.toNat_false]
      rw [if_pos rfl] at h1
      omega
    · rw [upd_ne _ _ hk]
      rw [if_neg (fun h => hk h.symm)] at h1
      omega
  · intro k hk
    dsimp only at hk ⊢
    by_cases hk' : k = e.2.1
    · subst hk'; exact upd_self _ _ _
    · rw [upd_ne _ _ hk']; exact hs.fresh k hk
  · intro k hk
    dsimp only at hk ⊢
    rw [upd_ne _ _ (by intro h; subst h; exact hng hk)]
    exact hs.reg k hk
  · intro x hx
    dsimp only at hx ⊢
    rw [upd_ne _ _ (fun h => her (List.mem_map.2 ⟨x, hx, h⟩))]
    exact hs.ev x (List.mem_of_mem_erase hx)
  · intro x hx
    dsimp only at hx ⊢
    rw [upd_ne _ _ (fun h => hnr (List.mem_map.2 ⟨x, hx, h⟩))]
    exact hs.run x hx
  · intro k hk
    dsimp only at hk ⊢
    rw [upd_ne _ _ (by intro h; subst h; exact hnf hk)]
    exact hs.fin k hk
  · intro k d hd
    exact hs.queue k d (hsome k d hd).2
  · intro k d t hd ht
    exact hs.method k d t (hsome k d hd).2 ht
  · intro h'
    obtain ⟨h1, h2, h3, h4, h5⟩ := hs.closed h'
    exact ⟨h1, h2, h3, h4, fun x hx hok d hd => h5 x (List.mem_of_mem_erase hx) hok d (hsome _ d hd).2⟩
  · intro hsh q hq m
    obtain ⟨k, d, hd, h1, h2, h3, h4⟩ := hs.avail hsh q hq m
    have hk : k ≠ e.2.1 := by
      intro hk
      subst hk
      rw [hc] at hd
      obtain rfl := Option.some.inj hd
      rcases hav with hav | hav
      · rw [hav] at h3; cases h3
      · dsimp only at hsh; rw [hav] at hsh; cases hsh
    refine ⟨k, d, by dsimp only; rw [upd_ne _ _ hk]; exact hd, h1, h2, h3, ?_⟩
    rcases h4 with h4 | h4
    · exact Or.inl h4
    · refine Or.inr ((List.mem_erase_of_ne ?_).2 h4)
      intro h'; exact hk (by rw [← h'])
  · intro t ht
    rcases ht with ht | ht | ht
    · exact hs.known t (Or.inl ht)
    · exact hs.known t (Or.inr (Or.inl (hperm.mem_iff.1 ht)))
    · exact hs.known t (Or.inr (Or.inr ht))
  · intro j hj
    rw [(hperm.map (·.id)).count_eq j]
    exact hs.once j hj
  · intro q hq
    obtain ⟨h1, h2, h3⟩ := hs.exited q hq
    exact ⟨h1, h2, fun x hx => h3 x (List.mem_of_mem_erase hx)⟩

/-- A new call object is registered. -/
theorem inv_construct {s : State ρ α σ} (hs : Inv svc σ0 Q s) (hcl : s.closed = false) {q : Nat} (hq : q < Q) (m : Method) :
    Inv svc σ0 Q (construct s q m) := by
  have hcons : construct s q m = { s with
      heap := upd s.heap s.next (some ⟨q, m, .process, none⟩)
      next := s.next + 1
      registered := s.registered ++ [s.next] } := by
    have : ∀ (f : Nat → Option (Call ρ)) n (a b : Option (Call ρ)), upd (upd f n a) n b = upd f n b := by
      intro f n a b; funext x; simp only [upd]; split <;> rfl
    simp only [construct, proceedCreate, hcl, Bool.false_eq_true, if_false, this]
  rw [hcons]
  have hnone := hs.fresh s.next (Nat.le_refl _)
  have h0 := hs.cnt s.next
  rw [hnone] at h0
  simp only [Option.isSome_none, Bool.toNat_false] at h0
  have hng : s.next ∉ s.registered := List.count_eq_zero.1 (by omega)
  have hne : s.next ∉ s.events.map (·.2.1) := List.count_eq_zero.1 (by omega)
  have hnr : s.next ∉ s.running.map (·.2) := List.count_eq_zero.1 (by omega)
  have hnf : s.next ∉ s.finishing := List.count_eq_zero.1 (by omega)
  have hfl : inflight { s with
      heap := upd s.heap s.next (some ⟨q, m, .process, none⟩)
      next := s.next + 1
      registered := s.registered ++ [s.next] } = inflight s := by
    unfold inflight
    dsimp only
    exact filterMap_upd _ (by simp only [List.mem_append, not_or]; exact ⟨hne, hnr⟩)
  refine { hs with cnt := ?_, fresh := ?_, reg := ?_, ev := ?_, run := ?_, fin := ?_, queue := ?_, method := ?_, closed := ?_,
                   avail := ?_, known := ?_, once := ?_, exited := ?_ }
  · intro k
    dsimp only
    have h2 := hs.cnt k
    simp only [List.count_append, List.count_cons, List.count_nil, beq_iff_eq]
    by_cases hk : k = s.next
    · subst hk
      rw [upd_self]
      simp only [Option.isSome_some, Bool.toNat_true, if_true]
      omega
    · rw [upd_ne _ _ hk, if_neg (fun h => hk h.symm)]
      omega
  · intro k hk
    dsimp only at hk ⊢
    rw [upd_ne _ _ (by omega)]
    exact hs.fresh k (by omega)
  · intro k hk
    dsimp only at hk ⊢
    rcases List.mem_append.1 hk with hk | hk
    · rw [upd_ne _ _ (by intro h; subst h; exact hng hk)]
      exact hs.reg k hk
    · rw [List.mem_singleton.1 hk]
      exact ⟨_, upd_self _ _ _, rfl, rfl⟩
  · intro x hx
    dsimp only at hx ⊢
    rw [upd_ne _ _ (fun h => hne (List.mem_map.2 ⟨x, hx, h⟩))]
    exact hs.ev x hx
  · intro x hx
    dsimp only at hx ⊢
    rw [upd_ne _ _ (fun h => hnr (List.mem_map.2 ⟨x, hx, h⟩))]
    exact hs.run x hx
  · intro k hk
    dsimp only at hk ⊢
    rw [upd_ne _ _ (by intro h; subst h; exact hnf hk)]
    exact hs.fin k hk
  · intro k d hd
    dsimp only at hd
    by_cases hk : k = s.next
    · rw [hk, upd_self] at hd
      rw [← Option.some.inj hd]
      exact hq
    · rw [upd_ne _ _ hk] at hd
      exact hs.queue k d hd
  · intro k d t hd ht
    dsimp only at hd
    by_cases hk : k = s.next
    · rw [hk, upd_self] at hd
      rw [← Option.some.inj hd] at ht
      cases ht
    · rw [upd_ne _ _ hk] at hd
      exact hs.method k d t hd ht
  · intro h'
    dsimp only at h'
    rw [hcl] at h'; cases h'
  · intro hsh q' hq' m'
    obtain ⟨k, d, hd, h1, h2, h3, h4⟩ := hs.avail hsh q' hq' m'
    have hk : k ≠ s.next := by intro h; rw [h, hnone] at hd; cases hd
    refine ⟨k, d, by dsimp only; rw [upd_ne _ _ hk]; exact hd, h1, h2, h3, ?_⟩
    exact h4.imp (fun h => List.mem_append_left _ h) id
  · intro t ht
    rw [hfl] at ht
    exact hs.known t ht
  · intro j hj
    rw [hfl]
    exact hs.once j hj
  · intro q hq
    have := (hs.exited q hq).2.1
    rw [hcl] at this; cases this

/-- A thread takes a request and begins to serve it. -/
theorem inv_begin {s : State ρ α σ} (hs : Inv svc σ0 Q s) {e : Nat × Nat × Bool} {c : Call ρ} (he : e ∈ s.events)
    (hc : s.heap e.2.1 = some c) (hst : c.status = .process) (hrq : c.request ≠ none) (hok : e.2.2 = true)
    (hav : s.shutdown = false → ∃ k ∈ s.registered, ∃ d, s.heap k = some d ∧ d.queue = c.queue ∧ d.method = c.method) :
    Inv svc σ0 Q { s with events := s.events.erase e, running := s.running ++ [(c.queue, e.2.1)] } := by
  have hperm : (inflight { s with events := s.events.erase e, running := s.running ++ [(c.queue, e.2.1)] }).Perm (inflight s) := by
    refine List.Perm.filterMap _ ?_
    dsimp only
    rw [List.map_append, List.map_cons, List.map_nil, ← List.append_assoc]
    refine (List.perm_append_singleton _ _).trans ?_
    rw [← List.cons_append]
    exact List.Perm.append_right _ ((List.perm_cons_erase he).map (fun x : Nat × Nat × Bool => x.2.1)).symm
  have hcl : s.closed = false := by
    cases hcl : s.closed with
    | false => rfl
    | true =>
      have := (hs.closed hcl).2.2.2.2 e he hok c hc
      rw [hst] at this; cases this
  refine { hs with cnt := ?_, ev := ?_, run := ?_, closed := ?_, avail := ?_, known := ?_, once := ?_, exited := ?_ }
  · intro k
    dsimp only
    rw [← hs.cnt k]
    have h1 := count_map_erase (fun x : Nat × Nat × Bool => x.2.1) he k
    simp only [List.map_append, List.count_append, List.map_cons, List.map_nil, List.count_cons, List.count_nil, beq_iff_eq]
    omega
  · intro x hx
    exact hs.ev x (List.mem_of_mem_erase hx)
  · intro x hx
    rcases List.mem_append.1 hx with hx | hx
    · exact hs.run x hx
    · rw [List.mem_singleton.1 hx]
      exact ⟨c, hc, rfl, hst, hrq⟩
  · intro h'
    dsimp only at h'
    rw [hcl] at h'; cases h'
  · intro hsh q hq m
    obtain ⟨k, d, hd, h1, h2, h3, h4⟩ := hs.avail hsh q hq m
    by_cases hk : k = e.2.1
    · subst hk
      rw [hc] at hd
      obtain rfl := Option.some.inj hd
      obtain ⟨k', hk', d', hd', h5, h6⟩ := hav hsh
      obtain ⟨d2, hd2, h7, _⟩ := hs.reg k' hk'
      obtain rfl : d' = d2 := by rw [hd'] at hd2; exact Option.some.inj hd2
      exact ⟨k', d', hd', h5.trans h1, h6.trans h2, h7, Or.inl hk'⟩
    · refine ⟨k, d, hd, h1, h2, h3, ?_⟩
      rcases h4 with h4 | h4
      · exact Or.inl h4
      · refine Or.inr ((List.mem_erase_of_ne ?_).2 h4)
        intro h'; exact hk (by rw [← h'])
  · intro t ht
    rcases ht with ht | ht | ht
    · exact hs.known t (Or.inl ht)
    · exact hs.known t (Or.inr (Or.inl (hperm.mem_iff.1 ht)))
    · exact hs.known t (Or.inr (Or.inr ht))
  · intro j hj
    rw [(hperm.map (·.id)).count_eq j]
    exact hs.once j hj
  · intro q hq
    have := (hs.exited q hq).2.1
    rw [hcl] at this; cases this

theorem inv_serve {s : State ρ α σ} (hs : Inv svc σ0 Q s) {q h : Nat} (hm : (q, h) ∈ s.running) :
    Inv svc σ0 Q (finishCall svc { s with running := s.running.erase (q, h) } h) := by
  obtain ⟨c, hc, hcq, hst, hrq⟩ := hs.run _ hm
  dsimp only at hc hcq
  obtain ⟨r, hr⟩ := Option.ne_none_iff_exists'.1 hrq
  have hmeth := hs.method h c r hc hr
  have hfc : finishCall svc { s with running := s.running.erase (q, h) } h = { s with
        running := s.running.erase (q, h)
        heap := upd s.heap h (some { c with status := .finish })
        finishing := s.finishing ++ [h]
        svc := (svc s.svc c.method r.payload).1
        replies := s.replies ++ [(r, (svc s.svc c.method r.payload).2.1,
          if forwards c.method then (svc s.svc c.method r.payload).2.2 else 0)] } := by
    simp only [finishCall, hc, hr]
  rw [hfc]
  have honly := hs.only h
  have hpos := List.count_pos_iff.2 (List.mem_map.2 ⟨_, hm, rfl⟩ : h ∈ s.running.map (·.2))
  have hng : h ∉ s.registered := List.count_eq_zero.1 (by omega)
  have hne : h ∉ s.events.map (·.2.1) := List.count_eq_zero.1 (by omega)
  have hnf : h ∉ s.finishing := List.count_eq_zero.1 (by omega)
  have her : h ∉ (s.running.erase (q, h)).map (·.2) := by
    have := count_map_erase (fun x : Nat × Nat => x.2) hm h
    rw [if_pos rfl] at this
    exact List.count_eq_zero.1 (by omega)
  have hcl : s.closed = false := by
    cases hcl : s.closed with
    | false => rfl
    | true => have := (hs.closed hcl).2.2.1; rw [this] at hm; cases hm
  have hperm : (inflight s).Perm (r :: ((s.events.map (·.2.1) ++ (s.running.erase (q, h)).map (·.2)).filterMap
      (reqOf (upd s.heap h (some { c with status := .finish }))))) := by
    rw [filterMap_upd _ (by simp only [List.mem_append, not_or]; exact ⟨hne, her⟩)]
    have hq : reqOf s.heap h = some r := by simp [reqOf, hc, hst, hr]
    have h1 : (s.events.map (·.2.1) ++ s.running.map (·.2)).Perm (h :: (s.events.map (·.2.1) ++ (s.running.erase (q, h)).map (·.2))) :=
      (List.Perm.append_left _ ((List.perm_cons_erase hm).map (·.2))).trans List.perm_middle
    have := h1.filterMap (reqOf s.heap)
    rw [List.filterMap_cons, hq] at this
    exact this
  have hnew : ∀ k d, upd s.heap h (some { c with status := .finish }) k = some d →
      (k = h ∧ d = { c with status := .finish }) ∨ (k ≠ h ∧ s.heap k = some d) := by
    intro k d hd
    by_cases hk : k = h
    · rw [hk, upd_self] at hd; exact Or.inl ⟨hk, (Option.some.inj hd).symm⟩
    · rw [upd_ne _ _ hk] at hd; exact Or.inr ⟨hk, hd⟩
  refine { hs with cnt := ?_, fresh := ?_, reg := ?_, ev := ?_, run := ?_, fin := ?_, queue := ?_, method := ?_, closed := ?_,
                   avail := ?_, known := ?_, once := ?_, state := ?_, log := ?_, exited := ?_ }
  · intro k
    dsimp only
    rw [isSome_upd _ _ _ hc, ← hs.cnt k]
    have h1 := count_map_erase (fun x : Nat × Nat => x.2) hm k
    simp only [List.count_append, List.count_cons, List.count_nil, beq_iff_eq]
    dsimp only at h1
    omega
  · intro k hk
    dsimp only at hk ⊢
    rw [upd_ne _ _ (by intro h'; subst h'; rw [hs.fresh k hk] at hc; cases hc)]
    exact hs.fresh k hk
  · intro k hk
    dsimp only at hk ⊢
    rw [upd_ne _ _ (by intro h'; subst h'; exact hng hk)]
    exact hs.reg k hk
  · intro x hx
    dsimp only at hx ⊢
    rw [upd_ne _ _ (fun h' => hne (List.mem_map.2 ⟨x, hx, h'⟩))]
    exact hs.ev x hx
  · intro x hx
    dsimp only at hx ⊢
    rw [upd_ne _ _ (fun h' => her (List.mem_map.2 ⟨x, hx, h'⟩))]
    exact hs.run x (List.mem_of_mem_erase hx)
  · intro k hk
    dsimp only at hk ⊢
    rcases List.mem_append.1 hk with hk1 | hk
    · rw [upd_ne _ _ (by intro h'; subst h'; exact hnf hk1)]
      exact hs.fin k hk1
    · rw [List.mem_singleton.1 hk]
      exact ⟨_, upd_self _ _ _, rfl⟩
  · intro k d hd
    rcases hnew k d hd with ⟨h1, h2⟩ | ⟨_, h2⟩
    · rw [h2]; exact hs.queue h c hc
    · exact hs.queue k d h2
  · intro k d t hd ht
    rcases hnew k d hd with ⟨h1, h2⟩ | ⟨_, h2⟩
    · rw [h2] at ht ⊢; exact hs.method h c t hc ht
    · exact hs.method k d t h2 ht
  · intro h'
    dsimp only at h'
    rw [hcl] at h'; cases h'
  · intro hsh q' hq' m'
    obtain ⟨k, d, hd, h1, h2, h3, h4⟩ := hs.avail hsh q' hq' m'
    have hk : k ≠ h := by
      intro h'
      subst h'
      rcases h4 with h4 | h4
      · exact hng h4
      · exact hne (List.mem_map.2 ⟨_, h4, rfl⟩)
    exact ⟨k, d, by dsimp only; rw [upd_ne _ _ hk]; exact hd, h1, h2, h3, h4⟩
  · intro t ht
    dsimp only at ht
    rcases ht with ht | ht | ht
    · exact hs.known t (Or.inl ht)
    · exact hs.known t (Or.inr (Or.inl (hperm.mem_iff.2 (List.mem_cons_of_mem _ ht))))
    · rw [List.map_append, List.mem_append] at ht
      rcases ht with ht | ht
      · exact hs.known t (Or.inr (Or.inr ht))
      · rw [List.map_cons, List.map_nil, List.mem_singleton] at ht
        rw [ht]
        exact hs.known r (Or.inr (Or.inl (hperm.mem_iff.2 List.mem_cons_self)))
  · intro j hj
    have h1 := hs.once j hj
    have h2 := (hperm.map (·.id)).count_eq j
    unfold inflight
    dsimp only
    simp only [List.map_append, List.count_append, List.map_cons, List.map_nil, List.count_cons, List.count_nil] at h2 ⊢
    omega
  · dsimp only
    rw [List.map_append, List.map_cons, List.map_nil, stateAfter_snoc, ← hs.state, hmeth]
  · dsimp only
    rw [List.map_append, List.map_cons, List.map_nil, sequential_snoc, List.map_append, ← hs.log, ← hs.state]
    simp only [List.map_cons, List.map_nil, sentStatus, hmeth]
  · intro q hq
    have := (hs.exited q hq).2.1
    rw [hcl] at this; cases this

theorem inv_sent {s : State ρ α σ} (hs : Inv svc σ0 Q s) {h : Nat} {c : Call ρ} (hc : s.heap h = some c)
    (hm : h ∈ s.finishing) (ok : Bool) :
    Inv svc σ0 Q { s with finishing := s.finishing.erase h, events := s.events ++ [(c.queue, h, ok)] } := by
  obtain ⟨c', hc', hst⟩ := hs.fin h hm
  obtain rfl : c = c' := by rw [hc] at hc'; exact Option.some.inj hc'
  have hcl : s.closed = false := by
    cases hcl : s.closed with
    | false => rfl
    | true => have := (hs.closed hcl).2.2.2.1; rw [this] at hm; cases hm
  have hfl : inflight { s with finishing := s.finishing.erase h, events := s.events ++ [(c.queue, h, ok)] } = inflight s := by
    have : reqOf s.heap h = none := by simp [reqOf, hc, hst]
    unfold inflight
    dsimp only
    rw [List.map_append, List.map_cons, List.map_nil, List.filterMap_append, List.filterMap_append, List.filterMap_append,
      List.filterMap_cons, this, List.filterMap_nil, List.append_nil]
  refine { hs with cnt := ?_, ev := ?_, fin := ?_, closed := ?_, avail := ?_, known := ?_, once := ?_, exited := ?_ }
  · intro k
    dsimp only
    rw [← hs.cnt k]
    have h1 := count_erase_add hm k
    simp only [List.map_append, List.count_append, List.map_cons, List.map_nil, List.count_cons, List.count_nil, beq_iff_eq]
    omega
  · intro x hx
    rcases List.mem_append.1 hx with hx | hx
    · exact hs.ev x hx
    · rw [List.mem_singleton.1 hx]
      exact ⟨c, hc, rfl, Or.inl hst⟩
  · intro k hk
    exact hs.fin k (List.mem_of_mem_erase hk)
  · intro h'
    dsimp only at h'
    rw [hcl] at h'; cases h'
  · intro hsh q hq m
    obtain ⟨k, d, hd, h1, h2, h3, h4⟩ := hs.avail hsh q hq m
    exact ⟨k, d, hd, h1, h2, h3, h4.imp id (fun h' => List.mem_append_left _ h')⟩
  · intro t ht
    rw [hfl] at ht
    exact hs.known t ht
  · intro j hj
    rw [hfl]
    exact hs.once j hj
  · intro q hq
    have := (hs.exited q hq).2.1
    rw [hcl] at this; cases this

theorem inv_cancel {s : State ρ α σ} (hs : Inv svc σ0 Q s) {h : Nat} {c : Call ρ} (hc : s.heap h = some c)
    (hsh : s.shutdown = true) (hm : h ∈ s.registered) :
    Inv svc σ0 Q { s with registered := s.registered.erase h, events := s.events ++ [(c.queue, h, false)] } := by
  obtain ⟨c', hc', hst, hrq⟩ := hs.reg h hm
  obtain rfl : c = c' := by rw [hc] at hc'; exact Option.some.inj hc'
  have hcl : s.closed = false := by
    cases hcl : s.closed with
    | false => rfl
    | true => have := (hs.closed hcl).2.1; rw [this] at hm; cases hm
  have hfl : inflight { s with registered := s.registered.erase h, events := s.events ++ [(c.queue, h, false)] } = inflight s := by
    have : reqOf s.heap h = none := by simp [reqOf, hc, hrq]
    unfold inflight
    dsimp only
    rw [List.map_append, List.map_cons, List.map_nil, List.filterMap_append, List.filterMap_append, List.filterMap_append,
      List.filterMap_cons, this, List.filterMap_nil, List.append_nil]
  refine { hs with cnt := ?_, reg := ?_, ev := ?_, closed := ?_, avail := ?_, known := ?_, once := ?_, exited := ?_ }
  · intro k
    dsimp only
    rw [← hs.cnt k]
    have h1 := count_erase_add hm k
    simp only [List.map_append, List.count_append, List.map_cons, List.map_nil, List.count_cons, List.count_nil, beq_iff_eq]
    omega
  · intro k hk
    exact hs.reg k (List.mem_of_mem_erase hk)
  · intro x hx
    rcases List.mem_append.1 hx with hx | hx
    · exact hs.ev x hx
    · rw [List.mem_singleton.1 hx]
      exact ⟨c, hc, rfl, Or.inr ⟨hst, Or.inr ⟨rfl, hrq, hsh⟩⟩⟩
  · intro h'
    dsimp only at h'
    rw [hcl] at h'; cases h'
  · intro h'
    dsimp only at h'
    rw [hsh] at h'; cases h'
  · intro t ht
    rw [hfl] at ht
    exact hs.known t ht
  · intro j hj
    rw [hfl]
    exact hs.once j hj
  · intro q hq
    have := (hs.exited q hq).2.1
    rw [hcl] at this; cases this

theorem inv_take {s : State ρ α σ} (hs : Inv svc σ0 Q s) {e : Nat × Nat × Bool} (he : e ∈ s.events) :
    Inv svc σ0 Q (handle { s with events := s.events.erase e } e.2.1 e.2.2) := by
  obtain ⟨c, hc, hq, hcase⟩ := hs.ev e he
  have hfree : ∀ s' : State ρ α σ, s'.heap = s.heap → delete s' e.2.1 = { s' with heap := upd s.heap e.2.1 none } := by
    intro s' h'
    simp only [delete, h', hc]
  have hdel := hfree { s with events := s.events.erase e } rfl
  rcases hcase with hst | ⟨hst, ⟨hok, hrq⟩ | ⟨hok, hrq, hsh⟩⟩
  · have hh : handle { s with events := s.events.erase e } e.2.1 e.2.2 =
        { s with events := s.events.erase e, heap := upd s.heap e.2.1 none } := by
      unfold handle
      split
      · simp only [proceed, hc, hst, hdel]
      · exact hdel
    rw [hh]
    exact inv_free hs he hc (by simp [reqOf, hc, hst]) (Or.inl hst)
  · have hcl : s.closed = false := by
      cases hcl : s.closed with
      | false => rfl
      | true =>
        have := (hs.closed hcl).2.2.2.2 e he hok c hc
        rw [hst] at this; cases this
    have hlt := hs.queue _ c hc
    have hs' := inv_construct hs hcl hlt c.method
    have hcons : ∀ s' : State ρ α σ, s'.closed = false → construct s' c.queue c.method = { s' with
        heap := upd s'.heap s'.next (some ⟨c.queue, c.method, .process, none⟩)
        next := s'.next + 1
        registered := s'.registered ++ [s'.next] } := by
      have : ∀ (f : Nat → Option (Call ρ)) n (a b : Option (Call ρ)), upd (upd f n a) n b = upd f n b := by
        intro f n a b; funext x; simp only [upd]; split <;> rfl
      intro s' h'
      simp only [construct, proceedCreate, h', Bool.false_eq_true, if_false, this]
    have hh : handle { s with events := s.events.erase e } e.2.1 e.2.2 =
        { construct s c.queue c.method with
          events := (construct s c.queue c.method).events.erase e
          running := (construct s c.queue c.method).running ++ [(c.queue, e.2.1)] } := by
      unfold handle
      rw [if_pos hok]
      simp only [proceed, hc, hst]
      rw [hcons _ hcl, hcons { s with events := s.events.erase e } hcl]
    rw [hh]
    have hnone := hs.fresh s.next (Nat.le_refl _)
    have hne : e.2.1 ≠ s.next := by intro h'; rw [h', hnone] at hc; cases hc
    refine inv_begin hs' ?_ (c := c) ?_ hst hrq hok ?_
    · rw [hcons _ hcl]; exact he
    · rw [hcons _ hcl]; dsimp only; rw [upd_ne _ _ hne]; exact hc
    · intro _
      rw [hcons _ hcl]
      exact ⟨s.next, by simp, _, upd_self _ _ _, rfl, rfl⟩
  · have hh : handle { s with events := s.events.erase e } e.2.1 e.2.2 =
        { s with events := s.events.erase e, heap := upd s.heap e.2.1 none } := by
      unfold handle
      rw [if_neg (by rw [hok]; decide)]
      exact hdel
    rw [hh]
    exact inv_free hs he hc (by simp [reqOf, hc, hrq]) (Or.inr hsh)

theorem inv_step {s t : State ρ α σ} (hs : Inv svc σ0 Q s) {a : Action ρ} (ha : step svc Q s a = some t) : Inv svc σ0 Q t := by
  cases a with
  | arrive m p =>
    simp only [step] at ha
    split at ha
    · cases ha
    · rw [← Option.some.inj ha]; exact inv_arrive hs m p
  | deliver h i =>
    simp only [step] at ha
    split at ha
    · rename_i c r hc hr
      split at ha
      · rename_i hg
        rw [← Option.some.inj ha]
        exact inv_deliver hs hc hr hg.1 hg.2.1 hg.2.2
      · cases ha
    · cases ha
  | take e =>
    simp only [step] at ha
    split at ha
    · rename_i hg
      rw [← Option.some.inj ha]
      exact inv_take hs hg.1
    · cases ha
  | serve q h =>
    simp only [step] at ha
    split at ha
    · rename_i hg
      rw [← Option.some.inj ha]
      exact inv_serve hs hg
    · cases ha
  | sent h ok =>
    simp only [step] at ha
    split at ha
    · cases ha
    · rename_i c hc
      split at ha
      · rename_i hg
        rw [← Option.some.inj ha]
        exact inv_sent hs hc hg ok
      · cases ha
  | shutdown =>
    simp only [step] at ha
    split at ha
    · cases ha
    · rw [← Option.some.inj ha]
      refine { hs with ev := ?_, closed := ?_, avail := ?_ }
      · intro e he
        obtain ⟨c, h1, h2, h3⟩ := hs.ev e he
        refine ⟨c, h1, h2, h3.imp id fun h4 => ⟨h4.1, h4.2.imp id fun h5 => ⟨h5.1, h5.2.1, rfl⟩⟩⟩
      · intro h'
        exact ⟨rfl, (hs.closed h').2⟩
      · intro h'; cases h'
  | cancel h =>
    simp only [step] at ha
    split at ha
    · cases ha
    · rename_i c hc
      split at ha
      · rename_i hg
        rw [← Option.some.inj ha]
        exact inv_cancel hs hc hg.1 hg.2
      · cases ha
  | close =>
    simp only [step] at ha
    split at ha
    · rename_i hg
      obtain ⟨h1, h2, h3, h4, h5, h6⟩ := hg
      rw [← Option.some.inj ha]
      refine { hs with closed := ?_, exited := ?_ }
      · intro _
        refine ⟨h1, h3, h4, h5, ?_⟩
        intro e he hok c hc
        obtain ⟨c', hc', _, hcase⟩ := hs.ev e he
        obtain rfl : c = c' := by dsimp only at hc; rw [hc] at hc'; exact Option.some.inj hc'
        rcases hcase with hf | ⟨hf, _⟩
        · exact hf
        · exact absurd (by rw [hc']; exact congrArg some hf) (h6 e he hok)
      · intro q hq
        have := (hs.exited q hq).2.1
        rw [h2] at this; cases this
    · cases ha
  | exit q =>
    simp only [step] at ha
    split at ha
    · rename_i hg
      obtain ⟨h1, h2, h3, h4, h5⟩ := hg
      rw [← Option.some.inj ha]
      refine { hs with exited := ?_, exitedOnce := ?_ }
      · intro x hx
        rcases List.mem_append.1 hx with hx | hx
        · exact hs.exited x hx
        · rw [List.mem_singleton.1 hx]
          exact ⟨h1, h2, h4⟩
      · dsimp only
        rw [List.nodup_append]
        refine ⟨hs.exitedOnce, by simp, ?_⟩
        intro x hx y hy
        rw [List.mem_singleton.1 hy]
        intro h'; exact h3 (h' ▸ hx)
    · cases ha

/-! ### The constructor -/

theorem construct_open {s : State ρ α σ} (h : s.closed = false) (q : Nat) (m : Method) :
    construct s q m = { s with
      heap := upd s.heap s.next (some ⟨q, m, .process, none⟩)
      next := s.next + 1
      registered := s.registered ++ [s.next] } := by
  have : ∀ (f : Nat → Option (Call ρ)) n (a b : Option (Call ρ)), upd (upd f n a) n b = upd f n b := by
    intro f n a b; funext x; simp only [upd]; split <;> rfl
  simp only [construct, proceedCreate, h, Bool.false_eq_true, if_false, this]

theorem fold_construct (l : List (Nat × Method)) (hl : ∀ x ∈ l, x.1 < Q) :
    ∀ {s : State ρ α σ}, Inv svc σ0 Q s → s.closed = false → s.shutdown = true → s.events = [] →
      let t := l.foldl (fun s x => construct s x.1 x.2) s
      Inv svc σ0 Q t ∧ t.events = [] ∧ t.closed = false ∧ t.shutdown = true ∧ t.pending = s.pending ∧
      t.running = s.running ∧ t.finishing = s.finishing ∧ t.exited = s.exited ∧ t.arrived = s.arrived ∧
      t.replies = s.replies ∧
      t.registered.length = s.registered.length + l.length ∧ (∀ h ∈ s.registered, h ∈ t.registered ∧ t.heap h = s.heap h) ∧
      (∀ x ∈ l, ∃ h ∈ t.registered, ∃ c, t.heap h = some c ∧ c.queue = x.1 ∧ c.method = x.2) ∧
      l.foldl (fun s x => construct s x.1 x.2) { s with shutdown := false } = { t with shutdown := false } := by
  induction l with
  | nil =>
    intro s hs h1 h2 h3
    exact ⟨hs, h3, h1, h2, rfl, rfl, rfl, rfl, rfl, rfl, rfl, fun h hh => ⟨hh, rfl⟩, by simp, rfl⟩
  | cons x l ih =>
    intro s hs h1 h2 h3
    have hs' := inv_construct hs h1 (hl x (by simp)) x.2
    have hc := construct_open h1 x.1 x.2
    have e1 : (construct s x.1 x.2).closed = false := by rw [hc]; exact h1
    have e2 : (construct s x.1 x.2).shutdown = true := by rw [hc]; exact h2
    have e3 : (construct s x.1 x.2).events = [] := by rw [hc]; exact h3
    obtain ⟨a1, a2, a3, a4, a5, a6, a7, a8, a9, a10, a11, a12, a13, a14⟩ := ih (fun y hy => hl y (by simp [hy])) hs' e1 e2 e3
    dsimp only
    rw [List.foldl_cons, List.foldl_cons]
    have hc2 := construct_open (s := { s with shutdown := false }) h1 x.1 x.2
    have e4 : construct { s with shutdown := false } x.1 x.2 = { construct s x.1 x.2 with shutdown := false } := by
      rw [hc, hc2]
    rw [e4]
    have hnext := hs.fresh s.next (Nat.le_refl _)
    refine ⟨a1, a2, a3, a4, ?_, ?_, ?_, ?_, ?_, ?_, ?_, ?_, ?_, a14⟩
    · rw [a5, hc]
    · rw [a6, hc]
    · rw [a7, hc]
    · rw [a8, hc]
    · rw [a9, hc]
    · rw [a10, hc]
    · rw [a11, hc]; simp; omega
    · intro h hh
      have hne : h ≠ s.next := by
        intro e
        obtain ⟨c, hc', _⟩ := hs.reg h hh
        rw [e, hnext] at hc'; cases hc'
      obtain ⟨b1, b2⟩ := a12 h (by rw [hc]; simp [hh])
      exact ⟨b1, by rw [b2, hc]; exact upd_ne _ _ hne⟩
    · intro y hy
      rcases List.mem_cons.1 hy with hy | hy
      · subst hy
        obtain ⟨b1, b2⟩ := a12 s.next (by rw [hc]; simp)
        exact ⟨s.next, b1, _, by rw [b2, hc]; exact upd_self _ _ _, rfl, rfl⟩
      · exact a13 y hy

theorem inv_empty (svc : σ → Method → ρ → σ × α × Status) (σ0 : σ) (Q : Nat) :
    Inv svc σ0 Q { svc := σ0, shutdown := true } where
  cnt := by intro h; rfl
  fresh := fun _ _ => rfl
  reg := by intro h hh; cases hh
  ev := by intro h hh; cases hh
  run := by intro h hh; cases hh
  fin := by intro h hh; cases hh
  queue := by intro h c hc; cases hc
  method := by intro h c r hc; cases hc
  bad := rfl
  closed := by intro h; cases h
  avail := by intro h; cases h
  ids := by intro i r h; simp at h
  known := by
    intro r h
    rcases h with h | h | h <;> cases h
  once := by intro i hi; cases hi
  state := rfl
  log := rfl
  exited := by intro q hq; cases hq
  exitedOnce := List.nodup_nil

/-- The calls created by the constructor. -/
def created (Q : Nat) : List (Nat × Method) := (List.range Q).flatMap fun q => methods.map fun m => (q, m)

theorem mem_created {q : Nat} {m : Method} : (q, m) ∈ created Q ↔ q < Q := by
  simp only [created, List.mem_flatMap, List.mem_range, List.mem_map, Prod.mk.injEq]
  constructor
  · rintro ⟨a, ha, _, _, rfl, _⟩; exact ha
  · intro h
    exact ⟨q, h, m, by cases m <;> decide, rfl, rfl⟩

theorem length_created (Q : Nat) : (created Q).length = 15 * Q := by
  induction Q with
  | zero => rfl
  | succ Q ih =>
    unfold created at ih ⊢
    rw [List.range_succ, List.flatMap_append, List.length_append, ih]
    simp [methods]
    omega

theorem init_facts (svc : σ → Method → ρ → σ × α × Status) (σ0 : σ) (Q : Nat) :
    let t : State ρ α σ := init σ0 Q
    Inv svc σ0 Q t ∧ t.events = [] ∧ t.closed = false ∧ t.shutdown = false ∧ t.pending = [] ∧ t.running = [] ∧
      t.finishing = [] ∧ t.exited = [] ∧ t.arrived = [] ∧ t.replies = [] ∧ t.registered.length = 15 * Q := by
  obtain ⟨a1, a2, a3, a4, a5, a6, a7, a8, a9, a10, a11, a12, a13, a14⟩ :=
    fold_construct (created Q) (fun x hx => (mem_created (q := x.1) (m := x.2)).1 hx) (inv_empty svc σ0 Q) rfl rfl rfl
  have e : (init σ0 Q : State ρ α σ) =
      { (created Q).foldl (fun s x => construct s x.1 x.2) ({ svc := σ0, shutdown := true } : State ρ α σ) with
        shutdown := false } := a14
  rw [e]
  refine ⟨?_, a2, a3, rfl, a5, a6, a7, a8, a9, a10, ?_⟩
  · refine { a1 with ev := ?_, closed := ?_, avail := ?_ }
    · intro x hx
      dsimp only at hx
      rw [a2] at hx; cases hx
    · intro h
      dsimp only at h
      rw [a3] at h; cases h
    · intro _ q hq m
      obtain ⟨h, hh, c, hc, h1, h2⟩ := a13 (q, m) (mem_created.2 hq)
      obtain ⟨c', hc', h3, _⟩ := a1.reg h hh
      obtain rfl : c = c' := by rw [hc] at hc'; exact Option.some.inj hc'
      exact ⟨h, c, hc, h1, h2, h3, Or.inl hh⟩
  · dsimp only
    rw [a11, length_created]
    simp

/-! ### Runs -/

theorem run_cons (s : State ρ α σ) (a : Action ρ) (acts : List (Action ρ)) :
    run svc Q s (a :: acts) = (step svc Q s a).bind fun t => run svc Q t acts := rfl

theorem inv_run {acts : List (Action ρ)} {s t : State ρ α σ} (hs : Inv svc σ0 Q s) (h : run svc Q s acts = some t) :
    Inv svc σ0 Q t := by
  induction acts generalizing s with
  | nil => rw [← Option.some.inj (h : some s = some t)]; exact hs
  | cons a acts ih =>
    rw [run_cons] at h
    obtain ⟨u, hu, h⟩ := Option.bind_eq_some_iff.1 h
    exact ih (inv_step hs hu) h

theorem inv_reach {acts : List (Action ρ)} {s : State ρ α σ} (h : run svc Q (init σ0 Q) acts = some s) : Inv svc σ0 Q s :=
  inv_run (init_facts svc σ0 Q).1 h

theorem handle_arrived (s : State ρ α σ) (h : Nat) (ok : Bool) : (handle s h ok).arrived = s.arrived := by
  have hd : ∀ s' : State ρ α σ, (delete s' h).arrived = s'.arrived := by
    intro s'; unfold delete; split <;> rfl
  have hp : ∀ (s' : State ρ α σ) k c, (proceedCreate s' k c).arrived = s'.arrived := by
    intro s' k c; unfold proceedCreate; split <;> rfl
  unfold handle
  split
  · unfold proceed
    split
    · rfl
    · split
      · exact hp _ _ _
      · dsimp only [construct]; exact hp _ _ _
      · exact hd _
  · exact hd _

/-- The requests of a step. -/
theorem step_arrived {s t : State ρ α σ} {a : Action ρ} (h : step svc Q s a = some t) :
    t.arrived.map (fun r => (r.method, r.payload)) =
      s.arrived.map (fun r => (r.method, r.payload)) ++ Spec.sentRequests [a] := by
  cases a with
  | arrive m p =>
    simp only [step] at h
    split at h
    · cases h
    · rw [← Option.some.inj h]; simp [Spec.sentRequests]
  | take e =>
    simp only [step] at h
    split at h
    · rw [← Option.some.inj h, handle_arrived]; simp [Spec.sentRequests]
    · cases h
  | serve q k =>
    simp only [step] at h
    split at h
    · rw [← Option.some.inj h]
      unfold finishCall
      split
      · simp [Spec.sentRequests]
      · split <;> simp [Spec.sentRequests]
    · cases h
  | deliver k i =>
    simp only [step] at h
    split at h
    · split at h
      · rw [← Option.some.inj h]; simp [Spec.sentRequests]
      · cases h
    · cases h
  | sent k ok =>
    simp only [step] at h
    split at h
    · cases h
    · split at h
      · rw [← Option.some.inj h]; simp [Spec.sentRequests]
      · cases h
  | shutdown =>
    simp only [step] at h
    split at h
    · cases h
    · rw [← Option.some.inj h]; simp [Spec.sentRequests]
  | cancel k =>
    simp only [step] at h
    split at h
    · cases h
    · split at h
      · rw [← Option.some.inj h]; simp [Spec.sentRequests]
      · cases h
  | close =>
    simp only [step] at h
    split at h
    · rw [← Option.some.inj h]; simp [Spec.sentRequests]
    · cases h
  | exit q =>
    simp only [step] at h
    split at h
    · rw [← Option.some.inj h]; simp [Spec.sentRequests]
    · cases h

theorem run_arrived {acts : List (Action ρ)} {s t : State ρ α σ} (h : run svc Q s acts = some t) :
    t.arrived.map (fun r => (r.method, r.payload)) =
      s.arrived.map (fun r => (r.method, r.payload)) ++ Spec.sentRequests acts := by
  induction acts generalizing s with
  | nil => rw [← Option.some.inj (h : some s = some t)]; simp [Spec.sentRequests]
  | cons a acts ih =>
    rw [run_cons] at h
    obtain ⟨u, hu, h⟩ := Option.bind_eq_some_iff.1 h
    rw [ih h, step_arrived hu, List.append_assoc]
    congr 1
    unfold Spec.sentRequests
    rw [← List.filterMap_append]
    rfl

theorem reach_arrived {acts : List (Action ρ)} {s : State ρ α σ} (h : run svc Q (init σ0 Q) acts = some s) :
    s.arrived.map (fun r => (r.method, r.payload)) = Spec.sentRequests acts := by
  have := run_arrived h
  rw [(init_facts svc σ0 Q).2.2.2.2.2.2.2.2.1] at this
  simpa using this

/-! ### Every request once -/

theorem filterMap_range_get {β : Type} (l : List β) : (List.range l.length).filterMap (fun i => l[i]?) = l := by
  induction l with
  | nil => rfl
  | cons x l ih =>
    rw [List.length_cons, List.range_succ_eq_map, List.filterMap_cons]
    simp only [List.getElem?_cons_zero, List.filterMap_map]
    congr 1

theorem Inv.arrived_get {s : State ρ α σ} (hs : Inv svc σ0 Q s) {r : Req ρ} (hr : r ∈ s.arrived) : s.arrived[r.id]? = some r := by
  obtain ⟨j, hj⟩ := List.mem_iff_getElem?.1 hr
  rw [hs.ids j r hj]
  exact hj

theorem Inv.perm {s : State ρ α σ} (hs : Inv svc σ0 Q s) :
    (s.replies.map (·.1) ++ inflight s ++ s.pending).Perm s.arrived := by
  have h1 : (s.replies.map (·.1) ++ inflight s ++ s.pending) =
      ((s.replies.map (·.1) ++ inflight s ++ s.pending).map (·.id)).filterMap (fun i => s.arrived[i]?) := by
    have : ∀ l : List (Req ρ), (∀ r ∈ l, r ∈ s.arrived) → l = (l.map (·.id)).filterMap (fun i => s.arrived[i]?) := by
      intro l hl
      induction l with
      | nil => rfl
      | cons r l ih =>
        rw [List.map_cons, List.filterMap_cons, hs.arrived_get (hl r (by simp))]
        dsimp only
        rw [← ih fun x hx => hl x (by simp [hx])]
    refine this _ ?_
    intro r hr
    simp only [List.mem_append] at hr
    rcases hr with (hr | hr) | hr
    · exact hs.known r (Or.inr (Or.inr hr))
    · exact hs.known r (Or.inr (Or.inl hr))
    · exact hs.known r (Or.inl hr)
  rw [h1]
  have h2 : ((s.replies.map (·.1) ++ inflight s ++ s.pending).map (·.id)).Perm (List.range s.arrived.length) := by
    rw [List.perm_iff_count]
    intro i
    rw [List.count_range]
    simp only [List.map_append, List.count_append, List.map_map]
    by_cases hi : i < s.arrived.length
    · have := hs.once i hi
      rw [if_pos hi]
      have e : List.map ((fun x : Req ρ => x.id) ∘ fun x : Req ρ × α × Status => x.1) s.replies = s.replies.map (·.1.id) := rfl
      rw [e]
      omega
    · rw [if_neg hi]
      have hz : ∀ l : List (Req ρ), (∀ r ∈ l, r ∈ s.arrived) → (l.map (·.id)).count i = 0 := by
        intro l hl
        rw [List.count_eq_zero]
        intro hm
        obtain ⟨r, hr, hri⟩ := List.mem_map.1 hm
        have := (List.getElem?_eq_some_iff.1 (hs.arrived_get (hl r hr))).1
        omega
      have e : List.map ((fun x : Req ρ => x.id) ∘ fun x : Req ρ × α × Status => x.1) s.replies =
          (s.replies.map (·.1)).map (·.id) := by rw [List.map_map]
      rw [e, hz _ fun r hr => hs.known r (Or.inr (Or.inr hr)), hz _ fun r hr => hs.known r (Or.inr (Or.inl hr)),
        hz _ fun r hr => hs.known r (Or.inl hr)]
  refine (h2.filterMap _).trans ?_
  rw [filterMap_range_get]

theorem Inv.replies_nodup {s : State ρ α σ} (hs : Inv svc σ0 Q s) : (s.replies.map (·.1.id)).Nodup := by
  rw [List.nodup_iff_count]
  intro i
  by_cases hi : i < s.arrived.length
  · have := hs.once i hi; omega
  · have : (s.replies.map (·.1.id)).count i = 0 := by
      rw [List.count_eq_zero]
      intro hm
      obtain ⟨x, hx, hxi⟩ := List.mem_map.1 hm
      have := (List.getElem?_eq_some_iff.1 (hs.arrived_get (hs.known x.1 (Or.inr (Or.inr (List.mem_map.2 ⟨x, hx, rfl⟩)))))).1
      omega
    omega

/-! ### States where nothing more happens -/

/-- Nothing but a new request or the beginning of the shutdown can happen. -/
theorem idle_running {s : State ρ α σ} (h : ∀ q k, step svc Q s (.serve q k) = none) : s.running = [] := by
  match hr : s.running with
  | [] => rfl
  | (q, k) :: l =>
    have := h q k
    simp only [step, hr, List.mem_cons_self, if_true] at this
    cases this

theorem idle_events {s : State ρ α σ} (h : ∀ e, step svc Q s (.take e) = none) (hr : s.running = [])
    (hx : ∀ e ∈ s.events, e.1 ∉ s.exited) : s.events = [] := by
  match he : s.events with
  | [] => rfl
  | e :: l =>
    have := h e
    have hm : e ∈ s.events := by rw [he]; exact List.mem_cons_self
    simp only [step] at this
    rw [if_pos ⟨hm, (by rw [hr]; intro x hx; cases hx), hx e hm⟩] at this
    cases this

theorem Inv.quiet {s : State ρ α σ} (hs : Inv svc σ0 Q s) (hQ : 0 < Q) (hsh : s.shutdown = false)
    (hd : ∀ k i, step svc Q s (.deliver k i) = none) (ht : ∀ e, step svc Q s (.take e) = none)
    (hv : ∀ q k, step svc Q s (.serve q k) = none) : s.pending = [] ∧ inflight s = [] := by
  have hr := idle_running hv
  have hcl : s.closed = false := by
    cases hcl : s.closed with
    | false => rfl
    | true => have := (hs.closed hcl).1; rw [hsh] at this; cases this
  have he := idle_events ht hr (by
    intro e _ hx
    have := (hs.exited _ hx).2.1
    rw [hcl] at this; cases this)
  refine ⟨?_, by unfold inflight; rw [hr, he]; rfl⟩
  match hp : s.pending with
  | [] => rfl
  | r :: l =>
    obtain ⟨k, c, hc, h1, h2, h3, h4⟩ := hs.avail hsh 0 hQ r.method
    rw [he] at h4
    rcases h4 with h4 | h4
    · have := hd k 0
      simp only [step, hc, hp, List.getElem?_cons_zero] at this
      rw [if_pos ⟨hsh, h4, h2⟩] at this
      cases this
    · cases h4

theorem Inv.finished {s : State ρ α σ} (hs : Inv svc σ0 Q s) (hsh : s.shutdown = true)
    (h : ∀ a, step svc Q s a = none) :
    (∀ k, s.heap k = none) ∧ inflight s = [] ∧ ∀ q < Q, q ∈ s.exited := by
  have hr := idle_running fun q k => h (.serve q k)
  have hg : s.registered = [] := by
    match hg : s.registered with
    | [] => rfl
    | k :: l =>
      have hm : k ∈ s.registered := by rw [hg]; exact List.mem_cons_self
      obtain ⟨c, hc, _⟩ := hs.reg k hm
      have := h (.cancel k)
      simp only [step, hc] at this
      rw [if_pos ⟨hsh, hm⟩] at this
      cases this
  have hf : s.finishing = [] := by
    match hf : s.finishing with
    | [] => rfl
    | k :: l =>
      have hm : k ∈ s.finishing := by rw [hf]; exact List.mem_cons_self
      obtain ⟨c, hc, _⟩ := hs.fin k hm
      have := h (.sent k true)
      simp only [step, hc] at this
      rw [if_pos hm] at this
      cases this
  have he := idle_events (fun e => h (.take e)) hr (by
    intro e he hx
    exact (hs.exited _ hx).2.2 e he rfl)
  have hcl : s.closed = true := by
    cases hcl : s.closed with
    | true => rfl
    | false =>
      have := h .close
      simp only [step] at this
      rw [if_pos ⟨hsh, hcl, hg, hr, hf, by rw [he]; intro e he; cases he⟩] at this
      cases this
  refine ⟨?_, by unfold inflight; rw [hr, he]; rfl, ?_⟩
  · intro k
    have := hs.cnt k
    rw [hr, hg, hf, he] at this
    cases hk : s.heap k with
    | none => rfl
    | some c => rw [hk] at this; cases this
  · intro q hq
    by_cases hx : q ∈ s.exited
    · exact hx
    · have := h (.exit q)
      simp only [step] at this
      rw [if_pos ⟨hq, hcl, hx, (by rw [he]; intro e he; cases he), (by rw [hr]; intro e he; cases he)⟩] at this
      cases this

/-! ### The number of steps -/

/-- Weight of an event: a request still to be served counts more. -/
def evWeight (heap : Nat → Option (Call ρ)) (k : Nat) : Nat := if (reqOf heap k).isSome then 6 else 1

/-- What is left to do. -/
def work (Q : Nat) (s : State ρ α σ) : Nat :=
  5 * s.pending.length + 2 * s.registered.length + ((s.events.map (·.2.1)).map (evWeight s.heap)).sum + 3 * s.running.length +
    2 * s.finishing.length + (!s.shutdown).toNat + (!s.closed).toNat + (Q - s.exited.length)

theorem evWeight_upd {heap : Nat → Option (Call ρ)} {h : Nat} (v : Option (Call ρ)) {l : List Nat} (hl : h ∉ l) :
    l.map (evWeight (upd heap h v)) = l.map (evWeight heap) := by
  refine List.map_congr_left fun k hk => ?_
  unfold evWeight
  rw [reqOf_upd_ne v (by intro e; exact hl (e ▸ hk))]

theorem sum_erase_weight (heap : Nat → Option (Call ρ)) {l : List (Nat × Nat × Bool)} {e : Nat × Nat × Bool} (he : e ∈ l) :
    ((l.map (·.2.1)).map (evWeight heap)).sum =
      evWeight heap e.2.1 + (((l.erase e).map (·.2.1)).map (evWeight heap)).sum := by
  have := (((List.perm_cons_erase he).map (·.2.1)).map (evWeight heap)).sum_nat
  rw [this]
  simp

theorem evWeight_pos (heap : Nat → Option (Call ρ)) (k : Nat) : 1 ≤ evWeight heap k := by
  unfold evWeight; split <;> omega

theorem length_erase_add {β : Type} [BEq β] [LawfulBEq β] {l : List β} {e : β} (he : e ∈ l) : (l.erase e).length + 1 = l.length := by
  have := (List.perm_cons_erase he).length_eq
  rw [this]; rfl

theorem work_take {s : State ρ α σ} (hs : Inv svc σ0 Q s) {e : Nat × Nat × Bool} (he : e ∈ s.events) :
    work Q (handle { s with events := s.events.erase e } e.2.1 e.2.2) + 1 ≤ work Q s := by
  obtain ⟨c, hc, hq, hcase⟩ := hs.ev e he
  have hsum := sum_erase_weight s.heap he
  have her : e.2.1 ∉ (s.events.erase e).map (·.2.1) := by
    have honly := hs.only e.2.1
    have := count_map_erase (fun x : Nat × Nat × Bool => x.2.1) he e.2.1
    rw [if_pos rfl] at this
    exact List.count_eq_zero.1 (by omega)
  have hdel : delete { s with events := s.events.erase e } e.2.1 =
      { s with events := s.events.erase e, heap := upd s.heap e.2.1 none } := by
    simp only [delete, hc]
  have hpos := evWeight_pos s.heap e.2.1
  have hfree : work Q { s with events := s.events.erase e, heap := upd s.heap e.2.1 none } + 1 ≤ work Q s := by
    unfold work
    dsimp only
    rw [evWeight_upd _ her]
    omega
  rcases hcase with hst | ⟨hst, ⟨hok, hrq⟩ | ⟨hok, hrq, hsh⟩⟩
  · have hh : handle { s with events := s.events.erase e } e.2.1 e.2.2 =
        { s with events := s.events.erase e, heap := upd s.heap e.2.1 none } := by
      unfold handle
      split
      · simp only [proceed, hc, hst, hdel]
      · exact hdel
    rw [hh]
    exact hfree
  · have hcl : s.closed = false := by
      cases hcl : s.closed with
      | false => rfl
      | true =>
        have := (hs.closed hcl).2.2.2.2 e he hok c hc
        rw [hst] at this; cases this
    have hw : evWeight s.heap e.2.1 = 6 := by
      obtain ⟨r, hr⟩ := Option.ne_none_iff_exists'.1 hrq
      simp [evWeight, reqOf, hc, hst, hr]
    have hnone := hs.fresh s.next (Nat.le_refl _)
    have hnew : s.next ∉ (s.events.erase e).map (·.2.1) := by
      intro hm
      obtain ⟨x, hx, hxe⟩ := List.mem_map.1 hm
      obtain ⟨d, hd, _⟩ := hs.ev x (List.mem_of_mem_erase hx)
      rw [hxe, hnone] at hd; cases hd
    unfold handle
    rw [if_pos hok]
    simp only [proceed, hc, hst]
    rw [construct_open (s := { s with events := s.events.erase e }) hcl]
    unfold work
    dsimp only
    rw [evWeight_upd _ hnew]
    simp only [List.length_append, List.length_singleton]
    omega
  · have hh : handle { s with events := s.events.erase e } e.2.1 e.2.2 =
        { s with events := s.events.erase e, heap := upd s.heap e.2.1 none } := by
      unfold handle
      rw [if_neg (by rw [hok]; decide)]
      exact hdel
    rw [hh]
    exact hfree

theorem work_step {s t : State ρ α σ} (hs : Inv svc σ0 Q s) {a : Action ρ} (ha : step svc Q s a = some t) :
    work Q t + 1 ≤ work Q s + 6 * (Spec.sentRequests [a]).length := by
  have ht := inv_step hs ha
  cases a with
  | arrive m p =>
    simp only [step] at ha
    split at ha
    · cases ha
    · rw [← Option.some.inj ha]
      simp only [work, List.length_append, List.length_singleton, Spec.sentRequests, List.filterMap_cons, List.filterMap_nil]
      omega
  | deliver h i =>
    simp only [step] at ha
    split at ha
    · rename_i c r hc hr
      split at ha
      · rename_i hg
        rw [← Option.some.inj ha]
        have honly := hs.only h
        have hpos := List.count_pos_iff.2 hg.2.1
        have hne : h ∉ s.events.map (·.2.1) := List.count_eq_zero.1 (by omega)
        have h1 := (eraseIdx_cons_perm hr).length_eq
        have h2 := length_erase_add hg.2.1
        have h3 : ∀ f : Nat → Option (Call ρ), evWeight f h ≤ 6 := by
          intro f; unfold evWeight; split <;> omega
        have h4 := h3 (upd s.heap h (some { c with request := some r }))
        simp only [work, List.map_append, List.sum_append, evWeight_upd _ hne, List.map_cons, List.map_nil, List.sum_cons,
          List.sum_nil, Spec.sentRequests, List.filterMap_cons, List.filterMap_nil, List.length_nil]
        rw [List.length_cons] at h1
        omega
      · cases ha
    · cases ha
  | take e =>
    simp only [step] at ha
    split at ha
    · rename_i hg
      rw [← Option.some.inj ha]
      have := work_take hs hg.1
      omega
    · cases ha
  | serve q h =>
    simp only [step] at ha
    split at ha
    · rename_i hg
      rw [← Option.some.inj ha]
      obtain ⟨c, hc, hcq, hst, hrq⟩ := hs.run _ hg
      dsimp only at hc hcq
      obtain ⟨r, hr⟩ := Option.ne_none_iff_exists'.1 hrq
      have honly := hs.only h
      have hpos := List.count_pos_iff.2 (List.mem_map.2 ⟨_, hg, rfl⟩ : h ∈ s.running.map (·.2))
      have hne : h ∉ s.events.map (·.2.1) := List.count_eq_zero.1 (by omega)
      have h1 := length_erase_add hg
      simp only [finishCall, hc, hr, work, evWeight_upd _ hne, List.length_append, List.length_singleton]
      omega
    · cases ha
  | sent h ok =>
    simp only [step] at ha
    split at ha
    · cases ha
    · rename_i c hc
      split at ha
      · rename_i hg
        rw [← Option.some.inj ha]
        obtain ⟨c', hc', hst⟩ := hs.fin h hg
        have h1 := length_erase_add hg
        have h2 : evWeight s.heap h = 1 := by simp [evWeight, reqOf, hc', hst]
        simp only [work, List.map_append, List.sum_append, List.map_cons, List.map_nil, List.sum_cons, List.sum_nil, h2]
        omega
      · cases ha
  | shutdown =>
    simp only [step] at ha
    split at ha
    · cases ha
    · rename_i hg
      rw [← Option.some.inj ha]
      have : s.shutdown = false := by simpa using hg
      simp only [work, this, Bool.not_false, Bool.not_true, Bool.toNat_true, Bool.toNat_false]
      omega
  | cancel h =>
    simp only [step] at ha
    split at ha
    · cases ha
    · rename_i c hc
      split at ha
      · rename_i hg
        rw [← Option.some.inj ha]
        obtain ⟨c', hc', hst, hrq⟩ := hs.reg h hg.2
        have h1 := length_erase_add hg.2
        have h2 : evWeight s.heap h = 1 := by simp [evWeight, reqOf, hc', hrq]
        simp only [work, List.map_append, List.sum_append, List.map_cons, List.map_nil, List.sum_cons, List.sum_nil, h2]
        omega
      · cases ha
  | close =>
    simp only [step] at ha
    split at ha
    · rename_i hg
      rw [← Option.some.inj ha]
      simp only [work, hg.2.1, Bool.not_false, Bool.not_true, Bool.toNat_true, Bool.toNat_false]
      omega
    · cases ha
  | exit q =>
    simp only [step] at ha
    split at ha
    · rename_i hg
      have hle : t.exited.length ≤ Q := by
        have := List.Nodup.length_le_of_subset ht.exitedOnce (l₂ := List.range Q)
          (fun x hx => List.mem_range.2 (ht.exited x hx).1)
        simpa using this
      rw [← Option.some.inj ha] at hle ⊢
      simp only [List.length_append, List.length_singleton] at hle
      simp only [work, List.length_append, List.length_singleton]
      omega
    · cases ha

theorem work_run {acts : List (Action ρ)} {s t : State ρ α σ} (hs : Inv svc σ0 Q s) (h : run svc Q s acts = some t) :
    work Q t + acts.length ≤ work Q s + 6 * (Spec.sentRequests acts).length := by
  induction acts generalizing s with
  | nil =>
    rw [← Option.some.inj (h : some s = some t)]
    simp
  | cons a acts ih =>
    rw [run_cons] at h
    obtain ⟨u, hu, h⟩ := Option.bind_eq_some_iff.1 h
    have h1 := work_step hs hu
    have h2 := ih (inv_step hs hu) h
    have h3 : Spec.sentRequests (a :: acts) = Spec.sentRequests [a] ++ Spec.sentRequests acts := by
      unfold Spec.sentRequests
      rw [← List.filterMap_append]; rfl
    rw [h3, List.length_append, List.length_cons]
    omega

theorem work_init (σ0 : σ) (Q : Nat) (svc : σ → Method → ρ → σ × α × Status) :
    work Q (init σ0 Q : State ρ α σ) = 31 * Q + 2 := by
  obtain ⟨_, h1, h2, h3, h4, h5, h6, h7, _, _, h8⟩ := init_facts (ρ := ρ) (α := α) svc σ0 Q
  simp only [work, h1, h2, h3, h4, h5, h6, h7, h8, List.length_nil, List.map_nil, List.sum_nil, Bool.not_false, Bool.toNat_true]
  omega

theorem sentStatus_eq (x : Req ρ × α × Status) :
    sentStatus x = (x.1, x.2.1, if x.1.method ∈ Spec.silent then 0 else x.2.2) := by
  have : ∀ m, forwards m = !(decide (m ∈ Spec.silent)) := by intro m; cases m <;> decide
  simp only [sentStatus, this]
  by_cases h : x.1.method ∈ Spec.silent <;> simp [h]

end DeepGNN.Calls
