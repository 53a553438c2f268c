import Verif.Spec.ForestFire

namespace DeepGNN.ForestFire

open Spec

theorem mem_insert {α : Type} [DecidableEq α] {a b : α} {l : List α} : b ∈ insert a l ↔ b = a ∨ b ∈ l := by
  rw [insert]
  split
  · constructor
    · exact Or.inr
    · rintro (rfl | h)
      · assumption
      · exact h
  · simp [or_comm]

theorem nodup_insert {α : Type} [DecidableEq α] {a : α} {l : List α} (h : l.Nodup) : (insert a l).Nodup := by
  rw [insert]
  split
  · exact h
  · rename_i ha
    rw [List.nodup_append]
    refine ⟨h, by simp, ?_⟩
    intro x hx y hy e
    rw [List.mem_singleton] at hy
    exact ha (by rw [← hy, ← e]; exact hx)

theorem length_insert {α : Type} [DecidableEq α] (a : α) (l : List α) :
    l.length ≤ (insert a l).length ∧ (insert a l).length ≤ l.length + 1 := by
  rw [insert]
  split <;> simp

theorem insert_of_mem {α : Type} [DecidableEq α] {a : α} {l : List α} (h : a ∈ l) : insert a l = l := if_pos h

/-- What holds of the sample. -/
structure Inv (g : Graph) (h : Graph) : Prop where
  nodes : h.nodes.Nodup
  edges : h.edges.Nodup
  sub : ∀ e ∈ h.edges, e ∈ g.edges
  touched : ∀ v, v ∈ h.nodes ↔ ∃ e ∈ h.edges, e.1 = v ∨ e.2 = v

theorem inv_empty (g : Graph) : Inv g ⟨[], []⟩ := ⟨by simp, by simp, by simp, by simp⟩

theorem Inv.add {g h : Graph} (hi : Inv g h) {u v : Int} (he : (u, v) ∈ g.edges) : Inv g (h.addEdge u v) := by
  refine ⟨nodup_insert (nodup_insert hi.nodes), nodup_insert hi.edges, ?_, ?_⟩
  · intro e h1
    rcases mem_insert.1 h1 with rfl | h1
    · exact he
    · exact hi.sub e h1
  · intro w
    rw [Graph.addEdge, mem_insert, mem_insert, hi.touched w]
    constructor
    · rintro (rfl | rfl | ⟨e, h1, h2⟩)
      · exact ⟨(u, w), mem_insert.2 (Or.inl rfl), Or.inr rfl⟩
      · exact ⟨(w, v), mem_insert.2 (Or.inl rfl), Or.inl rfl⟩
      · exact ⟨e, mem_insert.2 (Or.inr h1), h2⟩
    · rintro ⟨e, h1, h2⟩
      rcases mem_insert.1 h1 with rfl | h1
      · rcases h2 with rfl | rfl
        · exact Or.inr (Or.inl rfl)
        · exact Or.inl rfl
      · exact Or.inr (Or.inr ⟨e, h1, h2⟩)

theorem mem_successors {g : Graph} {u v : Int} : v ∈ g.successors u ↔ (u, v) ∈ g.edges := by
  simp only [Graph.successors, List.mem_map, List.mem_filter, decide_eq_true_eq]
  constructor
  · rintro ⟨⟨a, b⟩, ⟨h1, rfl⟩, rfl⟩; exact h1
  · intro h; exact ⟨(u, v), ⟨h, rfl⟩, rfl⟩

theorem mem_predecessors {g : Graph} {u v : Int} : v ∈ g.predecessors u ↔ (v, u) ∈ g.edges := by
  simp only [Graph.predecessors, List.mem_map, List.mem_filter, decide_eq_true_eq]
  constructor
  · rintro ⟨⟨a, b⟩, ⟨h1, rfl⟩, rfl⟩; exact h1
  · intro h; exact ⟨(v, u), ⟨h, rfl⟩, rfl⟩

theorem length_addEdge (h : Graph) (u v : Int) :
    h.nodes.length ≤ (h.addEdge u v).nodes.length ∧ (h.addEdge u v).nodes.length ≤ h.nodes.length + 2 := by
  have h1 := length_insert u h.nodes
  have h2 := length_insert v (insert u h.nodes)
  rw [Graph.addEdge]
  simp only
  omega

theorem length_addEdge_mem {h : Graph} {u v : Int} (hm : u ∈ h.nodes ∨ v ∈ h.nodes) : (h.addEdge u v).nodes.length ≤ h.nodes.length + 1 := by
  rw [Graph.addEdge]
  simp only
  have h1 := length_insert u h.nodes
  rcases hm with hm | hm
  · rw [insert_of_mem hm]; exact (length_insert v _).2
  · rw [insert_of_mem (mem_insert.2 (Or.inr hm))]; exact h1.2

theorem forward_inv {g : Graph} {size : Nat} {u : Int} : ∀ {vs : List Int} {s : State}, Inv g s.sample → (∀ v ∈ vs, (u, v) ∈ g.edges) →
    s.sample.nodes.length ≤ size + 1 →
    Inv g (forward size u vs s).sample ∧ (forward size u vs s).sample.nodes.length ≤ size + 1 ∧
      s.sample.nodes.length ≤ (forward size u vs s).sample.nodes.length
  | [], s, hi, _, hl => ⟨hi, hl, Nat.le_refl _⟩
  | v :: vs, s, hi, hv, hl => by
    rw [forward]
    split
    · have h1 := length_addEdge s.sample u v
      have h2 := forward_inv (size := size) (vs := vs) (s := { s with sample := s.sample.addEdge u v, q := v :: s.q })
        (hi.add (hv v List.mem_cons_self)) (fun w hw => hv w (List.mem_cons_of_mem _ hw)) (by simp only; omega)
      exact ⟨h2.1, h2.2.1, Nat.le_trans h1.1 h2.2.2⟩
    · exact ⟨hi, hl, Nat.le_refl _⟩

theorem backward_inv {g : Graph} {size : Nat} {u : Int} : ∀ {vs : List Int} {s : State}, Inv g s.sample → (∀ v ∈ vs, (v, u) ∈ g.edges) →
    s.sample.nodes.length ≤ size + 1 →
    Inv g (backward size u vs s).sample ∧ (backward size u vs s).sample.nodes.length ≤ size + 1 ∧
      s.sample.nodes.length ≤ (backward size u vs s).sample.nodes.length
  | [], s, hi, _, hl => ⟨hi, hl, Nat.le_refl _⟩
  | v :: vs, s, hi, hv, hl => by
    rw [backward]
    split
    · have h1 := length_addEdge s.sample v u
      have h2 := backward_inv (size := size) (vs := vs) (s := { s with sample := s.sample.addEdge v u, q := v :: s.q })
        (hi.add (hv v List.mem_cons_self)) (fun w hw => hv w (List.mem_cons_of_mem _ hw)) (by simp only; omega)
      exact ⟨h2.1, h2.2.1, Nat.le_trans h1.1 h2.2.2⟩
    · exact ⟨hi, hl, Nat.le_refl _⟩

theorem Step.inv {g : Graph} {size : Nat} {s t : State} (h : Step g size s t) (hi : Inv g s.sample) (hl : s.sample.nodes.length ≤ size + 1) :
    Inv g t.sample ∧ t.sample.nodes.length ≤ size + 1 ∧ s.sample.nodes.length ≤ t.sample.nodes.length := by
  cases h with
  | burn h1 h2 h3 h4 h5 =>
    rename_i u rest succ pred
    have a := forward_inv (g := g) (size := size) (u := u) (vs := succ) (s := { s with q := rest, visited := u :: s.visited }) hi
      (fun v hv => mem_successors.1 (h4.2.1 v hv)) hl
    have b := backward_inv (g := g) (size := size) (u := u) (vs := pred) a.1 (fun v hv => mem_predecessors.1 (h5.2.1 v hv)) a.2.1
    exact ⟨b.1, b.2.1, Nat.le_trans a.2.2 b.2.2⟩
  | skip h1 h2 h3 => exact ⟨hi, hl, Nat.le_refl _⟩
  | restart h1 h2 h3 => exact ⟨hi, hl, Nat.le_refl _⟩

theorem Reach.inv {g : Graph} {size : Nat} {s : State} (h : Reach g size s) : Inv g s.sample ∧ s.sample.nodes.length ≤ size + 1 := by
  induction h with
  | start => exact ⟨inv_empty g, by simp⟩
  | step h1 h2 ih => exact ⟨(h2.inv ih.1 ih.2).1, (h2.inv ih.1 ih.2).2.1⟩

/-- A state of several steps. -/
inductive Steps (g : Graph) (size : Nat) : State → State → Prop
  | refl {s : State} : Steps g size s s
  | head {s t u : State} : Step g size s t → Steps g size t u → Steps g size s u

theorem Steps.trans {g : Graph} {size : Nat} {s t u : State} (h : Steps g size s t) (h' : Steps g size t u) : Steps g size s u := by
  induction h with
  | refl => exact h'
  | head a _ ih => exact .head a (ih h')

theorem Steps.reach {g : Graph} {size : Nat} {s t : State} (h : Steps g size s t) (hs : Reach g size s) : Reach g size t := by
  induction h with
  | refl => exact hs
  | head a _ ih => exact ih (.step hs a)

theorem chosen_exists (l : List Int) : ∃ c, Chosen l c ∧ c.length ≤ 1 ∧ (l ≠ [] → c ≠ []) := by
  cases l with
  | nil => exact ⟨[], ⟨by simp, by simp, 1, Nat.le_refl _, by simp⟩, by simp, by simp⟩
  | cons a l => exact ⟨[a], ⟨by simp, by simp, 1, Nat.le_refl _, by simp⟩, by simp, by simp⟩

/-- Queue and visited nodes after the loops. -/
theorem forward_frame {size : Nat} {u : Int} : ∀ {vs : List Int} {s : State}, (forward size u vs s).visited = s.visited ∧
    (∀ x ∈ s.sample.nodes, x ∈ (forward size u vs s).sample.nodes) ∧ (forward size u vs s).q.length ≤ s.q.length + vs.length ∧
    ∀ x ∈ (forward size u vs s).q, x ∈ s.q ∨ x ∈ vs
  | [], s => ⟨rfl, fun _ h => h, by simp [forward], fun _ h => Or.inl h⟩
  | v :: vs, s => by
    rw [forward]
    split
    · have h := forward_frame (size := size) (u := u) (vs := vs) (s := { s with sample := s.sample.addEdge u v, q := v :: s.q })
      refine ⟨h.1, ?_, ?_, ?_⟩
      · intro x hx
        exact h.2.1 x (mem_insert.2 (Or.inr (mem_insert.2 (Or.inr hx))))
      · have := h.2.2.1
        simp only [List.length_cons] at this ⊢
        omega
      · intro x hx
        rcases h.2.2.2 x hx with h1 | h1
        · rcases List.mem_cons.1 h1 with rfl | h1
          · exact Or.inr List.mem_cons_self
          · exact Or.inl h1
        · exact Or.inr (List.mem_cons_of_mem _ h1)
    · exact ⟨rfl, fun _ h => h, by simp only [List.length_cons]; omega, fun _ h => Or.inl h⟩

theorem backward_frame {size : Nat} {u : Int} : ∀ {vs : List Int} {s : State}, (backward size u vs s).visited = s.visited ∧
    (∀ x ∈ s.sample.nodes, x ∈ (backward size u vs s).sample.nodes) ∧ (backward size u vs s).q.length ≤ s.q.length + vs.length ∧
    ∀ x ∈ (backward size u vs s).q, x ∈ s.q ∨ x ∈ vs
  | [], s => ⟨rfl, fun _ h => h, by simp [backward], fun _ h => Or.inl h⟩
  | v :: vs, s => by
    rw [backward]
    split
    · have h := backward_frame (size := size) (u := u) (vs := vs) (s := { s with sample := s.sample.addEdge v u, q := v :: s.q })
      refine ⟨h.1, ?_, ?_, ?_⟩
      · intro x hx
        exact h.2.1 x (mem_insert.2 (Or.inr (mem_insert.2 (Or.inr hx))))
      · have := h.2.2.1
        simp only [List.length_cons] at this ⊢
        omega
      · intro x hx
        rcases h.2.2.2 x hx with h1 | h1
        · rcases List.mem_cons.1 h1 with rfl | h1
          · exact Or.inr List.mem_cons_self
          · exact Or.inl h1
        · exact Or.inr (List.mem_cons_of_mem _ h1)
    · exact ⟨rfl, fun _ h => h, by simp only [List.length_cons]; omega, fun _ h => Or.inl h⟩

/-- Queued nodes are nodes of the graph. -/
theorem Step.queue {g : Graph} (hg : DiGraph g) {size : Nat} {s t : State} (h : Step g size s t) (hq : ∀ x ∈ s.q, x ∈ g.nodes) :
    ∀ x ∈ t.q, x ∈ g.nodes := by
  cases h with
  | burn h1 h2 h3 h4 h5 =>
    intro x hx
    rcases backward_frame.2.2.2 x hx with hx | hx
    · rcases forward_frame.2.2.2 x hx with hx | hx
      · exact hq x (by rw [h2]; exact List.mem_cons_of_mem _ hx)
      · exact (hg.ends _ (mem_successors.1 (h4.2.1 x hx))).2
    · exact (hg.ends _ (mem_predecessors.1 (h5.2.1 x hx))).1
  | skip h1 h2 h3 =>
    intro x hx
    exact hq x (by rw [h2]; exact List.mem_cons_of_mem _ hx)
  | restart h1 h2 h3 =>
    intro x hx
    rw [List.mem_singleton] at hx
    rw [hx]; exact h3

theorem Reach.queue {g : Graph} (hg : DiGraph g) {size : Nat} {s : State} (h : Reach g size s) : ∀ x ∈ s.q, x ∈ g.nodes := by
  induction h with
  | start h => intro x hx; rw [List.mem_singleton] at hx; rw [hx]; exact h
  | step _ h2 ih => exact h2.queue hg ih

/-- Nodes not visited yet. -/
def pending (g : Graph) (s : State) : Nat := (g.nodes.filter fun v => v ∉ s.visited).length

theorem pending_visit {g : Graph} (hg : DiGraph g) {s : State} {u : Int} (hu : u ∈ g.nodes) (hv : u ∉ s.visited) {t : State}
    (ht : t.visited = u :: s.visited) : pending g t < pending g s := by
  rw [pending, pending, ht]
  have key : ∀ (l : List Int), l.Nodup → u ∈ l →
      (l.filter fun v => decide (v ∉ u :: s.visited)).length < (l.filter fun v => decide (v ∉ s.visited)).length := by
    intro l
    induction l with
    | nil => intro _ h; simp at h
    | cons a l ih =>
      intro hn h
      rw [List.nodup_cons] at hn
      rcases List.mem_cons.1 h with rfl | h
      · rw [List.filter_cons_of_neg (by simp), List.filter_cons_of_pos (by simpa using hv)]
        have : l.filter (fun v => decide (v ∉ u :: s.visited)) = l.filter (fun v => decide (v ∉ s.visited)) := by
          apply List.filter_congr
          intro x hx
          have hxu : x ≠ u := fun e => hn.1 (e ▸ hx)
          simp [hxu]
        rw [this, List.length_cons]
        omega
      · have hi := ih hn.2 h
        have hau : a ≠ u := fun e => hn.1 (e ▸ h)
        by_cases ha : a ∈ s.visited
        · rw [List.filter_cons_of_neg (by simp [ha]), List.filter_cons_of_neg (by simp [ha])]; exact hi
        · rw [List.filter_cons_of_pos (by simp [ha, hau]), List.filter_cons_of_pos (by simp [ha])]
          simp only [List.length_cons]; omega
  exact key g.nodes hg.nodes hu

/-- The queue can run empty, unless the sample is complete first. -/
theorem drain {g : Graph} (hg : DiGraph g) {size : Nat} : ∀ (n m : Nat) (s : State), pending g s = n → s.q.length = m →
    (∀ x ∈ s.q, x ∈ g.nodes) → ∃ t, Steps g size s t ∧ (∀ x ∈ s.sample.nodes, x ∈ t.sample.nodes) ∧
      (t.q = [] ∨ ¬ t.sample.nodes.length < size) := by
  intro n
  induction n using Nat.strongRecOn with
  | ind n ihn =>
    intro m
    induction m with
    | zero =>
      intro s _ hm _
      exact ⟨s, .refl, fun _ h => h, Or.inl (List.length_eq_zero_iff.1 hm)⟩
    | succ m ihm =>
      intro s hp hm hq
      by_cases hl : s.sample.nodes.length < size
      case neg => exact ⟨s, .refl, fun _ h => h, Or.inr hl⟩
      cases hs : s.q with
      | nil => rw [hs] at hm; simp at hm
      | cons u rest =>
        by_cases hv : u ∈ s.visited
        · obtain ⟨t, h1, h2, h3⟩ := ihm { s with q := rest } hp (by rw [hs] at hm; simpa using hm)
            (fun x hx => hq x (by rw [hs]; exact List.mem_cons_of_mem _ hx))
          exact ⟨t, .head (.skip hl hs hv) h1, h2, h3⟩
        · obtain ⟨c, hc, -⟩ := chosen_exists (g.successors u)
          obtain ⟨d, hd, -⟩ := chosen_exists (g.predecessors u)
          have hstep := Step.burn hl hs hv hc hd
          have hf := forward_frame (size := size) (u := u) (vs := c) (s := { s with q := rest, visited := u :: s.visited })
          have hb := backward_frame (size := size) (u := u) (vs := d) (s := forward size u c { s with q := rest, visited := u :: s.visited })
          have hpend := pending_visit hg (hq u (by rw [hs]; exact List.mem_cons_self)) hv
            (t := backward size u d (forward size u c { s with q := rest, visited := u :: s.visited })) (by rw [hb.1, hf.1])
          obtain ⟨t, h1, h2, h3⟩ := ihn _ (by rw [← hp]; exact hpend) _ _ rfl rfl (hstep.queue hg hq)
          exact ⟨t, .head hstep h1, fun x hx => h2 x (hb.2.1 x (hf.2.1 x hx)), h3⟩

/-- From an empty queue one more node with edges can be added. -/
theorem grow {g : Graph} {size : Nat} {s : State} (hq : s.q = []) (hl : s.sample.nodes.length < size) {u : Int}
    (hu : u ∈ g.nodes) (ht : Touched g u) : ∃ t, Steps g size s t ∧ (∀ x ∈ s.sample.nodes, x ∈ t.sample.nodes) ∧ u ∈ t.sample.nodes := by
  obtain ⟨c, hc, hc1, hc2⟩ := chosen_exists (g.successors u)
  obtain ⟨d, hd, hd1, hd2⟩ := chosen_exists (g.predecessors u)
  have h1 : Step g size s { s with q := [u], visited := [] } := .restart hl hq hu
  have h2 : Step g size { s with q := [u], visited := [] } _ :=
    .burn (u := u) (rest := []) (succ := c) (pred := d) hl rfl (by simp) hc hd
  have hf := forward_frame (size := size) (u := u) (vs := c) (s := { s with q := [], visited := [u] })
  have hb := backward_frame (size := size) (u := u) (vs := d) (s := forward size u c { s with q := [], visited := [u] })
  refine ⟨_, .head h1 (.head h2 .refl), fun x hx => hb.2.1 x (hf.2.1 x hx), ?_⟩
  obtain ⟨e, he, hv⟩ := ht
  cases hcc : c with
  | cons v vs =>
    have : u ∈ (forward size u c { s with q := [], visited := [u] }).sample.nodes := by
      rw [hcc, forward, if_pos hl]
      exact forward_frame.2.1 u (mem_insert.2 (Or.inr (mem_insert.2 (Or.inl rfl))))
    rw [← hcc]
    exact hb.2.1 u this
  | nil =>
    have hs : g.successors u = [] := by
      apply Classical.byContradiction
      intro hx; exact hc2 hx hcc
    have hp : g.predecessors u ≠ [] := by
      rcases hv with rfl | rfl
      · have := mem_successors.2 he
        rw [hs] at this
        simp at this
      · intro hx
        have := mem_predecessors.2 he
        rw [hx] at this
        simp at this
    cases hdd : d with
    | nil => exact absurd hdd (hd2 hp)
    | cons v vs =>
      rw [forward, backward, if_pos hl]
      exact backward_frame.2.1 u (mem_insert.2 (Or.inl rfl))

end DeepGNN.ForestFire
