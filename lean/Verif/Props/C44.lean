import Verif.Proofs.ForestFire

/-
C44: forest fire samples.
-/

namespace DeepGNN

open ForestFire Spec

namespace ForestFire

theorem Inv.subgraph {g h : Graph} (hg : DiGraph g) (hi : Inv g h) : Subgraph h g := by
  refine ⟨⟨hi.nodes, hi.edges, ?_⟩, ?_, hi.sub⟩
  · intro e he
    exact ⟨(hi.touched _).2 ⟨e, he, Or.inl rfl⟩, (hi.touched _).2 ⟨e, he, Or.inr rfl⟩⟩
  · intro v hv
    obtain ⟨e, he, h1⟩ := (hi.touched v).1 hv
    have := hg.ends e (hi.sub e he)
    rcases h1 with rfl | rfl
    · exact this.1
    · exact this.2

end ForestFire

/-- C44 (partial: the size may be exceeded by one): whatever the random choices, a returned sample is a subgraph of the graph, has at
least `sample_size` and at most `sample_size + 1` nodes, and each of its nodes has an edge in it. -/
theorem C44_sample_partial {g : Graph} (hg : DiGraph g) {size : Nat} {h : Graph} (hr : Returns g size h) :
    Subgraph h g ∧ size ≤ h.nodes.length ∧ h.nodes.length ≤ size + 1 ∧ (∀ v ∈ h.nodes, Touched h v) ∧ (size = 0 → h.nodes = []) := by
  obtain ⟨s, hs, hl, rfl⟩ := hr
  have hi := hs.inv
  refine ⟨hi.1.subgraph hg, by omega, hi.2, fun v hv => (hi.1.touched v).1 hv, ?_⟩
  intro h0
  subst h0
  clear hl hi
  induction hs with
  | start => rfl
  | step _ h _ => cases h <;> omega

/-- The search can always go on to return: from every state of the loop some choices lead to a result, as long as the graph has enough
nodes with edges.  So with probability one it does. -/
theorem C44_returns {g : Graph} (hg : DiGraph g) {size : Nat} {s : State} (hs : Reach g size s) {l : List Int} (hn : l.Nodup)
    (hl : ∀ v ∈ l, v ∈ g.nodes ∧ Touched g v) (hsize : size ≤ l.length) :
    ∃ t, Steps g size s t ∧ Returns g size t.sample := by
  have key : ∀ (n : Nat) (s : State), Reach g size s → size - s.sample.nodes.length ≤ n →
      ∃ t, Steps g size s t ∧ ¬ t.sample.nodes.length < size := by
    intro n
    induction n with
    | zero => intro s _ h; exact ⟨s, .refl, by omega⟩
    | succ n ih =>
      intro s hs h
      obtain ⟨t, h1, h2, h3⟩ := drain (size := size) hg _ _ s rfl rfl (hs.queue hg)
      by_cases hlt : t.sample.nodes.length < size
      case neg => exact ⟨t, h1, hlt⟩
      rcases h3 with h3 | h3
      case inr => exact ⟨t, h1, h3⟩
      have hmiss : ∃ u ∈ l, u ∉ t.sample.nodes := by
        apply Classical.byContradiction
        intro hx
        have hsub : l ⊆ t.sample.nodes := by
          intro u hu
          apply Classical.byContradiction
          intro hm; exact hx ⟨u, hu, hm⟩
        have := List.Nodup.length_le_of_subset hn hsub
        omega
      obtain ⟨u, hu, hm⟩ := hmiss
      obtain ⟨t', h4, h5, h6⟩ := grow h3 hlt (hl u hu).1 (hl u hu).2
      have hn' : (u :: s.sample.nodes).Nodup := by
        rw [List.nodup_cons]
        exact ⟨fun hx => hm (h2 u hx), hs.inv.1.nodes⟩
      have hsub : u :: s.sample.nodes ⊆ t'.sample.nodes := by
        intro x hx
        rcases List.mem_cons.1 hx with rfl | hx
        · exact h6
        · exact h5 x (h2 x hx)
      have hlen := List.Nodup.length_le_of_subset hn' hsub
      rw [List.length_cons] at hlen
      obtain ⟨r, h7, h8⟩ := ih t' (h4.reach (h1.reach hs)) (by omega)
      exact ⟨r, h1.trans (h4.trans h7), h8⟩
  obtain ⟨t, h1, h2⟩ := key _ s hs (Nat.le_refl _)
  exact ⟨t, h1, t, h1.reach hs, h2, rfl⟩

namespace ForestFire

/-- Two nodes joined in both directions and one without edges. -/
def exGraph : Graph := ⟨[1, 2, 3], [(1, 2), (2, 1)]⟩

theorem exGraph_ok : DiGraph exGraph := ⟨by decide, by decide, by decide⟩

theorem exGraph_touched {v : Int} (h : v ∈ [1, 2]) : v ∈ exGraph.nodes ∧ Touched exGraph v := by
  simp only [List.mem_cons, List.not_mem_nil, or_false] at h
  rcases h with rfl | rfl
  · exact ⟨by decide, (1, 2), by decide, Or.inl rfl⟩
  · exact ⟨by decide, (1, 2), by decide, Or.inr rfl⟩

end ForestFire

/-- A result exists. -/
example : ∃ h, Returns exGraph 2 h := by
  obtain ⟨t, -, h⟩ := C44_returns exGraph_ok (size := 2) (l := [1, 2]) (Reach.start (u := 3) (by decide)) (by decide)
    (fun v hv => exGraph_touched hv) (by decide)
  exact ⟨_, h⟩

/-- The full claim fails: in a graph without loops no choices give a sample of one node, there are always two. -/
theorem C44_one_refuted {g : Graph} (hloop : ∀ v, (v, v) ∉ g.edges) {h : Graph} (hr : Returns g 1 h) : h.nodes.length = 2 := by
  obtain ⟨s, hs, hl, rfl⟩ := hr
  have hi := hs.inv
  have h2 := hi.2
  have h1 : s.sample.nodes.length ≠ 1 := by
    intro h1
    cases hn : s.sample.nodes with
    | nil => rw [hn] at h1; simp at h1
    | cons v vs =>
      rw [hn, List.length_cons] at h1
      have hvs : vs = [] := List.length_eq_zero_iff.1 (by omega)
      subst hvs
      obtain ⟨e, he, -⟩ := (hi.1.touched v).1 (by rw [hn]; exact List.mem_cons_self)
      have ha := (hi.1.touched e.1).2 ⟨e, he, Or.inl rfl⟩
      have hb := (hi.1.touched e.2).2 ⟨e, he, Or.inr rfl⟩
      rw [hn, List.mem_singleton] at ha hb
      apply hloop v
      have := hi.1.sub e he
      rwa [show e = (v, v) from Prod.ext ha hb] at this
  omega

/-- Nodes without edges are never in a sample: if too many are asked for the call never returns, although the graph has enough nodes. -/
theorem C44_isolated_refuted {g : Graph} {size : Nat} {l : List Int} (hl : ∀ v, Touched g v → v ∈ l) (hsize : l.length < size) :
    ¬ ∃ h, Returns g size h := by
  rintro ⟨h, s, hs, hlen, rfl⟩
  have hi := hs.inv
  have hsub : s.sample.nodes ⊆ l := by
    intro v hv
    obtain ⟨e, he, h1⟩ := (hi.1.touched v).1 hv
    exact hl v ⟨e, hi.1.sub e he, h1⟩
  have := List.Nodup.length_le_of_subset hi.1.nodes hsub
  omega

/-- Both happen. -/
example : (∃ h, Returns exGraph 1 h) ∧ (∀ v, (v, v) ∉ exGraph.edges) ∧ exGraph.nodes.length = 3 ∧ ¬ ∃ h, Returns exGraph 3 h := by
  refine ⟨?_, ?_, rfl, C44_isolated_refuted (l := [1, 2]) ?_ (by decide)⟩
  · obtain ⟨t, -, h⟩ := C44_returns exGraph_ok (size := 1) (l := [1, 2]) (Reach.start (u := 3) (by decide)) (by decide)
      (fun v hv => exGraph_touched hv) (by decide)
    exact ⟨_, h⟩
  · intro v hv
    simp only [exGraph, List.mem_cons, Prod.mk.injEq, List.not_mem_nil, or_false] at hv
    omega
  · rintro v ⟨e, he, hv⟩
    simp only [exGraph, List.mem_cons, List.not_mem_nil, or_false] at he ⊢
    rcases he with rfl | rfl <;> rcases hv with rfl | rfl <;> simp

end DeepGNN
