import Verif.Model.GraphMetric
import Verif.Spec.GraphMetric

/-
Ways, distances and components.
-/

namespace DeepGNN.GraphMetric

open ForestFire (Graph)
open DeepGNN.Spec (GoodGraph Way StronglyConnected LargestStrong IsDiameter)

theorem way_iff (g : Graph) : ∀ (k : Nat) (u v : Int), way g k u v = true ↔ Way g k u v
  | 0, u, v => by
    simp only [way, decide_eq_true_eq]
    constructor
    · rintro rfl; exact .here u
    · intro h; cases h; rfl
  | k + 1, u, v => by
    simp only [way, List.any_eq_true, Bool.and_eq_true, decide_eq_true_eq]
    constructor
    · rintro ⟨e, he, rfl, hw⟩
      exact .there he ((way_iff g k _ _).1 hw)
    · intro h
      cases h with
      | there he hw => exact ⟨_, he, rfl, (way_iff g k _ _).2 hw⟩

theorem Way.trans {g : Graph} {j : Nat} {u w v : Int} (h : Way g j u w) : ∀ {k}, Way g k w v → Way g (j + k) u v := by
  induction h with
  | here u => intro k hk; rwa [Nat.zero_add]
  | there he _ ih =>
    intro k hk
    have := Way.there he (ih hk)
    rwa [Nat.add_right_comm] at this

/-- A way with the nodes on it. -/
inductive Route (g : Graph) : List Int → Int → Int → Prop
  | here (u : Int) : Route g [u] u u
  | there {p : List Int} {u w v : Int} : (u, w) ∈ g.edges → Route g p w v → Route g (u :: p) u v

theorem Route.way {g : Graph} {p u v} (h : Route g p u v) : ∃ k, p.length = k + 1 ∧ Way g k u v := by
  induction h with
  | here u => exact ⟨0, rfl, .here u⟩
  | there he _ ih =>
    obtain ⟨k, h1, h2⟩ := ih
    exact ⟨k + 1, by simp [h1], .there he h2⟩

theorem Route.nodes {g : Graph} (hg : GoodGraph g) {p u v} (h : Route g p u v) (hv : v ∈ g.nodes) : ∀ x ∈ p, x ∈ g.nodes := by
  induction h with
  | here u => intro x hx; rw [List.mem_singleton] at hx; rwa [hx]
  | there he _ ih =>
    intro x hx
    rcases List.mem_cons.1 hx with rfl | hx
    · exact (hg.ends _ he).1
    · exact ih hv x hx

theorem Route.from {g : Graph} {p w v} (h : Route g p w v) {u : Int} (hu : u ∈ p) : ∃ q, q.Sublist p ∧ Route g q u v := by
  induction h with
  | here w => rw [List.mem_singleton] at hu; subst hu; exact ⟨_, .refl _, .here _⟩
  | there he hr ih =>
    rcases List.mem_cons.1 hu with rfl | hu
    · exact ⟨_, .refl _, .there he hr⟩
    · obtain ⟨q, h1, h2⟩ := ih hu
      exact ⟨q, h1.cons _, h2⟩

theorem Way.route {g : Graph} {k u v} (h : Way g k u v) : ∃ p, p.Nodup ∧ Route g p u v := by
  induction h with
  | here u => exact ⟨[u], by simp, .here u⟩
  | @there k u w v he _ ih =>
    obtain ⟨p, h1, h2⟩ := ih
    by_cases hu : u ∈ p
    · obtain ⟨q, h3, h4⟩ := h2.from hu
      exact ⟨q, h1.sublist h3, h4⟩
    · exact ⟨u :: p, List.nodup_cons.2 ⟨hu, h1⟩, .there he h2⟩

/-- If there is a way, there is one with fewer edges than the graph has nodes. -/
theorem Way.short {g : Graph} (hg : GoodGraph g) {k u v} (h : Way g k u v) (hv : v ∈ g.nodes) :
    ∃ j, j < g.nodes.length ∧ Way g j u v := by
  obtain ⟨p, h1, h2⟩ := Way.route h
  obtain ⟨j, h3, h4⟩ := h2.way
  have := List.Nodup.length_le_of_subset h1 (h2.nodes hg hv)
  exact ⟨j, by omega, h4⟩

theorem find_range {P : Nat → Bool} {n : Nat} : (∀ d, (List.range n).find? P = some d → d < n ∧ P d = true ∧ ∀ k, k < d → P k = false) ∧
    ((∃ j, j < n ∧ P j = true) → ∃ d, (List.range n).find? P = some d) := by
  constructor
  · intro d h
    refine ⟨List.mem_range.1 (List.mem_of_find?_eq_some h), List.find?_some h, fun k hk => ?_⟩
    obtain ⟨-, as, bs, h1, h2⟩ := List.find?_eq_some_iff_append.1 h
    have hl : as.length = d := by
      have h3 : (List.range n)[as.length]? = some d := by rw [h1]; simp
      rw [List.getElem?_range (by
        have := congrArg List.length h1
        simp at this
        omega)] at h3
      exact Option.some.inj h3
    have : k ∈ as := by
      have h3 : (List.range n)[k]? = some k := by
        have := congrArg List.length h1
        simp at this
        exact List.getElem?_range (by omega)
      rw [h1, List.getElem?_append_left (by omega)] at h3
      exact List.mem_of_getElem? h3
    simpa using h2 k this
  · rintro ⟨j, hj, hp⟩
    cases h : (List.range n).find? P with
    | some d => exact ⟨d, rfl⟩
    | none =>
      have := List.find?_eq_none.1 h j (List.mem_range.2 hj)
      exact absurd hp this

theorem dist_some {g : Graph} {u v : Int} {d : Nat} (h : dist g u v = some d) : Way g d u v ∧ ∀ k, k < d → ¬ Way g k u v := by
  obtain ⟨-, h1, h2⟩ := find_range.1 d h
  refine ⟨(way_iff g d u v).1 h1, fun k hk hw => ?_⟩
  have := h2 k hk
  rw [(way_iff g k u v).2 hw] at this
  cases this

theorem dist_way {g : Graph} (hg : GoodGraph g) {u v : Int} (hv : v ∈ g.nodes) {k : Nat} (h : Way g k u v) :
    ∃ d, dist g u v = some d := by
  obtain ⟨j, h1, h2⟩ := Way.short hg h hv
  exact find_range.2 ⟨j, h1, (way_iff g j u v).2 h2⟩

theorem mem_component {g : Graph} (hg : GoodGraph g) {r : Int} (hr : r ∈ g.nodes) (v : Int) :
    v ∈ component g r ↔ v ∈ g.nodes ∧ (∃ k, Way g k r v) ∧ ∃ k, Way g k v r := by
  simp only [component, List.mem_filter, Bool.and_eq_true, Option.isSome_iff_exists]
  constructor
  · rintro ⟨h1, ⟨d, h2⟩, d', h3⟩
    exact ⟨h1, ⟨d, (dist_some h2).1⟩, d', (dist_some h3).1⟩
  · rintro ⟨h1, ⟨k, h2⟩, k', h3⟩
    exact ⟨h1, dist_way hg h1 h2, dist_way hg hr h3⟩

theorem component_strong {g : Graph} (hg : GoodGraph g) {r : Int} (hr : r ∈ g.nodes) : StronglyConnected g (component g r) := by
  intro u hu v hv
  obtain ⟨-, -, k, h1⟩ := (mem_component hg hr u).1 hu
  obtain ⟨-, ⟨j, h2⟩, -⟩ := (mem_component hg hr v).1 hv
  exact ⟨k + j, Way.trans h1 h2⟩

theorem IsMax.largest {g : Graph} (hg : GoodGraph g) {c : List Int} (h : IsMax g c) : LargestStrong g c := by
  obtain ⟨r, hr, rfl, hmax⟩ := h
  refine ⟨hg.nodup.filter _, fun u hu => ((mem_component hg hr u).1 hu).1, component_strong hg hr, ?_⟩
  intro s hs hn hc
  cases s with
  | nil => simp
  | cons x s =>
    have hx : x ∈ g.nodes := hn x (by simp)
    refine Nat.le_trans (List.Nodup.length_le_of_subset hs fun y hy => ?_) (hmax x hx)
    exact (mem_component hg hx y).2 ⟨hn y hy, hc x (by simp) y hy, hc y hy x (by simp)⟩

/-- Ways between nodes of a component stay in it. -/
theorem component_way {g : Graph} (hg : GoodGraph g) {r : Int} (hr : r ∈ g.nodes) {k : Nat} {u v : Int} (h : Way g k u v) :
    u ∈ component g r → v ∈ component g r → Way (subgraph g (component g r)) k u v := by
  induction h with
  | here u => intro _ _; exact .here u
  | @there k u w v he hw ih =>
    intro hu hv
    have hwc : w ∈ component g r := by
      obtain ⟨-, ⟨j, h1⟩, -⟩ := (mem_component hg hr u).1 hu
      obtain ⟨-, -, i, h2⟩ := (mem_component hg hr v).1 hv
      exact (mem_component hg hr w).2 ⟨(hg.ends _ he).2, ⟨j + (0 + 1), Way.trans h1 (.there he (.here w))⟩, k + i, Way.trans hw h2⟩
    refine .there ?_ (ih hwc hv)
    simp only [subgraph, List.mem_filter, Bool.and_eq_true, decide_eq_true_eq]
    exact ⟨he, hu, hwc⟩

theorem subgraph_way {g : Graph} {c : List Int} {k : Nat} {u v : Int} (h : Way (subgraph g c) k u v) : Way g k u v := by
  induction h with
  | here u => exact .here u
  | there he _ ih => exact .there (List.mem_filter.1 he).1 ih

theorem subgraph_good {g : Graph} (hg : GoodGraph g) (c : List Int) : GoodGraph (subgraph g c) := by
  refine ⟨hg.nodup.filter _, fun e he => ?_⟩
  simp only [subgraph, List.mem_filter, Bool.and_eq_true, decide_eq_true_eq] at he ⊢
  exact ⟨⟨(hg.ends e he.1).1, he.2.1⟩, (hg.ends e he.1).2, he.2.2⟩

theorem subgraph_nodes {g : Graph} (r : Int) : (subgraph g (component g r)).nodes = component g r := by
  simp only [subgraph, component]
  apply List.filter_congr
  intro x hx
  simp only [List.mem_filter, hx, true_and]
  cases (dist g r x).isSome && (dist g x r).isSome <;> simp

theorem foldl_max_spec : ∀ (l : List Nat) (x : Nat), (∀ y ∈ x :: l, y ≤ l.foldl max x) ∧ l.foldl max x ∈ x :: l
  | [], x => by simp
  | y :: l, x => by
    obtain ⟨h1, h2⟩ := foldl_max_spec l (max x y)
    simp only [List.foldl_cons]
    constructor
    · intro z hz
      have h3 := h1 (max x y) (by simp)
      simp only [List.mem_cons] at hz
      rcases hz with rfl | rfl | hz
      · omega
      · omega
      · exact h1 z (by simp [hz])
    · rcases List.mem_cons.1 h2 with h2 | h2
      · rw [h2]
        by_cases hxy : x ≤ y
        · rw [Nat.max_eq_right hxy]; simp
        · rw [Nat.max_eq_left (by omega)]; simp
      · simp [h2]

theorem maxOf_spec {l : List Nat} (h : l ≠ []) : ∃ d, maxOf l = some d ∧ d ∈ l ∧ ∀ x ∈ l, x ≤ d := by
  cases l with
  | nil => exact absurd rfl h
  | cons x l => exact ⟨_, rfl, (foldl_max_spec l x).2, (foldl_max_spec l x).1⟩

/-- The largest value of a function on a list. -/
theorem mapM_max {α : Type} (f : α → Option Nat) : ∀ (l : List α), (∀ x ∈ l, ∃ d, f x = some d) → ∃ r, l.mapM f = some r ∧
    r.length = l.length ∧ (∀ d ∈ r, ∃ x ∈ l, f x = some d) ∧ ∀ x ∈ l, ∃ d ∈ r, f x = some d
  | [], _ => ⟨[], rfl, rfl, by simp, by simp⟩
  | x :: l, h => by
    obtain ⟨d, h1⟩ := h x (by simp)
    obtain ⟨r, h2, h3, h4, h5⟩ := mapM_max f l fun y hy => h y (List.mem_cons_of_mem _ hy)
    refine ⟨d :: r, by rw [List.mapM_cons, h1, h2]; rfl, by simp [h3], ?_, ?_⟩
    · intro y hy
      rcases List.mem_cons.1 hy with rfl | hy
      · exact ⟨x, by simp, h1⟩
      · obtain ⟨z, h6, h7⟩ := h4 y hy
        exact ⟨z, List.mem_cons_of_mem _ h6, h7⟩
    · intro y hy
      rcases List.mem_cons.1 hy with rfl | hy
      · exact ⟨d, by simp, h1⟩
      · obtain ⟨z, h6, h7⟩ := h5 y hy
        exact ⟨z, List.mem_cons_of_mem _ h6, h7⟩

theorem mapM_maxOf {α : Type} (f : α → Option Nat) {l : List α} (hl : l ≠ []) (h : ∀ x ∈ l, ∃ d, f x = some d) :
    ∃ d, (l.mapM f).bind maxOf = some d ∧ (∃ x ∈ l, f x = some d) ∧ ∀ x ∈ l, ∃ y, f x = some y ∧ y ≤ d := by
  obtain ⟨r, h1, h2, h3, h4⟩ := mapM_max f l h
  obtain ⟨d, h5, h6, h7⟩ := maxOf_spec (l := r) (by
    rintro rfl
    exact hl (List.eq_nil_of_length_eq_zero h2.symm))
  refine ⟨d, by rw [h1, Option.bind_some, h5], h3 d h6, fun x hx => ?_⟩
  obtain ⟨y, h8, h9⟩ := h4 x hx
  exact ⟨y, h9, h7 y h8⟩

/-- The diameter of a strongly connected graph. -/
theorem nxDiameter_spec {h : Graph} (hg : GoodGraph h) (hn : h.nodes ≠ []) (hs : StronglyConnected h h.nodes) :
    ∃ d, nxDiameter h = some d ∧ IsDiameter h h.nodes d := by
  have hd : ∀ u ∈ h.nodes, ∀ v ∈ h.nodes, ∃ d, dist h u v = some d := by
    intro u hu v hv
    obtain ⟨k, hk⟩ := hs u hu v hv
    exact dist_way hg hv hk
  have he : ∀ u ∈ h.nodes, ∃ d, (h.nodes.mapM fun v => dist h u v).bind maxOf = some d ∧ (∃ v ∈ h.nodes, dist h u v = some d) ∧
      ∀ v ∈ h.nodes, ∃ y, dist h u v = some y ∧ y ≤ d := fun u hu => mapM_maxOf _ hn (hd u hu)
  obtain ⟨d, h1, ⟨u, hu, h2⟩, h3⟩ := mapM_maxOf (fun u => (h.nodes.mapM fun v => dist h u v).bind maxOf) hn
    fun u hu => by obtain ⟨d, h, -⟩ := he u hu; exact ⟨d, h⟩
  refine ⟨d, h1, ?_, ?_⟩
  · intro u hu v hv
    obtain ⟨e, h4, h5⟩ := h3 u hu
    obtain ⟨e', h6, -, h7⟩ := he u hu
    obtain rfl := Option.some.inj (h4.symm.trans h6)
    obtain ⟨y, h8, h9⟩ := h7 v hv
    exact ⟨y, by omega, (dist_some h8).1⟩
  · obtain ⟨e', h6, ⟨v, hv, h7⟩, -⟩ := he u hu
    obtain rfl := Option.some.inj (h2.symm.trans h6)
    exact ⟨u, hu, v, hv, dist_some h7⟩

end DeepGNN.GraphMetric
