import Verif.Proofs.GraphMetric

/-
C112 The properties of graphs that the sampling tools report.
-/

namespace DeepGNN

open ForestFire (Graph)
open GraphMetric
open DeepGNN.Spec (GoodGraph Way StronglyConnected LargestStrong IsDiameter EffectiveDiameter pairsWithin nearby)

/-- For every graph with a node and every order in which networkx lists the components, `diameter` returns the largest distance, in
the whole graph, between two nodes of a largest strongly connected set.  It never raises.  The documentation promises the
effective 90% diameter instead, see `C112_effective_refuted`. -/
theorem C112_diameter_partial (g : Graph) (hg : GoodGraph g) (c : List Int) (hc : IsMax g c) :
    LargestStrong g c ∧ ∃ d, diameter g c = some d ∧ IsDiameter g c d := by
  have hlarge := hc.largest hg
  refine ⟨hlarge, ?_⟩
  obtain ⟨r, hr, rfl, -⟩ := hc
  have hn := subgraph_nodes (g := g) r
  have hne : component g r ≠ [] := by
    have : r ∈ component g r := (mem_component hg hr r).2 ⟨hr, ⟨0, .here r⟩, 0, .here r⟩
    intro h
    rw [h] at this
    cases this
  have hlen : ¬ g.nodes.length = 0 := by
    intro h
    rw [List.eq_nil_of_length_eq_zero h] at hr
    cases hr
  obtain ⟨d, h1, h2, u, hu, v, hv, h3, h4⟩ := nxDiameter_spec (subgraph_good hg (component g r)) (by rwa [hn]) (by
    rw [hn]
    intro u hu v hv
    obtain ⟨k, hk⟩ := hlarge.strong u hu v hv
    exact ⟨k, component_way hg hr hk hu hv⟩)
  rw [hn] at h2 hu hv
  refine ⟨d, by rw [diameter, if_neg hlen, h1], ?_, u, hu, v, hv, subgraph_way h3, fun k hk hw => h4 k hk (component_way hg hr hw hu hv)⟩
  intro u hu v hv
  obtain ⟨k, h5, h6⟩ := h2 u hu v hv
  exact ⟨k, h5, subgraph_way h6⟩

/-- A largest component exists in every graph with a node, and a graph without nodes has diameter 0 and no component. -/
theorem C112_defined (g : Graph) : (g.nodes ≠ [] → ∃ c, IsMax g c) ∧
    (g.nodes = [] → ∀ c, diameter g c = some 0 ∧ largest g c = (0, 1)) := by
  constructor
  · intro h
    have : ∀ l : List Int, l ≠ [] → ∃ r ∈ l, ∀ r' ∈ l, (component g r').length ≤ (component g r).length := by
      intro l
      induction l with
      | nil => intro h; exact absurd rfl h
      | cons x l ih =>
        intro _
        by_cases hl : l = []
        · subst hl; exact ⟨x, by simp, by simp⟩
        · obtain ⟨r, h1, h2⟩ := ih hl
          by_cases hx : (component g x).length ≤ (component g r).length
          · refine ⟨r, List.mem_cons_of_mem _ h1, fun r' hr' => ?_⟩
            rcases List.mem_cons.1 hr' with rfl | hr'
            · exact hx
            · exact h2 r' hr'
          · refine ⟨x, by simp, fun r' hr' => ?_⟩
            rcases List.mem_cons.1 hr' with rfl | hr'
            · exact Nat.le_refl _
            · have := h2 r' hr'
              omega
    obtain ⟨r, h1, h2⟩ := this g.nodes h
    exact ⟨_, r, h1, rfl, h2⟩
  · intro h c
    simp [diameter, largest, h]

/-- `largest_connected_component` returns the share of the nodes that are in a largest strongly connected set: more than 0, at most 1,
and 1 exactly if every node of the graph can be reached from every other one. -/
theorem C112_component (g : Graph) (hg : GoodGraph g) (c : List Int) (hc : IsMax g c) :
    LargestStrong g c ∧ largest g c = (c.length, g.nodes.length) ∧ 0 < c.length ∧ c.length ≤ g.nodes.length ∧
      (c.length = g.nodes.length ↔ StronglyConnected g g.nodes) := by
  have hlarge := hc.largest hg
  obtain ⟨r, hr, rfl, -⟩ := hc
  have hlen : ¬ g.nodes.length = 0 := by
    intro h
    rw [List.eq_nil_of_length_eq_zero h] at hr
    cases hr
  have hle := List.Nodup.length_le_of_subset hlarge.nodup hlarge.nodes
  refine ⟨hlarge, by rw [largest, if_neg hlen, subgraph_nodes], ?_, hle, ?_, ?_⟩
  · exact List.length_pos_of_mem ((mem_component hg hr r).2 ⟨hr, ⟨0, .here r⟩, 0, .here r⟩)
  · intro h
    have : component g r = g.nodes := by
      have h1 : (component g r).Sublist g.nodes := List.filter_sublist
      exact h1.eq_of_length h
    rw [← this]
    exact hlarge.strong
  · intro h
    exact Nat.le_antisymm hle (hlarge.largest g.nodes hg.nodup (fun u hu => hu) h)

/-- `densification` returns a number for every graph: the logarithm is taken only where it is defined. -/
theorem C112_densification {R : Type} (zero : R) (log : Nat → Nat → R) (g : Graph) :
    densification zero log g = some (if g.nodes.length ≤ 1 ∨ g.edges.length = 0 then zero else log g.edges.length g.nodes.length) := by
  unfold densification mathLog
  by_cases h1 : g.nodes.length ≤ 1
  · simp [h1]
  · by_cases h2 : g.edges.length = 0
    · simp [h2]
    · rw [if_neg h1, if_neg h2, if_neg (by omega), if_neg (by omega), if_neg (by omega)]

/-- A ring of 12 nodes. -/
def C112_ring : Graph := ⟨(List.range 12).map Int.ofNat, (List.range 12).map fun i => (Int.ofNat i, Int.ofNat ((i + 1) % 12))⟩

/-- A ring of three nodes with a tail. -/
def C112_tail : Graph := ⟨[5, 1, 2, 3], [(1, 2), (2, 3), (3, 1), (3, 5)]⟩

/-- Non-vacuity: a component that is not the whole graph; 2 is its diameter. -/
example : GoodGraph C112_tail ∧ IsMax C112_tail [1, 2, 3] ∧ diameter C112_tail [1, 2, 3] = some 2 ∧
    largest C112_tail [1, 2, 3] = (3, 4) :=
  ⟨⟨by decide, by decide⟩, ⟨1, by decide, by decide, by decide⟩, by decide, by decide⟩

/-- The documented "effective 90% diameter" is not returned: in a ring of 12 nodes more than 90% of the pairs are at most 10 edges
apart, and 11 is returned. -/
theorem C112_effective_refuted : GoodGraph C112_ring ∧ ∃ c, IsMax C112_ring c ∧ diameter C112_ring c = some 11 ∧
    EffectiveDiameter C112_ring c 10 := by
  refine ⟨⟨by decide +kernel, by decide +kernel⟩, C112_ring.nodes, ⟨0, by decide +kernel, by decide +kernel, ?_⟩, by decide +kernel, by decide +kernel, ?_⟩
  · intro r' _
    exact List.length_filter_le _ _
  · decide +kernel

/-- `average_clustering` returns nothing for any graph: nodes are looked up by a random position, which yields their attributes or
nothing, and attributes are no key of the neighbours.  Without trials it divides by zero. -/
theorem C112_clustering_refuted (g : Graph) (pick : List Int → Int × Int) (draws : List Int) :
    averageClustering g pick draws = none := by
  cases draws with
  | nil => rfl
  | cons i is =>
    unfold averageClustering clusteringLoop nodeView
    split <;> rfl

end DeepGNN
