import Verif.Props.C15

/-
C16 Sampling without replacement never repeats an edge.
`Spec.Selection` says that the entries come from distinct positions of the list of neighbours, that is
from distinct edges, and that as many as possible are returned, followed by defaults.
-/

namespace DeepGNN

variable {C : WeightCodec} {wm : Option Nat} {m : Meta} {parts : List (List (List Rec))} {g : Graph}
  {items : List Item}

/-- For all draws: the answer for a node is a selection from the neighbours the engine reports for it. -/
theorem C16_distinct (h : Built C wm m parts g) (R : Draws) (types : List Int) (count : Nat)
    (hcount : 0 < count) (default : Int × Int) (reqs : List ((Int × Option Int) × List (Int × Int)))
    (hout : ∀ q ∈ reqs, q.2.length = count ∧ q.1.2 = none) (s : Nat) :
    ∃ outs s', g.uniformSample R true types count default reqs s = some (outs, s') ∧
      outs.length = reqs.length ∧ ∀ y ∈ reqs.zip outs, ∃ nbrs,
        g.fullNeighbor [y.1.1.1] none (sortUnique types) = some (nbrs, [nbrs.length]) ∧
        Spec.Selection (nbrs.map Spec.reported) (List.replicate count default) y.2 := by
  obtain ⟨items, hg, -⟩ := h.graphOk
  apply uniformSample_spec g R true types count default (fun a o => ∃ nbrs,
        g.fullNeighbor [a.1] none (sortUnique types) = some (nbrs, [nbrs.length]) ∧
        Spec.Selection (nbrs.map Spec.reported) (List.replicate count default) o)
  intro q hq s
  obtain ⟨rfl, h2⟩ := hout q hq
  obtain ⟨es, bs, h3, h4, h5⟩ := hg.sampleBlocks q.1.1 true (sortUnique types)
  obtain ⟨o, s', h6, h7⟩ := sampleWithout_of_blocks R none types default q.1.1 q.2 hcount s h3 h4
  refine ⟨o, s', by simpa [h2] using h6, (foundSeen items q.1.1 (sortUnique types)).map gnbr, ?_, ?_⟩
  · simp [Graph.fullNeighbor, hg.fullNeighbor1]
  · rw [h5] at h7
    have h8 := congrArg (List.map fun e : GEdge => (e.dst, e.typ))
      (foundSeen_noWeight items q.1.1 (sortUnique types))
    simp only [List.map_map] at h8
    rw [List.map_map]
    have h9 : (foundSeen items q.1.1 (sortUnique types)).map (Spec.reported ∘ gnbr) =
      (foundEdges items q.1.1 (sortUnique types)).map edgePair := h8
    rw [h9]; exact h7

/-- In terms of the input.  Missing: requests with a gap in the types (the neighbours are incomplete
then, as in C03). -/
theorem C16_neighbors_partial (h : Built C wm m parts g) (R : Draws) (types : List Int) (count : Nat)
    (hcount : 0 < count) (default : Int × Int) (reqs : List ((Int × Option Int) × List (Int × Int)))
    (hout : ∀ q ∈ reqs, q.2.length = count ∧ q.1.2 = none)
    (hgap : ∀ q ∈ reqs, Spec.NoGap parts q.1.1 types) (s : Nat) :
    ∃ outs s', g.uniformSample R true types count default reqs s = some (outs, s') ∧
      outs.length = reqs.length ∧ ∀ y ∈ reqs.zip outs,
        Spec.Selection ((Spec.neighbors parts y.1.1.1 types).map Spec.reported)
          (List.replicate count default) y.2 := by
  obtain ⟨items, hg, -⟩ := h.graphOk
  apply uniformSample_spec g R true types count default (fun a o =>
    Spec.Selection ((Spec.neighbors parts a.1 types).map Spec.reported) (List.replicate count default) o)
  intro q hq s
  obtain ⟨rfl, h2⟩ := hout q hq
  obtain ⟨es, bs, h3, h4, h5⟩ := hg.sampleBlocks q.1.1 true (sortUnique types)
  obtain ⟨o, s', h6, h7⟩ := sampleWithout_of_blocks R none types default q.1.1 q.2 hcount s h3 h4
  rw [h5, found_reported hg _ types (hgap q hq)] at h7
  exact ⟨o, s', by simpa [h2] using h6, h7⟩

theorem Built.unremoved (h : Built C wm m parts g) (hg : GraphOk C m g items parts) (n : Int)
    (hc : ∀ r ∈ Spec.allRecords parts, ∀ c, r.created = some c → 0 ≤ c)
    (hr : ∀ r ∈ Spec.allRecords parts, r.removed ≠ some 0)
    (hu : ∀ e ∈ Spec.allTimedEdges parts, e.src = n → e.removed = none) :
    ∀ it ∈ items, ∀ b ∈ it.blks, b.id = n → ∀ e ∈ b.edges, e.removed = -1 := by
  intro it hit b hb hid e he
  obtain ⟨part, hp, hsrc⟩ := item_of_src hg.src hit
  simp only [Spec.allTimedEdges] at hu
  rw [timed_calls parts.flatten h.acc hc hr] at hu
  have h1 : (b.id, e) ∈ parts.flatten.flatMap (effEdges 0 (-1)) := by
    have h2 : (b.id, e) ∈ part.flatMap (effEdges 0 (-1)) := by
      rw [← hsrc.edges]
      exact List.mem_flatMap.2 ⟨b, hb, List.mem_map_of_mem he⟩
    obtain ⟨c, hcm, hx⟩ := List.mem_flatMap.1 h2
    exact List.mem_flatMap.2 ⟨c, List.mem_flatten.2 ⟨part, hp, hcm⟩, hx⟩
  have h2 := hu _ (List.mem_map_of_mem h1) (by simpa [toTimed] using hid)
  simp only [toTimed] at h2
  split at h2
  · assumption
  · simp at h2

/-- The same at a timestamp, for nodes whose edges are never removed and were given in the order of
their creation times.  Missing: nodes with removed edges, see `C16_removed_refuted`. -/
theorem C16_temporal_partial (h : Built C wm m parts g) (hwm : 0 ≤ m.watermark) (R : Draws) (types : List Int)
    (count : Nat) (hcount : 0 < count) (default : Int × Int) (reqs : List ((Int × Int) × List (Int × Int)))
    (hout : ∀ q ∈ reqs, q.2.length = count)
    (hgap : ∀ q ∈ reqs, Spec.NoGap parts q.1.1 types)
    (hts : ∀ q ∈ reqs, -(2 ^ 31) ≤ q.1.2 ∧ q.1.2 < 2 ^ 31)
    (ho : ∀ q ∈ reqs, Spec.OrderedLifetimes parts q.1.1)
    (hu : ∀ q ∈ reqs, ∀ e ∈ Spec.allTimedEdges parts, e.src = q.1.1 → e.removed = none)
    (hc : ∀ r ∈ Spec.allRecords parts, ∀ c, r.created = some c → 0 ≤ c)
    (hr : ∀ r ∈ Spec.allRecords parts, r.removed ≠ some 0) (s : Nat) :
    ∃ outs s', g.uniformSample R true types count default
        (reqs.map fun q => ((q.1.1, some q.1.2), q.2)) s = some (outs, s') ∧
      outs.length = reqs.length ∧ ∀ y ∈ reqs.zip outs,
        Spec.Selection ((Spec.neighborsAt parts y.1.1.1 y.1.1.2 types).map Spec.reported)
          (List.replicate count default) y.2 := by
  obtain ⟨items, hg, -⟩ := h.graphOk
  obtain ⟨outs, s', h1, h2, h3⟩ := uniformSample_spec g R true types count default (fun a o =>
    Spec.Selection ((Spec.neighborsAt parts a.1 (a.2.getD 0) types).map Spec.reported)
      (List.replicate count default) o)
    (reqs.map fun q => ((q.1.1, some q.1.2), q.2)) s (by
      intro q' hq' s
      obtain ⟨q, hq, rfl⟩ := List.mem_map.1 hq'
      obtain rfl := hout q hq
      obtain ⟨es, bs, h3, h4, h5⟩ := hg.sampleBlocksAt hwm q.1.1 true q.1.2 (hts q hq) (sortUnique types)
        (h.ordered hg q.1.1 hc hr (ho q hq)) (fun _ => h.unremoved hg q.1.1 hc hr (hu q hq))
      obtain ⟨o, s', h6, h7⟩ := sampleWithout_of_blocks R (some q.1.2) types default q.1.1 q.2 hcount s h3 h4
      rw [h5, found_reportedAt h hg _ _ types (hgap q hq) hc hr] at h7
      exact ⟨o, s', by simpa using h6, h7⟩)
  refine ⟨outs, s', h1, by simpa using h2, ?_⟩
  rw [List.zip_map_left] at h3
  intro y hy
  exact h3 _ (List.mem_map_of_mem hy)

/-- Non-vacuity: two of the edges of node 1 (types 0, 1, 2). -/
example (R : Draws) : ∃ g, Built intCodec none ⟨0, 0, -1⟩ C02_example g ∧
    ∃ outs s', g.uniformSample R true [0, 1, 2] 2 (-1, -1) [((1, none), [(9, 9), (9, 9)])] 0 = some (outs, s') ∧
      ∃ o, outs = [o] ∧ Spec.Selection ((Spec.neighbors C02_example 1 [0, 1, 2]).map Spec.reported)
        [(-1, -1), (-1, -1)] o ∧ 2 ≤ (Spec.neighbors C02_example 1 [0, 1, 2]).length := by
  obtain ⟨g, -, hg⟩ := built_of_check (wm := none) (m := ⟨0, 0, -1⟩) (parts := C02_example)
    (by decide +kernel)
  obtain ⟨outs, s', h1, h2, h3⟩ := C16_neighbors_partial hg R [0, 1, 2] 2 (by decide) (-1, -1)
    [((1, none), [(9, 9), (9, 9)])] (by decide) (by decide +kernel) 0
  refine ⟨g, hg, outs, s', h1, ?_⟩
  match outs, h2, h3 with
  | [a], _, h3 => exact ⟨a, rfl, h3 (((1, none), [(9, 9), (9, 9)]), a) (by simp), by decide +kernel⟩

/-- Two edges of node 1, never removed. -/
def C16_forever : List (List (List Rec)) :=
  [[[⟨1, -1, 0, 1, none, none, []⟩, ⟨1, 2, 0, 1, some 0, none, []⟩, ⟨1, 3, 0, 1, some 1, none, []⟩,
     ⟨1, 4, 0, 1, some 5, none, []⟩]]]

/-- Non-vacuity of the temporal statement: the edge to 4 does not exist at time 3. -/
example (R : Draws) : ∃ g, Built intCodec (some 9) ⟨0, 0, 9⟩ C16_forever g ∧
    ∃ outs s', g.uniformSample R true [0] 2 (-1, -1) [((1, some 3), [(9, 9), (9, 9)])] 0 = some (outs, s') ∧
      ∃ o, outs = [o] ∧ Spec.Selection [(2, 0), (3, 0)] [(-1, -1), (-1, -1)] o := by
  obtain ⟨g, -, hg⟩ := built_of_check (wm := some 9) (m := ⟨0, 0, 9⟩) (parts := C16_forever)
    (by decide +kernel)
  obtain ⟨outs, s', h1, h2, h3⟩ := C16_temporal_partial hg (by decide) R [0] 2 (by decide) (-1, -1)
    [((1, 3), [(9, 9), (9, 9)])] (by decide) (by decide +kernel) (by decide) (by decide +kernel)
    (by decide +kernel) (by
      intro r hr c hc
      have : ∀ r ∈ Spec.allRecords C16_forever, 0 ≤ r.created.getD 0 := by decide +kernel
      simpa [hc] using this r hr) (by decide +kernel) 0
  refine ⟨g, hg, outs, s', h1, ?_⟩
  match outs, h2, h3 with
  | [a], _, h3 =>
    have := h3 (((1, 3), [(9, 9), (9, 9)]), a) (by simp)
    rw [show (Spec.neighborsAt C16_forever 1 3 [0]).map Spec.reported = [(2, 0), (3, 0)] by decide +kernel] at this
    exact ⟨a, rfl, this⟩

/-- Two edges of node 1 with lifetimes [0, 5) and [1, 7). -/
def C16_removed : List (List (List Rec)) :=
  [[[⟨1, -1, 0, 1, none, none, []⟩, ⟨1, 2, 0, 1, some 0, some 5, []⟩, ⟨1, 3, 0, 1, some 1, some 7, []⟩]]]

/-- Both edges exist at time 3, but for all draws a sample of two without replacement is the first
edge twice. -/
theorem C16_removed_refuted (R : Draws) : ∃ g, Built intCodec (some 9) ⟨0, 0, 9⟩ C16_removed g ∧
    (Spec.neighborsAt C16_removed 1 3 [0]).map Spec.reported = [(2, 0), (3, 0)] ∧
    ∃ s', g.uniformSample R true [0] 2 (-1, -1) [((1, some 3), [(9, 9), (9, 9)])] 0 =
      some ([[(2, 0), (2, 0)]], s') := by
  obtain ⟨g, hg, hb⟩ := built_of_check (wm := some 9) (m := ⟨0, 0, 9⟩) (parts := C16_removed)
    (by decide +kernel)
  refine ⟨g, hb, by decide +kernel, ?_⟩
  have : (graphOf intCodec (some 9) ⟨0, 0, 9⟩ C16_removed).bind (fun g => (g.entries 1).bind fun es =>
      es.mapM fun (p, id) => p.sampleBlocks true id (some 3) (sortUnique [0])) = some [[[(2, 0)], [(2, 0)]]] := by
    decide +kernel
  rw [hg, Option.bind_some] at this
  obtain ⟨es, h1, h2⟩ := Option.bind_eq_some_iff.1 this
  obtain ⟨o, s', h3, h4⟩ := sampleWithout_of_blocks (g := g) R (some 3) [0] (-1, -1) 1 [(9, 9), (9, 9)] (by decide) 0 h1 h2
  refine ⟨s', ?_⟩
  obtain ⟨chosen, ps, e1, e2, e3, e4⟩ := h4
  have hl : chosen.length = 2 := by rw [e2]; rfl
  have hall : ∀ x ∈ chosen, x = (2, 0) := by
    intro x hx
    have : some x ∈ ps.map fun p => ([[[(2, 0)], [(2, 0)]]] : List (List (List (Int × Int)))).flatten.flatten[p]? := by
      rw [e4]; exact List.mem_map_of_mem hx
    obtain ⟨p, -, hp⟩ := List.mem_map.1 this
    have := List.mem_of_getElem? hp
    simpa using this
  have ho : o = [(2, 0), (2, 0)] := by
    match chosen, hl, hall with
    | [a, b], _, hall =>
      rw [e1, hall a (by simp), hall b (by simp)]; rfl
  simp only [List.length_cons, List.length_nil] at h3
  simp [Graph.uniformSample, sampleNodes, h3, ho]

end DeepGNN
