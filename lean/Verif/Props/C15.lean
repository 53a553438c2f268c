import Verif.Proofs.Sampling
import Verif.Props.C06

/-
C15 Uniform neighbour sampling returns only real neighbours.
A request is a node, its timestamp if the query is temporal, and the previous contents of the output
buffer of that node, which is arbitrary.
-/

namespace DeepGNN

variable {C : WeightCodec} {wm : Option Nat} {m : Meta} {parts : List (List (List Rec))} {g : Graph}
  {items : List Item}

theorem found_reported (hg : GraphOk C m g items parts) (n : Int) (types : List Int)
    (hgap : Spec.NoGap parts n types) :
    (foundEdges items n (sortUnique types)).map edgePair =
      (Spec.neighbors parts n types).map Spec.reported := by
  have h1 : foundEdges items n (sortUnique types) = inputEdges parts n (sortUnique types) := by
    apply hg.found_eq n _ (sortUnique_sorted types)
    intro x hx hxn y hy hyn hyt hex
    obtain ⟨r, hr, h1, h2⟩ := mem_input_record hx
    obtain ⟨r', hr', h1', h2'⟩ := mem_input_record hy
    simp only [sortUnique_mem] at hyt hex ⊢
    rw [← h2]
    exact hgap r hr r' hr' (by rw [h1, hxn]) (by rw [h1', hyn]) (by rw [h2']; exact hyt)
      (by rw [h2, h2']; exact hex)
  have h2 : Spec.neighbors parts n (sortUnique types) = Spec.neighbors parts n types := by
    simp only [Spec.neighbors, sortUnique_mem]
  rw [h1, ← h2, ← inputEdges_neighbors, List.map_map]
  rfl

theorem found_reportedAt (h : Built C wm m parts g) (hg : GraphOk C m g items parts) (n t : Int) (types : List Int)
    (hgap : Spec.NoGap parts n types)
    (hc : ∀ r ∈ Spec.allRecords parts, ∀ c, r.created = some c → 0 ≤ c)
    (hr : ∀ r ∈ Spec.allRecords parts, r.removed ≠ some 0) :
    ((foundEdges items n (sortUnique types)).filter (liveB t)).map edgePair =
      (Spec.neighborsAt parts n t types).map Spec.reported := by
  have h1 : foundEdges items n (sortUnique types) = inputEdges parts n (sortUnique types) := by
    apply hg.found_eq n _ (sortUnique_sorted types)
    intro x hx hxn y hy hyn hyt hex
    obtain ⟨r, hr, h1, h2⟩ := mem_input_record hx
    obtain ⟨r', hr', h1', h2'⟩ := mem_input_record hy
    simp only [sortUnique_mem] at hyt hex ⊢
    rw [← h2]
    exact hgap r hr r' hr' (by rw [h1, hxn]) (by rw [h1', hyn]) (by rw [h2']; exact hyt)
      (by rw [h2, h2']; exact hex)
  have h2 : Spec.neighborsAt parts n t (sortUnique types) = Spec.neighborsAt parts n t types := by
    simp only [Spec.neighborsAt, sortUnique_mem]
  rw [h1, ← h2, ← inputEdges_neighborsAt parts n t _ h.acc hc hr, List.map_map]
  rfl

theorem found_reported_sublist (hg : GraphOk C m g items parts) (n : Int) (types : List Int) :
    ((foundEdges items n (sortUnique types)).map edgePair).Sublist
      ((Spec.neighbors parts n types).map Spec.reported) := by
  have h2 : Spec.neighbors parts n (sortUnique types) = Spec.neighbors parts n types := by
    simp only [Spec.neighbors, sortUnique_mem]
  rw [← h2, ← inputEdges_neighbors, List.map_map]
  exact (hg.found_sublist n _).map edgePair

/-- For all draws `R`: every node gets `count` entries, and they are all neighbours of the node over
the requested types or all the default. -/
theorem C15_only_neighbors (h : Built C wm m parts g) (R : Draws) (types : List Int) (count : Nat)
    (default : Int × Int) (reqs : List ((Int × Option Int) × List (Int × Int)))
    (hout : ∀ q ∈ reqs, q.2.length = count ∧ q.1.2 = none) (s : Nat) :
    ∃ outs s', g.uniformSample R false types count default reqs s = some (outs, s') ∧
      outs.length = reqs.length ∧ ∀ y ∈ reqs.zip outs, y.2.length = count ∧
        ((∀ x ∈ y.2, x ∈ (Spec.neighbors parts y.1.1.1 types).map Spec.reported) ∨
          y.2 = List.replicate count default) := by
  obtain ⟨items, hg, -⟩ := h.graphOk
  apply uniformSample_spec g R false types count default (fun a o => o.length = count ∧
        ((∀ x ∈ o, x ∈ (Spec.neighbors parts a.1 types).map Spec.reported) ∨
          o = List.replicate count default))
  intro q hq s
  obtain ⟨rfl, h2⟩ := hout q hq
  obtain ⟨es, bs, h3, h4, h5⟩ := hg.sampleBlocks q.1.1 false (sortUnique types)
  obtain ⟨o, s', h6, h7, h8, h9⟩ := sampleWith_of_blocks R none types default q.1.1 q.2 s h3 h4
  rw [h5] at h8 h9
  refine ⟨o, s', by simpa [h2] using h6, h7, ?_⟩
  by_cases he : (foundEdges items q.1.1 (sortUnique types)).map edgePair = []
  · exact Or.inr (h8 he)
  · exact Or.inl fun x hx => (found_reported_sublist hg _ types).subset (h9 he x hx)

/-- The full statement: defaults are returned only if there is no neighbour of a requested type.
Missing: requests with a gap in the types, see `C15_gap_refuted`. -/
theorem C15_sampled_partial (h : Built C wm m parts g) (R : Draws) (types : List Int) (count : Nat)
    (default : Int × Int) (reqs : List ((Int × Option Int) × List (Int × Int)))
    (hout : ∀ q ∈ reqs, q.2.length = count ∧ q.1.2 = none)
    (hgap : ∀ q ∈ reqs, Spec.NoGap parts q.1.1 types) (s : Nat) :
    ∃ outs s', g.uniformSample R false types count default reqs s = some (outs, s') ∧
      outs.length = reqs.length ∧ ∀ y ∈ reqs.zip outs,
        Spec.Sampled ((Spec.neighbors parts y.1.1.1 types).map Spec.reported) count default y.2 := by
  obtain ⟨items, hg, -⟩ := h.graphOk
  apply uniformSample_spec g R false types count default (fun a o =>
    Spec.Sampled ((Spec.neighbors parts a.1 types).map Spec.reported) count default o)
  intro q hq s
  obtain ⟨rfl, h2⟩ := hout q hq
  obtain ⟨es, bs, h3, h4, h5⟩ := hg.sampleBlocks q.1.1 false (sortUnique types)
  obtain ⟨o, s', h6, h7, h8, h9⟩ := sampleWith_of_blocks R none types default q.1.1 q.2 s h3 h4
  rw [h5, found_reported hg _ types (hgap q hq)] at h8 h9
  exact ⟨o, s', by simpa [h2] using h6, h7, h9, h8⟩

/-- The same at a timestamp: only edges that exist then are returned.  Missing in addition: orders of
the edges and timestamps as in C06, removal times 0 as in C05. -/
theorem C15_temporal_partial (h : Built C wm m parts g) (hwm : 0 ≤ m.watermark) (R : Draws) (types : List Int)
    (count : Nat) (default : Int × Int) (reqs : List ((Int × Int) × List (Int × Int)))
    (hout : ∀ q ∈ reqs, q.2.length = count)
    (hgap : ∀ q ∈ reqs, Spec.NoGap parts q.1.1 types)
    (hts : ∀ q ∈ reqs, -(2 ^ 31) ≤ q.1.2 ∧ q.1.2 < 2 ^ 31)
    (ho : ∀ q ∈ reqs, Spec.OrderedLifetimes parts q.1.1)
    (hc : ∀ r ∈ Spec.allRecords parts, ∀ c, r.created = some c → 0 ≤ c)
    (hr : ∀ r ∈ Spec.allRecords parts, r.removed ≠ some 0) (s : Nat) :
    ∃ outs s', g.uniformSample R false types count default
        (reqs.map fun q => ((q.1.1, some q.1.2), q.2)) s = some (outs, s') ∧
      outs.length = reqs.length ∧ ∀ y ∈ reqs.zip outs,
        Spec.Sampled ((Spec.neighborsAt parts y.1.1.1 y.1.1.2 types).map Spec.reported) count default y.2 := by
  obtain ⟨items, hg, -⟩ := h.graphOk
  obtain ⟨outs, s', h1, h2, h3⟩ := uniformSample_spec g R false types count default (fun a o =>
    Spec.Sampled ((Spec.neighborsAt parts a.1 (a.2.getD 0) types).map Spec.reported) count default o)
    (reqs.map fun q => ((q.1.1, some q.1.2), q.2)) s (by
      intro q' hq' s
      obtain ⟨q, hq, rfl⟩ := List.mem_map.1 hq'
      obtain rfl := hout q hq
      obtain ⟨es, bs, h3, h4, h5⟩ := hg.sampleBlocksAt hwm q.1.1 false q.1.2 (hts q hq) (sortUnique types)
        (h.ordered hg q.1.1 hc hr (ho q hq)) (by simp)
      obtain ⟨o, s', h6, h7, h8, h9⟩ := sampleWith_of_blocks R (some q.1.2) types default q.1.1 q.2 s h3 h4
      rw [h5, found_reportedAt h hg _ _ types (hgap q hq) hc hr] at h8 h9
      exact ⟨o, s', by simpa using h6, h7, h9, h8⟩)
  refine ⟨outs, s', h1, by simpa using h2, ?_⟩
  rw [List.zip_map_left] at h3
  intro y hy
  exact h3 _ (List.mem_map_of_mem hy)

/-- Non-vacuity: three samples for node 1, whose edges have types 0, 1, 2, and for node 7 that does not exist. -/
example (R : Draws) : ∃ g, Built intCodec none ⟨0, 0, -1⟩ C02_example g ∧
    ∃ outs s', g.uniformSample R false [2, 0] 3 (-1, -1)
        [((1, none), [(9, 9), (9, 9), (9, 9)]), ((7, none), [(9, 9), (9, 9), (9, 9)])] 0 = some (outs, s') ∧
      outs[0]?.map (fun o => decide (∀ x ∈ o, x = (2, 0) ∨ x = (3, 2))) = some true ∧
      outs[1]? = some [(-1, -1), (-1, -1), (-1, -1)] := by
  obtain ⟨g, -, hg⟩ := built_of_check (wm := none) (m := ⟨0, 0, -1⟩) (parts := C02_example)
    (by decide +kernel)
  obtain ⟨outs, s', h1, h2, h3⟩ := C15_sampled_partial hg R [2, 0] 3 (-1, -1)
    [((1, none), [(9, 9), (9, 9), (9, 9)]), ((7, none), [(9, 9), (9, 9), (9, 9)])]
    (by decide) (by decide +kernel) 0
  refine ⟨g, hg, outs, s', h1, ?_⟩
  match outs, h2, h3 with
  | [a, b], _, h3 =>
    have ha := h3 (((1, none), [(9, 9), (9, 9), (9, 9)]), a) (by simp)
    have hb := h3 (((7, none), [(9, 9), (9, 9), (9, 9)]), b) (by simp)
    rw [show (Spec.neighbors C02_example 1 [2, 0]).map Spec.reported = [(2, 0), (3, 2)] by decide +kernel] at ha
    rw [show (Spec.neighbors C02_example 7 [2, 0]).map Spec.reported = [] by decide +kernel] at hb
    have ha' := ha.2.1 (by simp)
    have hb' := hb.2.2 rfl
    simp only [List.getElem?_cons_zero, Option.map_some, Option.some.injEq, decide_eq_true_eq]
    refine ⟨fun x hx => by simpa using ha' x hx, ?_⟩
    exact congrArg some hb'

/-- Non-vacuity of the temporal statement: at time 5 the edge to 3 is gone. -/
example (R : Draws) : ∃ g, Built intCodec (some 9) ⟨0, 0, 9⟩ C06_example g ∧
    ∃ outs s', g.uniformSample R false [0, 1] 2 (-1, -1)
        [((1, some 5), [(9, 9), (9, 9)])] 0 = some (outs, s') ∧
      outs[0]?.map (fun o => decide (o.length = 2 ∧ ∀ x ∈ o, x = (2, 0) ∨ x = (4, 1))) = some true := by
  obtain ⟨g, -, hg⟩ := built_of_check (wm := some 9) (m := ⟨0, 0, 9⟩) (parts := C06_example)
    (by decide +kernel)
  obtain ⟨outs, s', h1, h2, h3⟩ := C15_temporal_partial hg (by decide) R [0, 1] 2 (-1, -1)
    [((1, 5), [(9, 9), (9, 9)])] (by decide) (by decide +kernel) (by decide) (by decide +kernel) (by
      intro r hr c hc
      have : ∀ r ∈ Spec.allRecords C06_example, 0 ≤ r.created.getD 0 := by decide +kernel
      simpa [hc] using this r hr) (by decide +kernel) 0
  refine ⟨g, hg, outs, s', h1, ?_⟩
  match outs, h2, h3 with
  | [a], _, h3 =>
    have ha := h3 (((1, 5), [(9, 9), (9, 9)]), a) (by simp)
    rw [show (Spec.neighborsAt C06_example 1 5 [0, 1]).map Spec.reported = [(2, 0), (4, 1)] by decide +kernel] at ha
    have ha' := ha.2.1 (by simp)
    simp only [List.getElem?_cons_zero, Option.map_some, Option.some.injEq, decide_eq_true_eq]
    exact ⟨ha.1, fun x hx => by simpa using ha' x hx⟩

/-- With a gap in the types, the default is returned although there is a neighbour. -/
theorem C15_gap_refuted (R : Draws) : ∃ g, Built intCodec none ⟨0, 0, -1⟩ C03_gap g ∧
    Spec.neighbors C03_gap 1 [1, 2] = [⟨3, 2, 9⟩] ∧
    g.uniformSample R false [1, 2] 1 (-1, -1) [((1, none), [(9, 9)])] 0 = some ([[(-1, -1)]], 0) := by
  obtain ⟨g, hg, hb⟩ := built_of_check (wm := none) (m := ⟨0, 0, -1⟩) (parts := C03_gap)
    (by decide +kernel)
  refine ⟨g, hb, by decide +kernel, ?_⟩
  have : (graphOf intCodec none ⟨0, 0, -1⟩ C03_gap).bind (fun g => (g.entries 1).bind fun es =>
      es.mapM fun (p, id) => p.sampleBlocks false id none (sortUnique [1, 2])) = some [[]] := by decide +kernel
  rw [hg, Option.bind_some] at this
  obtain ⟨es, h1, h2⟩ := Option.bind_eq_some_iff.1 this
  simp [Graph.uniformSample, sampleNodes, Graph.sampleWith1, h1, h2]

end DeepGNN
