import Verif.Props.C02

/-
C03 Edge type filter is exact.
-/

namespace DeepGNN

/-- Nothing else is returned: the answer for a node is a sub-list, in input order, of its edges with
a requested type.  Any list of types. -/
theorem C03_only_requested {C : WeightCodec} {wm : Option Nat} {m : Meta}
    {parts : List (List (List Rec))} {g : Graph} (h : Built C wm m parts g) (n : Int) (types : List Int) :
    ∃ nbrs, g.fullNeighbor [n] none types = some (nbrs, [nbrs.length]) ∧
      (nbrs.map fun x => (x.dst, x.typ)).Sublist
        ((Spec.neighbors parts n types).map fun x => (x.dst, x.typ)) := by
  obtain ⟨items, hg, -⟩ := h.graphOk
  refine ⟨(foundSeen items n types).map gnbr, ?_, ?_⟩
  · simp [Graph.fullNeighbor, hg.fullNeighbor1]
  · have h1 := (hg.found_sublist n types).map fun e => (e.dst, e.typ)
    have h2 := congrArg (List.map fun e : GEdge => (e.dst, e.typ)) (foundSeen_noWeight items n types)
    simp only [List.map_map, Function.comp_def, noWeight] at h2
    rw [← h2] at h1
    rw [← inputEdges_neighbors]
    simpa [Function.comp_def, gnbr] using h1

/-- Completeness, when no stored type of the node lies outside the request while a requested type
separates it from a larger requested one.  Missing for the full property: requests with such a
gap, see `C03_complete_refuted`. -/
theorem C03_complete_partial {C : WeightCodec} {wm : Option Nat} {m : Meta}
    {parts : List (List (List Rec))} {g : Graph} (h : Built C wm m parts g) (n : Int) (types : List Int)
    (ht : types.Pairwise (· < ·))
    (hgap : ∀ x ∈ Spec.edgeRecords parts, ∀ y ∈ Spec.edgeRecords parts, x.src = n → y.src = n →
      y.typ ∈ types → (∃ t ∈ types, x.typ < t ∧ t < y.typ) → x.typ ∈ types) :
    ∃ nbrs, g.fullNeighbor [n] none types = some (nbrs, [(Spec.neighbors parts n types).length]) ∧
      nbrs.map (fun x => (x.dst, x.typ)) = (Spec.neighbors parts n types).map (fun x => (x.dst, x.typ)) ∧
      (Spec.ExactWeights parts → nbrs = Spec.neighbors parts n types) := by
  obtain ⟨items, hg, -⟩ := h.graphOk
  have h1 : foundEdges items n types = inputEdges parts n types := by
    apply hg.found_eq n types ht
    intro x hx hxn y hy hyn hyt hex
    obtain ⟨r, hr, h1, h2⟩ := mem_input_record hx
    obtain ⟨r', hr', h1', h2'⟩ := mem_input_record hy
    rw [← h2]
    exact hgap r hr r' hr' (by rw [h1, hxn]) (by rw [h1', hyn]) (by rw [h2']; exact hyt)
      (by rw [h2, h2']; exact hex)
  have h2 := foundSeen_noWeight items n types
  rw [h1] at h2
  refine ⟨(foundSeen items n types).map gnbr, ?_, ?_, ?_⟩
  · have := congrArg List.length h2
    simp only [List.length_map] at this
    simp [Graph.fullNeighbor, hg.fullNeighbor1, this, ← inputEdges_neighbors]
  · rw [← inputEdges_neighbors]
    have := congrArg (List.map fun e : GEdge => (e.dst, e.typ)) h2
    simpa [Function.comp_def, noWeight, gnbr] using this
  · intro hw
    rw [hg.seen_exact hw, h1, inputEdges_neighbors]

/-- In particular a query for a single edge type is exact. -/
theorem C03_single_type {C : WeightCodec} {wm : Option Nat} {m : Meta}
    {parts : List (List (List Rec))} {g : Graph} (h : Built C wm m parts g) (n t : Int) :
    ∃ nbrs, g.fullNeighbor [n] none [t] = some (nbrs, [(Spec.neighbors parts n [t]).length]) ∧
      nbrs.map (fun x => (x.dst, x.typ)) = (Spec.neighbors parts n [t]).map (fun x => (x.dst, x.typ)) := by
  obtain ⟨nbrs, h1, h2, -⟩ := C03_complete_partial h n [t] (by simp) (by
    intro x _ y _ _ _ hy ⟨t', ht', h1, h2⟩
    simp only [List.mem_singleton] at hy ht'
    omega)
  exact ⟨nbrs, h1, h2⟩

/-- The hypotheses of `C03_complete_partial` are met by a request for types 0 and 2 of three. -/
example : ∃ g, Built intCodec none ⟨0, 0, -1⟩ C02_example g ∧
    ∃ nbrs, g.fullNeighbor [1] none [0, 2] = some (nbrs, [2]) ∧
      nbrs.map (fun x => (x.dst, x.typ)) = [(2, 0), (3, 2)] := by
  obtain ⟨g, -, hg⟩ := built_of_check (wm := none) (m := ⟨0, 0, -1⟩) (parts := C02_example)
    (by decide +kernel)
  obtain ⟨nbrs, h1, h2, -⟩ := C03_complete_partial hg 1 [0, 2] (by decide) (by decide +kernel)
  exact ⟨g, hg, nbrs, by rw [h1, show (Spec.neighbors C02_example 1 [0, 2]).length = 2 by decide +kernel],
    by rw [h2]; decide +kernel⟩

/-- Node 1 has an edge of type 0 and one of type 2. -/
def C03_gap : List (List (List Rec)) :=
  [[[⟨1, -1, 0, 1, none, none, []⟩, ⟨1, 2, 0, 7, none, none, []⟩, ⟨1, 3, 2, 9, none, none, []⟩]]]

/-- A request for types 1 and 2 misses the edge of type 2. -/
theorem C03_complete_refuted : ∃ g, Built intCodec none ⟨0, 0, -1⟩ C03_gap g ∧
    Spec.neighbors C03_gap 1 [1, 2] = [⟨3, 2, 9⟩] ∧
    g.fullNeighbor [1] none [1, 2] = some ([], [0]) := by
  obtain ⟨g, hg, hb⟩ := built_of_check (wm := none) (m := ⟨0, 0, -1⟩) (parts := C03_gap)
    (by decide +kernel)
  refine ⟨g, hb, by decide +kernel, ?_⟩
  have : (graphOf intCodec none ⟨0, 0, -1⟩ C03_gap).bind (fun g => g.fullNeighbor [1] none [1, 2]) =
      some ([], [0]) := by decide +kernel
  rw [hg] at this; exact this

end DeepGNN
