import Verif.Proofs.Concrete

/-
C02 Neighbours survive conversion and loading.
-/

namespace DeepGNN

/-- Everything the converter accepts can be loaded (files below `2^64` bytes, ids below `2^63`,
edge weights representable). -/
theorem C02_load_succeeds (C : WeightCodec) (wm : Option Nat) (parts : List (List (List Rec)))
    (fs : List PartitionFiles) (hc : parts.mapM (convertPartition C wm) = some fs)
    (hfit : ∀ f ∈ fs, FilesFit f) (hok : ∀ r ∈ Spec.allRecords parts, RecOk C r)
    (m : Meta) (hm : 0 ≤ m.watermark → wm ≠ none)
    (hcnt : ∀ f ∈ fs, f.nodeFeatureCount ≤ m.nodeFeatureCount ∧
      f.edgeFeatureCount ≤ m.edgeFeatureCount) :
    ∃ g, loadGraph C m (fs.map fun f => [f]) = some g ∧ Built C wm m parts g := by
  obtain ⟨g, items, h1, -, -⟩ := graph_of_parts hc hfit hok m hm
  exact ⟨g, h1, ⟨fs, hc, fun f hf => ⟨hfit f hf, hcnt f hf⟩, h1⟩, hok, hm⟩

/-- The list of all edges leaving `n`, as given to the converter. -/
def C02_allNeighbors (parts : List (List (List Rec))) (n : Int) : List Nbr :=
  ((Spec.edgeRecords parts).filter (fun r => r.src = n)).map
    fun r => { dst := r.dst, typ := r.typ, weight := r.weight }

theorem allNeighbors_found {C : WeightCodec} {wm : Option Nat} {m : Meta}
    {parts : List (List (List Rec))} {g : Graph} {items : List Item} (_ : Built C wm m parts g)
    (hg : GraphOk C m g items parts) (types : List Int) (n : Int)
    (ht : types.Pairwise (· < ·)) (hall : ∀ r ∈ Spec.edgeRecords parts, r.src = n → r.typ ∈ types) :
    (foundEdges items n types).map gnbr = C02_allNeighbors parts n := by
  have h1 : foundEdges items n types = inputEdges parts n types := by
    apply hg.found_eq n types ht
    intro x hx hxn _ _ _ _ _
    obtain ⟨r, hr, h1, h2⟩ := mem_input_record hx
    rw [← h2]; exact hall r hr (by rw [h1]; exact hxn)
  rw [h1, inputEdges_neighbors]
  simp only [Spec.neighbors, C02_allNeighbors]
  congr 1
  apply List.filter_congr
  intro r hr
  simp only [decide_eq_decide, and_iff_left_iff_imp]
  exact hall r hr

/-- A query for all edge types of the nodes returns exactly the destinations and types of the edges
given to the converter for each of them, in order, and the number of edges of each node. -/
theorem C02_neighbors {C : WeightCodec} {wm : Option Nat} {m : Meta}
    {parts : List (List (List Rec))} {g : Graph} (h : Built C wm m parts g) (nodes types : List Int)
    (ht : types.Pairwise (· < ·))
    (hall : ∀ n ∈ nodes, ∀ r ∈ Spec.edgeRecords parts, r.src = n → r.typ ∈ types) :
    ∃ nbrs, g.fullNeighbor nodes none types =
        some (nbrs, nodes.map fun n => (C02_allNeighbors parts n).length) ∧
      nbrs.map (fun x => (x.dst, x.typ)) =
        (nodes.flatMap (C02_allNeighbors parts)).map fun x => (x.dst, x.typ) := by
  obtain ⟨items, hg, -⟩ := h.graphOk
  refine ⟨nodes.flatMap fun n => (foundSeen items n types).map gnbr, ?_, ?_⟩
  · simp only [Graph.fullNeighbor]
    rw [mapM_some_map _ (fun n => ((foundSeen items n types).map gnbr, (foundSeen items n types).length))
      nodes (fun n _ => hg.fullNeighbor1 n types)]
    simp only [Option.bind_eq_bind, Option.bind_some, pure, List.map_map, List.flatMap_def,
      Option.some.injEq, Prod.mk.injEq]
    refine ⟨rfl, List.map_congr_left fun n hn => ?_⟩
    rw [← allNeighbors_found h hg types n ht (hall n hn)]
    simpa using congrArg List.length (foundSeen_noWeight items n types)
  · rw [List.map_flatMap, List.map_flatMap, List.flatMap_def, List.flatMap_def]
    congr 1
    apply List.map_congr_left
    intro n hn
    rw [← allNeighbors_found h hg types n ht (hall n hn)]
    have := congrArg (List.map fun e : GEdge => (e.dst, e.typ)) (foundSeen_noWeight items n types)
    simpa [Function.comp_def, noWeight, gnbr] using this

/-- With weights: the query returns exactly the given weights if their sums per node and type are
exact in single precision.  Missing for the full property: other weights, for which the stored
running sums lose precision, see `C02_weights_refuted`. -/
theorem C02_weights_partial {C : WeightCodec} {wm : Option Nat} {m : Meta}
    {parts : List (List (List Rec))} {g : Graph} (h : Built C wm m parts g) (nodes types : List Int)
    (ht : types.Pairwise (· < ·))
    (hall : ∀ n ∈ nodes, ∀ r ∈ Spec.edgeRecords parts, r.src = n → r.typ ∈ types)
    (hw : Spec.ExactWeights parts) :
    g.fullNeighbor nodes none types =
      some (nodes.flatMap (C02_allNeighbors parts),
        nodes.map fun n => (C02_allNeighbors parts n).length) := by
  obtain ⟨items, hg, -⟩ := h.graphOk
  have key : ∀ n ∈ nodes, g.fullNeighbor1 none types n =
      some (C02_allNeighbors parts n, (C02_allNeighbors parts n).length) := by
    intro n hn
    have h2 := allNeighbors_found h hg types n ht (hall n hn)
    rw [hg.fullNeighbor1, hg.seen_exact hw, h2, ← h2, List.length_map]
  simp only [Graph.fullNeighbor]
  rw [mapM_some_map _ (fun n => (C02_allNeighbors parts n, (C02_allNeighbors parts n).length)) _ key]
  simp [List.flatMap_def]; rfl

/-- Non-negative weights whose total per node and type is at most `2^24` have exact sums. -/
theorem C02_exact_of_small (parts : List (List (List Rec)))
    (h0 : ∀ r ∈ Spec.edgeRecords parts, 0 ≤ r.weight)
    (h : ∀ n t, (((Spec.edgeRecords parts).filter (fun r => r.src = n ∧ r.typ = t)).map
      (·.weight)).sum ≤ 2 ^ 24) : Spec.ExactWeights parts := by
  intro n t l hl
  have pos : ∀ l : List Int, (∀ x ∈ l, 0 ≤ x) → 0 ≤ l.sum := by
    intro l
    induction l with
    | nil => simp
    | cons a l ih =>
      intro h; have := ih (fun x hx => h x (by simp [hx])); have := h a (by simp)
      simp only [List.sum_cons]; omega
  obtain ⟨s, u, hsu⟩ := hl
  have hp : ∀ x ∈ s ++ l ++ u, 0 ≤ x := by
    rw [hsu]; intro x hx
    obtain ⟨r, hr, rfl⟩ := List.mem_map.1 hx
    exact h0 r (List.mem_filter.1 hr).1
  have hs := h n t
  rw [← hsu] at hs
  simp only [List.sum_append] at hs
  have h1 := pos s fun x hx => hp x (by simp [hx])
  have h2 := pos l fun x hx => hp x (by simp [hx])
  have h3 := pos u fun x hx => hp x (by simp [hx])
  exact f32_small (by omega)

/-- Two partitions; node 1 has its edges in both, node 5 has no node record. -/
def C02_example : List (List (List Rec)) :=
  [[[⟨1, -1, 3, 1, none, none, []⟩, ⟨1, 2, 0, 7, none, none, []⟩, ⟨1, 3, 2, 9, none, none, []⟩],
    [⟨2, -1, 0, 1, none, none, []⟩]],
   [[⟨5, 1, 0, 4, none, none, []⟩, ⟨1, 7, 1, 2, none, none, []⟩]]]

/-- The hypotheses of `C02_neighbors` and `C02_weights_partial` are met, and the answer is what one
expects. -/
example : ∃ g, Built intCodec none ⟨0, 0, -1⟩ C02_example g ∧ Spec.ExactWeights C02_example ∧
    g.fullNeighbor [1, 5, 9] none [0, 1, 2] =
      some ([⟨2, 0, 7⟩, ⟨3, 2, 9⟩, ⟨7, 1, 2⟩, ⟨1, 0, 4⟩], [3, 1, 0]) := by
  obtain ⟨g, -, hg⟩ := built_of_check (wm := none) (m := ⟨0, 0, -1⟩) (parts := C02_example)
    (by decide +kernel)
  have hw : Spec.ExactWeights C02_example := by
    intro n t l hl
    apply f32_small
    have : ∀ x ∈ l, x ∈ (Spec.edgeRecords C02_example).map (·.weight) := fun x hx => by
      obtain ⟨r, hr, e⟩ := List.mem_map.1 (hl.subset hx)
      exact List.mem_map.2 ⟨r, (List.mem_filter.1 hr).1, e⟩
    have h9 : ∀ x ∈ l, 0 ≤ x ∧ x ≤ 9 := fun x hx =>
      (by decide +kernel : ∀ y ∈ (Spec.edgeRecords C02_example).map (·.weight), 0 ≤ y ∧ y ≤ 9) x (this x hx)
    have hlen : l.length ≤ 4 := by
      refine Nat.le_trans hl.length_le ?_
      rw [List.length_map]
      exact Nat.le_trans (List.length_filter_le _ _) (by decide +kernel)
    have hsum : ∀ l : List Int, (∀ x ∈ l, 0 ≤ x ∧ x ≤ 9) → 0 ≤ l.sum ∧ l.sum ≤ 9 * l.length := by
      intro l
      induction l with
      | nil => simp
      | cons a l ih =>
        intro h
        have h1 := ih (fun x hx => h x (by simp [hx]))
        have h2 := h a (by simp)
        simp only [List.sum_cons, List.length_cons]; omega
    have := hsum l h9
    omega
  refine ⟨g, hg, hw, ?_⟩
  rw [C02_weights_partial hg [1, 5, 9] [0, 1, 2] (by decide) (by decide +kernel) hw]
  decide +kernel

/-- Two edges of one type with weights `2^24` and 1. -/
def C02_lossy : List (List (List Rec)) :=
  [[[⟨1, -1, 0, 1, none, none, []⟩, ⟨1, 2, 0, 2 ^ 24, none, none, []⟩, ⟨1, 3, 0, 1, none, none, []⟩]]]

/-- The weight of the second edge is reported as 0. -/
theorem C02_weights_refuted : ∃ g, Built intCodec none ⟨0, 0, -1⟩ C02_lossy g ∧
    C02_allNeighbors C02_lossy 1 = [⟨2, 0, 2 ^ 24⟩, ⟨3, 0, 1⟩] ∧
    g.fullNeighbor [1] none [0] = some ([⟨2, 0, 2 ^ 24⟩, ⟨3, 0, 0⟩], [2]) := by
  obtain ⟨g, hg, hb⟩ := built_of_check (wm := none) (m := ⟨0, 0, -1⟩) (parts := C02_lossy)
    (by decide +kernel)
  refine ⟨g, hb, by decide +kernel, ?_⟩
  have : (graphOf intCodec none ⟨0, 0, -1⟩ C02_lossy).bind (fun g => g.fullNeighbor [1] none [0]) =
      some ([⟨2, 0, 2 ^ 24⟩, ⟨3, 0, 0⟩], [2]) := by decide +kernel
  rw [hg] at this; exact this

end DeepGNN
