import Verif.Props.C14

/-
C13 Node type lookup.
-/

namespace DeepGNN

variable {C : WeightCodec} {wm : Option Nat} {m : Meta} {parts : List (List (List Rec))} {g : Graph}

/-- The types stored for a node, in load order. -/
def storedTypes (items : List Item) (n : Int) : List Int :=
  items.flatMap fun it => (it.blks.filter (fun b => b.id = n)).map (·.typ)

theorem GraphOk.nodeType1 {items : List Item} (h : GraphOk C m g items parts) (d n : Int) :
    g.nodeType1 d n = some (match storedTypes items n with
      | [] => d
      | t :: ts => ((t :: ts).find? (· ≠ -1)).getD ((t :: ts).getLast (by simp))) := by
  obtain ⟨es, h1, h2⟩ := h.mapEntries n (fun x => x.1.nodeTypes[x.2]?) (fun b => b.typ) (by
    intro it hit x hx _
    rw [(h.ok it hit).loaded.nodeTypes]
    rw [List.mem_zipIdx_iff_getElem?] at hx
    rw [List.getElem?_map, hx]; rfl)
  have h2' : es.mapM (fun (x : Partition × Nat) => match x with | (p, id) => p.nodeTypes[id]?) =
      some (storedTypes items n) := h2
  have h3 := (entries_items h.parts_eq h.inv n).2
  simp only [Graph.nodeType1]
  cases hm : g.nodeMap n with
  | none =>
    have : storedTypes items n = [] := by
      simp only [storedTypes, List.flatMap_eq_nil_iff]
      intro it hit
      rw [List.filter_eq_nil_iff.2]
      · rfl
      · intro b hb
        simpa using (h3.1 hm) it hit b hb
    rw [this]
  | some i =>
    simp only [h1, Option.bind_eq_bind, Option.bind_some, h2']
    cases hs : storedTypes items n with
    | nil =>
      exfalso
      have : g.nodeMap n = none := by
        apply h3.2
        intro it hit b hb hid
        simp only [storedTypes, List.flatMap_eq_nil_iff] at hs
        have := hs it hit
        simp only [List.map_eq_nil_iff] at this
        exact absurd (List.filter_eq_nil_iff.1 this b hb) (by simpa using hid)
      rw [hm] at this; simp at this
    | cons t ts =>
      cases hf : (t :: ts).find? (· ≠ -1) with
      | some v =>
        show _ = some ((List.find? (fun x => decide (x ≠ -1)) (t :: ts)).getD _)
        rw [hf]; simp
      | none =>
        show _ = some ((List.find? (fun x => decide (x ≠ -1)) (t :: ts)).getD _)
        rw [hf]; simp [List.getLast?_eq_some_getLast]

/-- The stored types other than the placeholder are those of the node records, in order. -/
theorem GraphOk.storedTypes_eq {items : List Item} (h : GraphOk C m g items parts) (n : Int) :
    (storedTypes items n).filter (· ≠ -1) =
      ((Spec.nodeTypes parts).filter (fun x => x.1 = n)).map (·.2) := by
  have h1 : (Spec.nodeTypes parts).filter (fun x => x.1 = n) =
      parts.flatMap fun p => ((nodeRecs p.flatten).map fun x => (x.1, x.2.1)).filter (fun x => x.1 = n) := by
    simp only [Spec.nodeTypes, Spec.allRecords, nodeRecs, List.map_map]
    clear h
    induction parts with
    | nil => rfl
    | cons p ps ih =>
      simp only [List.flatten_cons, List.flatten_append, List.filter_append, List.map_append,
        List.flatMap_cons, ih]
      rfl
  rw [h1, List.map_flatMap]
  simp only [storedTypes, List.filter_flatMap]
  symm
  apply h.src.flatMap_eq
  intro p it _ _ hpi
  rw [← hpi.nodes]
  simp only [List.map_map, List.filter_map, List.filter_filter, Function.comp_def]
  congr 1
  apply List.filter_congr
  intro b _
  simp [Bool.and_comm]

/-- A node with node records has the type of the first of them, whatever the partitions of its
records and edges. -/
theorem C13_first_record (h : Built C wm m parts g) (d n t : Int)
    (ht : (Spec.nodeTypes parts).find? (fun x => x.1 = n) = some (n, t)) :
    g.nodeType1 d n = some t := by
  obtain ⟨items, hg, -⟩ := h.graphOk
  rw [hg.nodeType1]
  have h1 := hg.storedTypes_eq n
  rw [← List.head?_filter] at ht
  have h2 : (storedTypes items n).find? (· ≠ -1) = some t := by
    rw [← List.head?_filter, h1, List.head?_map, ht]; rfl
  cases hs : storedTypes items n with
  | nil => rw [hs] at h2; simp at h2
  | cons a as => rw [hs] at h2; simp only [h2, Option.getD_some]

/-- A node with exactly one type in the input gets that type. -/
theorem C13_type (h : Built C wm m parts g) (d n t : Int) (hmem : (n, t) ∈ Spec.nodeTypes parts)
    (huniq : ∀ t', (n, t') ∈ Spec.nodeTypes parts → t' = t) : g.nodeType1 d n = some t := by
  apply C13_first_record h
  cases hf : (Spec.nodeTypes parts).find? (fun x => x.1 = n) with
  | none =>
    rw [List.find?_eq_none] at hf
    simpa using hf (n, t) hmem
  | some x =>
    have h1 := List.find?_some hf
    have h2 := List.mem_of_find?_eq_some hf
    obtain ⟨a, b⟩ := x
    simp only [decide_eq_true_eq] at h1
    subst h1
    rw [huniq b h2]

/-- A node that occurs neither as a node record nor as the source of an edge gets the default.
Missing for the full property: nodes that are known only as the source of an edge, see
`C13_edge_source` and `C13_default_refuted`. -/
theorem C13_default_partial (h : Built C wm m parts g) (d n : Int)
    (hn : ∀ r ∈ Spec.allRecords parts, r.src ≠ n) : g.nodeType1 d n = some d := by
  obtain ⟨items, hg, -⟩ := h.graphOk
  rw [hg.nodeType1]
  have : storedTypes items n = [] := by
    simp only [storedTypes, List.flatMap_eq_nil_iff, List.map_eq_nil_iff, List.filter_eq_nil_iff]
    intro it hit b hb hid
    simp only [decide_eq_true_eq] at hid
    obtain ⟨c, hc, hsrc⟩ := item_of_src hg.src hit
    by_cases ht : b.typ = -1
    · obtain ⟨e, he⟩ := List.exists_mem_of_ne_nil _ (hsrc.hasEdge b hb ht)
      have : (b.id, e) ∈ c.flatMap (effEdges 0 (-1)) := by
        rw [← hsrc.edges]; exact List.mem_flatMap.2 ⟨b, hb, List.mem_map.2 ⟨e, he, rfl⟩⟩
      obtain ⟨l, hl, hx⟩ := List.mem_flatMap.1 this
      obtain ⟨r, hr, -, h1, -⟩ := mem_effEdges hx
      exact hn r (List.mem_flatten.2 ⟨l, List.mem_flatten.2 ⟨c, hc, hl⟩, hr⟩) (by rw [h1]; exact hid)
    · have : (b.id, b.typ, b.feats) ∈ nodeRecs c.flatten := by
        rw [← hsrc.nodes]
        exact List.mem_map.2 ⟨b, List.mem_filter.2 ⟨hb, by simpa using ht⟩, rfl⟩
      obtain ⟨r, hr, h1⟩ := List.mem_map.1 this
      obtain ⟨l, hl, hr'⟩ := List.mem_flatten.1 (List.mem_filter.1 hr).1
      obtain ⟨h2, -⟩ := Prod.mk.injEq .. ▸ h1
      exact hn r (List.mem_flatten.2 ⟨l, List.mem_flatten.2 ⟨c, hc, hl⟩, hr'⟩) (by rw [h2]; exact hid)
  rw [this]

/-- What happens to a node known only as the source of an edge: it has type -1, not the default. -/
theorem C13_edge_source (h : Built C wm m parts g) (d n : Int)
    (hn : ∀ t, (n, t) ∉ Spec.nodeTypes parts) (he : ∃ r ∈ Spec.edgeRecords parts, r.src = n) :
    g.nodeType1 d n = some (-1) := by
  obtain ⟨items, hg, -⟩ := h.graphOk
  rw [hg.nodeType1]
  have h1 := hg.storedTypes_eq n
  have h2 : (Spec.nodeTypes parts).filter (fun x => x.1 = n) = [] := by
    rw [List.filter_eq_nil_iff]
    rintro ⟨a, t⟩ hx hax
    simp only [decide_eq_true_eq] at hax
    subst hax
    exact hn t hx
  rw [h2, List.map_nil, List.filter_eq_nil_iff] at h1
  have h3 : ∀ t ∈ storedTypes items n, t = -1 := fun t ht => by simpa using h1 t ht
  obtain ⟨r, hr, hrn⟩ := he
  have hne : storedTypes items n ≠ [] := by
    intro hs
    have hem : (inputEdges parts n [r.typ]) = [] := by
      have := hg.all_edges n (fun e => decide (e.typ ∈ [r.typ]))
      rw [show inputEdges parts n [r.typ] = ((parts.flatten.flatMap (effEdges 0 (-1))).filter
        (fun x => decide (x.1 = n) && decide (x.2.typ ∈ [r.typ]))).map (·.2) by
          simp [inputEdges, Bool.decide_and], ← this]
      simp only [storedTypes, List.flatMap_eq_nil_iff, List.map_eq_nil_iff] at hs ⊢
      intro it hit b hb
      rw [hs it hit] at hb; simp at hb
    have := inputEdges_neighbors parts n [r.typ]
    rw [hem] at this
    simp only [List.map_nil, Spec.neighbors] at this
    have h4 := List.map_eq_nil_iff.1 this.symm
    exact absurd (List.filter_eq_nil_iff.1 h4 r hr) (by simpa using hrn)
  cases hs : storedTypes items n with
  | nil => exact absurd hs hne
  | cons a as =>
    rw [hs] at h3
    have h5 : (a :: as).find? (· ≠ -1) = none := by
      rw [List.find?_eq_none]; intro x hx; simpa using h3 x hx
    simp only [h5, Option.getD_none]
    rw [h3 _ (List.getLast_mem (by simp))]

/-- Node 5 of `C02_example` was never given a node record, yet its type is -1 and not the default 7. -/
theorem C13_default_refuted : ∃ g, Built intCodec none ⟨0, 0, -1⟩ C02_example g ∧
    (∀ t, (5, t) ∉ Spec.nodeTypes C02_example) ∧ g.nodeType1 7 5 = some (-1) := by
  obtain ⟨g, -, hb⟩ := built_of_check (wm := none) (m := ⟨0, 0, -1⟩) (parts := C02_example)
    (by decide +kernel)
  have hn : ∀ t, (5, t) ∉ Spec.nodeTypes C02_example := by
    intro t ht
    have : ∀ x ∈ Spec.nodeTypes C02_example, x.1 ≠ 5 := by decide +kernel
    exact this _ ht rfl
  exact ⟨g, hb, hn, C13_edge_source hb 7 5 hn (by decide +kernel)⟩

/-- Non-vacuity of `C13_type` (node 1, whose edges are in two partitions, has type 3) and of
`C13_default_partial` (node 9). -/
example : ∃ g, Built intCodec none ⟨0, 0, -1⟩ C02_example g ∧ g.nodeType1 7 1 = some 3 ∧
    g.nodeType1 7 9 = some 7 := by
  obtain ⟨g, -, hb⟩ := built_of_check (wm := none) (m := ⟨0, 0, -1⟩) (parts := C02_example)
    (by decide +kernel)
  refine ⟨g, hb, C13_first_record hb 7 1 3 (by decide +kernel), C13_default_partial hb 7 9 ?_⟩
  decide +kernel

end DeepGNN
