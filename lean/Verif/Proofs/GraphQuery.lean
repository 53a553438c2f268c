import Verif.Proofs.Pipeline

namespace DeepGNN

/-- The graph `g` was loaded from `items`, converted from `parts`. -/
structure GraphOk (C : WeightCodec) (m : Meta) (g : Graph) (items : List Item)
    (parts : List (List (List Rec))) : Prop where
  parts_eq : g.parts = items.map (·.part)
  inv : GInv g (items.zipIdx.flatMap fun x => itemLog x.2 x.1)
  ok : ∀ it ∈ items, ItemOk C m it
  src : All2 ItemFrom parts items

/-- Edges found by a query for node `n`. -/
def foundEdges (items : List Item) (n : Int) (types : List Int) : List GEdge :=
  items.flatMap fun it => (it.blks.filter (fun b => b.id = n)).flatMap fun b => walkEdges b.edges types

/-- Edges found by a query for node `n`, with the reported weights. -/
def foundSeen (items : List Item) (n : Int) (types : List Int) : List GEdge :=
  items.flatMap fun it => (it.blks.filter (fun b => b.id = n)).flatMap fun b => walkSeen b.edges types

theorem foundSeen_noWeight (items : List Item) (n : Int) (types : List Int) :
    (foundSeen items n types).map noWeight = (foundEdges items n types).map noWeight := by
  simp only [foundSeen, foundEdges, List.map_flatMap, walkSeen_noWeight]

/-- All edges of `n` with a requested type, in input order. -/
def inputEdges (parts : List (List (List Rec))) (n : Int) (types : List Int) : List GEdge :=
  ((parts.flatten.flatMap (effEdges 0 (-1))).filter (fun x => x.1 = n ∧ x.2.typ ∈ types)).map (·.2)

theorem filter_zipIdx_map_fst {α} (p : α → Bool) (l : List α) (i : Nat) :
    ((l.zipIdx i).filter (fun x => p x.1)).map (·.1) = l.filter p := by
  have h := List.zipIdx_map_fst i l
  conv => rhs; rw [← h, List.filter_map]
  rfl

variable {C : WeightCodec} {m : Meta} {g : Graph} {items : List Item} {parts : List (List (List Rec))}

theorem ItemOk.tables {it : Item} (h : ItemOk C m it) {x : Blk × Nat} (hx : x ∈ it.blks.zipIdx) :
    ∃ xs, NodeTables m it.part x.2 x.1.edges xs := by
  rw [List.mem_zipIdx_iff_getElem?] at hx
  obtain ⟨hlt, hx⟩ := List.getElem?_eq_some_iff.1 hx
  have := h.loaded.tables x.2 hlt
  rw [hx] at this; exact this

/-- Evaluation of a per-(partition, node) query over all entries of a node. -/
theorem GraphOk.mapEntries (h : GraphOk C m g items parts) (n : Int) {β}
    (q : Partition × Nat → Option β) (r : Blk → β)
    (hq : ∀ it ∈ items, ∀ x ∈ it.blks.zipIdx, x.1.id = n → q (it.part, x.2) = some (r x.1)) :
    ∃ es, g.entries n = some es ∧ es.mapM q = some (items.flatMap fun it =>
      (it.blks.filter (fun b => b.id = n)).map r) := by
  refine ⟨_, (entries_items h.parts_eq h.inv n).1, ?_⟩
  clear h
  induction items with
  | nil => rfl
  | cons it items ih =>
    rw [List.flatMap_cons, List.mapM_append, ih (fun it hit => hq it (by simp [hit]))]
    have : ((it.blks.zipIdx.filter (fun x => decide (x.1.id = n))).map
        (fun x => (it.part, x.2))).mapM q = some ((it.blks.filter (fun b => b.id = n)).map r) := by
      rw [List.mapM_map, mapM_some_map _ (fun x => r x.1), ← filter_zipIdx_map_fst _ it.blks 0,
        List.map_map]
      · rfl
      · intro x hx
        obtain ⟨h1, h2⟩ := List.mem_filter.1 hx
        exact hq it (by simp) x h1 (by simpa using h2)
    rw [this]
    rfl

theorem concat_results (items : List Item) (F : Item → List Blk) (f : Blk → List GEdge) :
    ((items.flatMap fun it => (F it).map fun b => ((f b).map gnbr, (f b).length)).map (·.1)).flatten =
      (items.flatMap fun it => (F it).flatMap f).map gnbr ∧
    ((items.flatMap fun it => (F it).map fun b => ((f b).map gnbr, (f b).length)).map (·.2)).sum =
      (items.flatMap fun it => (F it).flatMap f).length ∧
    (items.flatMap fun it => (F it).map fun b => (f b).length).sum =
      (items.flatMap fun it => (F it).flatMap f).length := by
  rw [← List.map_flatMap, ← List.map_flatMap, ← List.flatMap_assoc]
  generalize items.flatMap F = L
  induction L with
  | nil => simp
  | cons b L ih =>
    obtain ⟨h1, h2, h3⟩ := ih
    simp only [List.map_cons, List.flatten_cons, List.flatMap_cons, List.map_append, List.sum_cons,
      List.length_append, h1, h2, h3, and_self]

theorem GraphOk.fullNeighbor1 (h : GraphOk C m g items parts) (n : Int) (types : List Int) :
    g.fullNeighbor1 none types n =
      some ((foundSeen items n types).map gnbr, (foundSeen items n types).length) := by
  obtain ⟨es, h1, h2⟩ := h.mapEntries n (fun x => x.1.fullNeighbor x.2 none types)
    (fun b => ((walkSeen b.edges types).map gnbr, (walkSeen b.edges types).length)) (by
      intro it hit x hx _
      obtain ⟨xs, ht⟩ := (h.ok it hit).tables hx
      exact ht.fullNeighbor types)
  simp only [Graph.fullNeighbor1, h1, Option.bind_eq_bind, Option.bind_some]
  have h2' : es.mapM (fun (x : Partition × Nat) =>
      match x with | (p, id) => p.fullNeighbor id none types) = _ := h2
  rw [h2']
  simp only [Option.bind_some, pure, Option.some.injEq, Prod.mk.injEq, foundSeen]
  obtain ⟨c1, c2, -⟩ := concat_results items (fun it => it.blks.filter (fun b => b.id = n))
    (fun b => walkSeen b.edges types)
  exact ⟨c1, c2⟩

theorem GraphOk.fullNeighborAt1 (h : GraphOk C m g items parts) (hwm : 0 ≤ m.watermark) (n : Int)
    (ts : Int) (types : List Int) :
    g.fullNeighbor1 (some ts) types n =
      some (((foundSeen items n types).filter (liveB ts)).map gnbr,
        ((foundSeen items n types).filter (liveB ts)).length) := by
  obtain ⟨es, h1, h2⟩ := h.mapEntries n (fun x => x.1.fullNeighbor x.2 (some ts) types)
    (fun b => (((walkSeen b.edges types).filter (liveB ts)).map gnbr,
      ((walkSeen b.edges types).filter (liveB ts)).length)) (by
      intro it hit x hx _
      obtain ⟨xs, ht⟩ := (h.ok it hit).tables hx
      exact ht.fullNeighborAt hwm types ts)
  simp only [Graph.fullNeighbor1, h1, Option.bind_eq_bind, Option.bind_some]
  have h2' : es.mapM (fun (x : Partition × Nat) =>
      match x with | (p, id) => p.fullNeighbor id (some ts) types) = _ := h2
  rw [h2']
  simp only [Option.bind_some, pure, Option.some.injEq, Prod.mk.injEq, foundSeen,
    List.filter_flatMap]
  obtain ⟨c1, c2, -⟩ := concat_results items (fun it => it.blks.filter (fun b => b.id = n))
    (fun b => (walkSeen b.edges types).filter (liveB ts))
  exact ⟨c1, c2⟩

theorem GraphOk.neighborCount1 (h : GraphOk C m g items parts) (n : Int) (types : List Int) :
    g.neighborCount1 types n = some (foundEdges items n types).length := by
  obtain ⟨es, h1, h2⟩ := h.mapEntries n (fun x => x.1.neighborCount x.2 types)
    (fun b => (walkEdges b.edges types).length) (by
      intro it hit x hx _
      obtain ⟨xs, ht⟩ := (h.ok it hit).tables hx
      exact ht.neighborCount types)
  simp only [Graph.neighborCount1, h1, Option.bind_eq_bind, Option.bind_some]
  have h2' : es.mapM (fun (x : Partition × Nat) =>
      match x with | (p, id) => p.neighborCount id types) = _ := h2
  rw [h2']
  simp only [Option.bind_some, pure, Option.some.injEq, foundEdges]
  exact (concat_results items (fun it => it.blks.filter (fun b => b.id = n))
    (fun b => walkEdges b.edges types)).2.2

theorem blocks_filter (bs : List Blk) (n : Int) (P : GEdge → Bool) :
    ((bs.filter (fun b => b.id = n)).flatMap fun b => b.edges.filter P) =
      ((bs.flatMap (fun b => b.edges.map (fun e => (b.id, e)))).filter
        (fun x => decide (x.1 = n) && P x.2)).map (·.2) := by
  induction bs with
  | nil => rfl
  | cons b bs ih =>
    rw [List.flatMap_cons, List.filter_append, List.map_append, ← ih, List.filter_cons]
    have : ((b.edges.map (fun e => (b.id, e))).filter (fun x => decide (x.1 = n) && P x.2)).map (·.2) =
        if b.id = n then b.edges.filter P else [] := by
      rw [List.filter_map, List.map_map]
      by_cases hb : b.id = n
      · simp [hb, Function.comp_def]
      · simp [hb, Function.comp_def]
    rw [this]
    by_cases hb : b.id = n <;> simp [hb]

theorem All2.flatMap_eq {α β γ} {R : α → β → Prop} {f : α → List γ} {g : β → List γ} {l : List α}
    {k : List β} (h : All2 R l k) (hR : ∀ a b, a ∈ l → b ∈ k → R a b → f a = g b) :
    l.flatMap f = k.flatMap g := by
  induction h with
  | nil => rfl
  | cons hr _ ih =>
    rw [List.flatMap_cons, List.flatMap_cons, hR _ _ (by simp) (by simp) hr,
      ih (fun a b ha hb => hR a b (by simp [ha]) (by simp [hb]))]

/-- All edges of `n` in the loaded blocks are the edges of `n` in the input. -/
theorem GraphOk.all_edges (h : GraphOk C m g items parts) (n : Int) (P : GEdge → Bool) :
    (items.flatMap fun it => (it.blks.filter (fun b => b.id = n)).flatMap fun b => b.edges.filter P) =
      ((parts.flatten.flatMap (effEdges 0 (-1))).filter (fun x => decide (x.1 = n) && P x.2)).map
        (·.2) := by
  have : (parts.flatten.flatMap (effEdges 0 (-1))) = parts.flatMap (·.flatMap (effEdges 0 (-1))) := by
    induction parts with
    | nil => rfl
    | cons p ps ih =>
      simp [List.flatMap_append]
      clear ih h
      induction ps with
      | nil => rfl
      | cons a as ih => simp [List.flatMap_append, ih]
  rw [this, List.filter_flatMap, List.map_flatMap]
  symm
  apply h.src.flatMap_eq
  intro a b _ _ hab
  rw [blocks_filter, hab.edges]

theorem item_of_src {parts : List (List (List Rec))} {items : List Item} (h : All2 ItemFrom parts items)
    {it : Item} (hit : it ∈ items) : ∃ c ∈ parts, ItemFrom c it := by
  induction h with
  | nil => simp at hit
  | cons hr _ ih =>
    rcases List.mem_cons.1 hit with rfl | hit
    · exact ⟨_, by simp, hr⟩
    · obtain ⟨c, hc, h⟩ := ih hit; exact ⟨c, by simp [hc], h⟩

theorem GraphOk.found_sublist (h : GraphOk C m g items parts) (n : Int) (types : List Int) :
    (foundEdges items n types).Sublist (inputEdges parts n types) := by
  have : inputEdges parts n types =
      items.flatMap fun it => (it.blks.filter (fun b => b.id = n)).flatMap fun b =>
        b.edges.filter (fun e => decide (e.typ ∈ types)) := by
    rw [h.all_edges n (fun e => decide (e.typ ∈ types))]
    simp [inputEdges, Bool.decide_and]
  rw [this, foundEdges]
  clear this h
  induction items with
  | nil => simp
  | cons it items ih =>
    rw [List.flatMap_cons, List.flatMap_cons]
    refine List.Sublist.append ?_ ih
    generalize it.blks.filter (fun b => b.id = n) = L
    induction L with
    | nil => simp
    | cons b L ih =>
      rw [List.flatMap_cons, List.flatMap_cons]
      exact (walkEdges_sublist b.edges types).append ih

theorem GraphOk.found_eq (h : GraphOk C m g items parts) (n : Int) (types : List Int)
    (ht : types.Pairwise (· < ·))
    (hg : ∀ x ∈ parts.flatten.flatMap (effEdges 0 (-1)), x.1 = n →
      ∀ y ∈ parts.flatten.flatMap (effEdges 0 (-1)), y.1 = n → y.2.typ ∈ types →
      (∃ t ∈ types, x.2.typ < t ∧ t < y.2.typ) → x.2.typ ∈ types) :
    foundEdges items n types = inputEdges parts n types := by
  have : inputEdges parts n types =
      items.flatMap fun it => (it.blks.filter (fun b => b.id = n)).flatMap fun b =>
        b.edges.filter (fun e => decide (e.typ ∈ types)) := by
    rw [h.all_edges n (fun e => decide (e.typ ∈ types))]
    simp [inputEdges, Bool.decide_and]
  rw [this, foundEdges]
  rw [List.flatMap_def, List.flatMap_def]
  congr 1
  apply List.map_congr_left
  intro it hit
  rw [List.flatMap_def, List.flatMap_def]
  congr 1
  apply List.map_congr_left
  intro b hb
  obtain ⟨hb1, hb2⟩ := List.mem_filter.1 hb
  obtain ⟨c, hc, hsrc⟩ := item_of_src h.src hit
  have hmem : ∀ e ∈ b.edges, (b.id, e) ∈ parts.flatten.flatMap (effEdges 0 (-1)) := by
    intro e he
    have : (b.id, e) ∈ c.flatMap (effEdges 0 (-1)) := by
      rw [← hsrc.edges]; exact List.mem_flatMap.2 ⟨b, hb1, List.mem_map.2 ⟨e, he, rfl⟩⟩
    obtain ⟨d, hd, hx⟩ := List.mem_flatMap.1 this
    exact List.mem_flatMap.2 ⟨d, List.mem_flatten.2 ⟨c, hc, hd⟩, hx⟩
  apply walkEdges_eq _ _ (hsrc.sorted b hb1) ht
  intro x hx y hy hyt hex
  exact hg _ (hmem x hx) (by simpa using hb2) _ (hmem y hy) (by simpa using hb2) hyt hex

/-- Converting and loading `parts` gives a graph that satisfies `GraphOk`. -/
theorem graph_of_parts {C : WeightCodec} {wm : Option Nat} {parts : List (List (List Rec))}
    {fs : List PartitionFiles} (hc : parts.mapM (convertPartition C wm) = some fs)
    (hfit : ∀ f ∈ fs, FilesFit f) (hok : ∀ r ∈ Spec.allRecords parts, RecOk C r)
    (m : Meta) (hm : 0 ≤ m.watermark → wm ≠ none) :
    ∃ g items, loadGraph C m (fs.map fun f => [f]) = some g ∧ GraphOk C m g items parts ∧
      items.map (·.files) = fs := by
  obtain ⟨items, h1, h2, h3⟩ := pipeline hc hfit hok m hm
  obtain ⟨g, h4, h5, h6⟩ := loadGraph_items items h2
  refine ⟨g, items, ?_, ⟨h5, h6, h2, h3⟩, h1⟩
  rw [← h1, List.map_map]; exact h4

theorem Built.exists_items {C : WeightCodec} {wm : Option Nat} {m : Meta} {parts : List (List (List Rec))}
    {g : Graph} (h : Built C wm m parts g) :
    ∃ items, GraphOk C m g items parts ∧
      parts.mapM (convertPartition C wm) = some (items.map (·.files)) ∧ ∀ it ∈ items,
      it.files.nodeFeatureCount ≤ m.nodeFeatureCount ∧ it.files.edgeFeatureCount ≤ m.edgeFeatureCount := by
  obtain ⟨fs, h1, h2, h3⟩ := h.convert
  obtain ⟨g', items, h4, h5, h6⟩ := graph_of_parts h1 (fun f hf => (h2 f hf).1) h.records m h.temporal
  rw [h3] at h4
  obtain rfl := Option.some.inj h4
  refine ⟨items, h5, by rw [h6]; exact h1, ?_⟩
  intro it hit
  exact (h2 it.files (by rw [← h6]; exact List.mem_map_of_mem hit)).2

theorem Built.graphOk {C : WeightCodec} {wm : Option Nat} {m : Meta} {parts : List (List (List Rec))}
    {g : Graph} (h : Built C wm m parts g) :
    ∃ items, GraphOk C m g items parts ∧ ∀ it ∈ items,
      it.files.nodeFeatureCount ≤ m.nodeFeatureCount ∧ it.files.edgeFeatureCount ≤ m.edgeFeatureCount := by
  obtain ⟨items, h1, -, h2⟩ := h.exists_items
  exact ⟨items, h1, h2⟩

/-- Edges of the input without their timestamps. -/
theorem effEdges_neighbors (nc nr : Int) (rs : List Rec) (n : Int) (types : List Int) :
    (((effEdges nc nr rs).filter (fun x => x.1 = n ∧ x.2.typ ∈ types)).map (·.2)).map gnbr =
      ((rs.filter (fun r => r.dst ≠ -1)).filter (fun r => r.src = n ∧ r.typ ∈ types)).map
        fun r => { dst := r.dst, typ := r.typ, weight := r.weight } := by
  induction rs generalizing nc nr with
  | nil => rfl
  | cons r rs ih =>
    simp only [effEdges]
    by_cases hd : r.dst = -1
    · simp only [hd, if_true]
      rw [ih]; simp [hd]
    · simp only [hd, if_false]
      rw [List.filter_cons (xs := rs), if_pos (by simpa using hd), List.filter_cons, List.filter_cons]
      by_cases hc : r.src = n ∧ r.typ ∈ types
      · rw [if_pos (by exact decide_eq_true hc), if_pos (by exact decide_eq_true hc)]
        simp only [List.map_cons, ih]
        rfl
      · rw [if_neg (by rw [decide_eq_true_eq]; exact hc), if_neg (by rw [decide_eq_true_eq]; exact hc)]
        exact ih nc nr

theorem inputEdges_neighbors (parts : List (List (List Rec))) (n : Int) (types : List Int) :
    (inputEdges parts n types).map gnbr = Spec.neighbors parts n types := by
  simp only [inputEdges, Spec.neighbors, Spec.edgeRecords, Spec.allRecords]
  generalize parts.flatten = calls
  induction calls with
  | nil => rfl
  | cons c cs ih =>
    simp only [List.flatMap_cons, List.filter_append, List.map_append, List.flatten_cons]
    rw [ih, effEdges_neighbors]

theorem infix_flatMap {α β} (f : α → List β) {l : List α} {a : α} (h : a ∈ l) :
    f a <:+: l.flatMap f := by
  obtain ⟨s, t, rfl⟩ := List.append_of_mem h
  exact ⟨s.flatMap f, t.flatMap f, by simp⟩

/-- With exact sums the reported weights are the given ones. -/
theorem GraphOk.seen_exact (h : GraphOk C m g items parts) (hw : Spec.ExactWeights parts) (n : Int)
    (types : List Int) : foundSeen items n types = foundEdges items n types := by
  simp only [foundSeen, foundEdges]
  rw [List.flatMap_def, List.flatMap_def]
  congr 1
  apply List.map_congr_left
  intro it hit
  rw [List.flatMap_def, List.flatMap_def]
  congr 1
  apply List.map_congr_left
  intro b hb
  have hid : b.id = n := by simpa using (List.mem_filter.1 hb).2
  apply walkSeen_exact
  intro r hr
  have key : (r.2.map (·.weight)) <:+:
      ((Spec.edgeRecords parts).filter (fun x => x.src = n ∧ x.typ = r.1)).map (·.weight) := by
    have h1 : r.2 <:+: b.edges.filter (fun e => decide (e.typ ∈ [r.1])) := by
      rw [← filter_flatMap_runs]
      exact infix_flatMap (fun a : Int × List GEdge => a.2) (List.mem_filter.2 ⟨hr, by simp⟩)
    have h2 := infix_flatMap (fun b : Blk => b.edges.filter (fun e => decide (e.typ ∈ [r.1]))) hb
    have h3 := infix_flatMap (fun it : Item => (it.blks.filter (fun b => b.id = n)).flatMap fun b =>
      b.edges.filter (fun e => decide (e.typ ∈ [r.1]))) hit
    have h4 := h.all_edges n (fun e => decide (e.typ ∈ [r.1]))
    have h5 : ((parts.flatten.flatMap (effEdges 0 (-1))).filter (fun x => decide (x.1 = n) &&
        decide (x.2.typ ∈ [r.1]))).map (·.2) = inputEdges parts n [r.1] := by
      simp [inputEdges, Bool.decide_and]
    rw [h4, h5] at h3
    have h6 := (h1.trans h2).trans h3
    have h7 := h6.map (·.weight)
    have h8 := congrArg (List.map Nbr.weight) (inputEdges_neighbors parts n [r.1])
    simp only [List.map_map, Spec.neighbors, List.mem_singleton] at h8
    have h9 : (inputEdges parts n [r.1]).map (·.weight) = _ := h8
    rw [h9] at h7
    exact h7
  constructor
  · intro w hw'
    obtain ⟨s, t, hst⟩ := List.append_of_mem hw'
    have : [w] <:+: r.2.map (·.weight) := ⟨s, t, by rw [hst]; simp⟩
    simpa using hw n r.1 [w] (this.trans key)
  · intro i
    exact hw n r.1 _ ((List.take_prefix i _).isInfix.trans key)

theorem effEdges_mem_typ {nc nr : Int} {rs : List Rec} {x : Int × GEdge} (h : x ∈ effEdges nc nr rs) :
    ∃ r ∈ rs, r.dst ≠ -1 ∧ r.src = x.1 ∧ r.typ = x.2.typ := by
  induction rs generalizing nc nr with
  | nil => simp [effEdges] at h
  | cons r rs ih =>
    simp only [effEdges] at h
    split at h
    · obtain ⟨r', hr', h'⟩ := ih h; exact ⟨r', by simp [hr'], h'⟩
    · rename_i hd
      rcases List.mem_cons.1 h with rfl | h
      · exact ⟨r, by simp, hd, rfl, rfl⟩
      · obtain ⟨r', hr', h'⟩ := ih h; exact ⟨r', by simp [hr'], h'⟩

theorem mem_input_record {parts : List (List (List Rec))} {x : Int × GEdge}
    (h : x ∈ parts.flatten.flatMap (effEdges 0 (-1))) :
    ∃ r ∈ Spec.edgeRecords parts, r.src = x.1 ∧ r.typ = x.2.typ := by
  obtain ⟨c, hc, hx⟩ := List.mem_flatMap.1 h
  obtain ⟨r, hr, hd, h1, h2⟩ := effEdges_mem_typ hx
  exact ⟨r, List.mem_filter.2 ⟨List.mem_flatten.2 ⟨c, hc, hr⟩, by simpa using hd⟩, h1, h2⟩

end DeepGNN
