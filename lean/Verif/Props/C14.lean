import Verif.Props.C05

/-
C14 A node split over partitions is queried as one.
-/

namespace DeepGNN

theorem mapM_some_length {α β} (f : α → Option β) {l : List α} {r : List β} (h : l.mapM f = some r) :
    r.length = l.length := by
  induction l generalizing r with
  | nil => simp at h; simp [← h]
  | cons a l ih =>
    simp only [List.mapM_cons, Option.bind_eq_bind, Option.bind_eq_some_iff, Option.pure_def,
      Option.some.injEq] at h
    obtain ⟨b, -, bs, h2, rfl⟩ := h
    simp [ih h2]

/-- The table entries of a node depend only on the files. -/
theorem GraphOk.entries_files {C : WeightCodec} {m : Meta} {g : Graph} {items : List Item}
    {parts : List (List (List Rec))} (h : GraphOk C m g items parts) (n : Int) :
    g.entries n = some (items.flatMap fun it =>
      ((parseNodeMap it.files.nodeMap).filter (fun x => x.1 = n)).map fun x => (it.part, x.2)) := by
  rw [(entries_items h.parts_eq h.inv n).1]
  congr 1
  rw [List.flatMap_def, List.flatMap_def]
  congr 1
  apply List.map_congr_left
  intro it hit
  rw [(h.ok it hit).map, List.filter_map, List.map_map]
  rfl

theorem items_of_files {C : WeightCodec} {m : Meta} {a b : Item} (ha : ItemOk C m a) (hb : ItemOk C m b)
    (h : a.files = b.files) : a.part = b.part := by
  have h1 := ha.load; have h2 := hb.load
  rw [h, h2] at h1
  exact (Option.some.inj h1).symm

/-- If `g` was built from several partitions and `gs` are the graphs built from each of the
partitions alone, the table entries of a node in `g` are those in `gs`, in order. -/
theorem entries_split {C : WeightCodec} {wm : Option Nat} {m : Meta}
    {parts : List (List (List Rec))} {g : Graph} (h : Built C wm m parts g) {gs : List Graph}
    (hs : All2 (fun p gi => Built C wm m [p] gi) parts gs) (n : Int) :
    ∃ es, gs.mapM (fun gi => gi.entries n) = some es ∧ g.entries n = some es.flatten := by
  obtain ⟨items, hg, hf, -⟩ := h.exists_items
  rw [hg.entries_files n]
  have hok := hg.ok
  clear hg h
  induction hs generalizing items with
  | nil =>
    simp only [List.mapM_nil, Option.pure_def, Option.some.injEq] at hf
    have : items = [] := by simpa using hf.symm
    subst this
    exact ⟨[], rfl, rfl⟩
  | @cons p gi ps gs hp _ ih =>
    simp only [List.mapM_cons, Option.bind_eq_bind, Option.bind_eq_some_iff, Option.pure_def,
      Option.some.injEq] at hf
    obtain ⟨f, hf1, fs, hf2, hfs⟩ := hf
    cases items with
    | nil => simp at hfs
    | cons it items =>
      simp only [List.map_cons, List.cons.injEq] at hfs
      obtain ⟨rfl, rfl⟩ := hfs
      obtain ⟨es, h1, h2⟩ := ih items hf2 (fun it hit => hok it (by simp [hit]))
      obtain ⟨items', hg', hf', -⟩ := hp.exists_items
      simp only [List.mapM_cons, List.mapM_nil, hf1, Option.bind_eq_bind, Option.bind_some,
        Option.pure_def, Option.some.injEq] at hf'
      obtain ⟨it', rfl⟩ : ∃ it', items' = [it'] := by
        have := congrArg List.length hf'
        simp only [List.length_cons, List.length_nil, List.length_map] at this
        exact List.length_eq_one_iff.1 this.symm
      simp only [List.map_cons, List.map_nil, List.cons.injEq, and_true] at hf'
      have hpart := items_of_files (hok it (by simp)) (hg'.ok it' (by simp)) hf'
      refine ⟨(((parseNodeMap it.files.nodeMap).filter (fun x => x.1 = n)).map
        fun x => (it.part, x.2)) :: es, ?_, ?_⟩
      · simp only [List.mapM_cons, hg'.entries_files n, h1, Option.bind_eq_bind, Option.bind_some,
          Option.pure_def, List.flatMap_cons, List.flatMap_nil, List.append_nil, ← hf', ← hpart]
      · simp only [List.flatMap_cons, List.flatten_cons, Option.some.injEq] at h2 ⊢
        rw [h2]

theorem mapM_flatten {α β} (f : α → Option β) (l : List (List α)) :
    l.flatten.mapM f = (l.mapM fun x : List α => x.mapM f).map List.flatten := by
  induction l with
  | nil => rfl
  | cons a l ih =>
    simp only [List.flatten_cons, List.mapM_append, List.mapM_cons, ih, Option.bind_eq_bind,
      Option.pure_def]
    cases a.mapM f with
    | none => rfl
    | some x => cases l.mapM (fun x => x.mapM f) <;> rfl

/-- A query that asks every table entry of a node and joins the answers gives on `g` the join of
what it gives on the graphs of the single partitions. -/
theorem query_split {β : Type} (q : Partition × Nat → Option β) {ges : Option (List (Partition × Nat))}
    {gs : List Graph} {n : Int} {es : List (List (Partition × Nat))}
    (h1 : gs.mapM (fun gi => gi.entries n) = some es) (h2 : ges = some es.flatten)
    {rs : List (List β)} (hr : gs.mapM (fun gi => (gi.entries n).bind fun e => e.mapM q) = some rs) :
    (ges.bind fun e => e.mapM q) = some rs.flatten := by
  subst h2
  simp only [Option.bind_some, mapM_flatten]
  have : es.mapM (fun e => e.mapM q) = some rs := by
    induction gs generalizing es rs with
    | nil =>
      simp only [List.mapM_nil, Option.pure_def, Option.some.injEq] at h1 hr
      subst h1; subst hr; rfl
    | cons gi gs ih =>
      simp only [List.mapM_cons, Option.bind_eq_bind, Option.bind_eq_some_iff, Option.pure_def,
        Option.some.injEq] at h1 hr
      obtain ⟨e, he, es', he', rfl⟩ := h1
      obtain ⟨r, hr1, rs', hr', rfl⟩ := hr
      obtain ⟨e', hee, hr1⟩ := hr1
      rw [he] at hee
      obtain rfl := Option.some.inj hee
      simp only [List.mapM_cons, hr1, ih he' hr', Option.bind_eq_bind, Option.bind_some, Option.pure_def]
  rw [this]; rfl

/-- Neighbours (with or without timestamps, any edge types) and counts of a node in a graph of
several partitions: the neighbours are the concatenation, in load order, of the neighbours the node
has in each partition loaded alone, and the counts add up. -/
theorem C14_split {C : WeightCodec} {wm : Option Nat} {m : Meta}
    {parts : List (List (List Rec))} {g : Graph} (h : Built C wm m parts g) {gs : List Graph}
    (hs : All2 (fun p gi => Built C wm m [p] gi) parts gs) (n : Int) (ts : Option Int) (types : List Int)
    (hts : ts ≠ none → 0 ≤ m.watermark) :
    ∃ rs : List (List Nbr),
      gs.mapM (fun gi => gi.fullNeighbor [n] (ts.map fun t => [t]) types) =
        some (rs.map fun r => (r, [r.length])) ∧
      g.fullNeighbor [n] (ts.map fun t => [t]) types = some (rs.flatten, [(rs.map List.length).sum]) ∧
      (ts = none → gs.mapM (fun gi => gi.neighborCount [n] types) = some (rs.map fun r => [r.length]) ∧
        g.neighborCount [n] types = some [(rs.map List.length).sum]) := by
  obtain ⟨es, h1, h2⟩ := entries_split h hs n
  have hq : ∀ gi parts', Built C wm m parts' gi → ∃ L : List (List Nbr),
      ((gi.entries n).bind fun e => e.mapM fun x => x.1.fullNeighbor x.2 ts types) =
        some (L.map fun r => (r, r.length)) ∧
      (ts = none → ((gi.entries n).bind fun e => e.mapM fun x => x.1.neighborCount x.2 types) =
        some (L.map List.length)) := by
    intro gi parts' hb
    obtain ⟨items, hg, -⟩ := hb.graphOk
    cases ts with
    | none =>
      obtain ⟨e1, h1, h2⟩ := hg.mapEntries n (fun x => x.1.fullNeighbor x.2 none types)
        (fun b => ((walkSeen b.edges types).map gnbr, (walkSeen b.edges types).length)) (by
          intro it hit x hx _
          obtain ⟨xs, ht⟩ := (hg.ok it hit).tables hx
          exact ht.fullNeighbor types)
      obtain ⟨e2, h3, h4⟩ := hg.mapEntries n (fun x => x.1.neighborCount x.2 types)
        (fun b => (walkEdges b.edges types).length) (by
          intro it hit x hx _
          obtain ⟨xs, ht⟩ := (hg.ok it hit).tables hx
          exact ht.neighborCount types)
      rw [h3] at h1
      obtain rfl := Option.some.inj h1
      refine ⟨items.flatMap fun it => (it.blks.filter (fun b => b.id = n)).map fun b =>
        (walkSeen b.edges types).map gnbr, ?_, ?_⟩
      · rw [h3, Option.bind_some, h2]; simp [List.map_flatMap, Function.comp_def]
      · intro _
        rw [h3, Option.bind_some, h4]; simp [List.map_flatMap, Function.comp_def, walkSeen_length]
    | some t =>
      obtain ⟨e1, h1, h2⟩ := hg.mapEntries n (fun x => x.1.fullNeighbor x.2 (some t) types)
        (fun b => (((walkSeen b.edges types).filter (liveB t)).map gnbr,
          ((walkSeen b.edges types).filter (liveB t)).length)) (by
          intro it hit x hx _
          obtain ⟨xs, ht⟩ := (hg.ok it hit).tables hx
          exact ht.fullNeighborAt (hts (by simp)) types t)
      refine ⟨items.flatMap fun it => (it.blks.filter (fun b => b.id = n)).map fun b =>
        ((walkSeen b.edges types).filter (liveB t)).map gnbr, ?_, by simp⟩
      rw [h1, Option.bind_some, h2]; simp [List.map_flatMap, Function.comp_def]
  -- answers of the single graphs, entry by entry
  have hall : ∃ Ls : List (List (List Nbr)),
      gs.mapM (fun gi => (gi.entries n).bind fun e => e.mapM fun x => x.1.fullNeighbor x.2 ts types) =
        some (Ls.map fun L => L.map fun r => (r, r.length)) ∧
      (ts = none → gs.mapM (fun gi => (gi.entries n).bind fun e =>
        e.mapM fun x => x.1.neighborCount x.2 types) = some (Ls.map fun L => L.map List.length)) := by
    clear h h1 h2
    induction hs with
    | nil => exact ⟨[], rfl, fun _ => rfl⟩
    | @cons p gi ps gs hp _ ih =>
      obtain ⟨L, a1, a2⟩ := hq gi _ hp
      obtain ⟨Ls, b1, b2⟩ := ih
      refine ⟨L :: Ls, ?_, ?_⟩
      · simp only [List.mapM_cons, a1, b1]; rfl
      · intro ht; simp only [List.mapM_cons, a2 ht, b2 ht]; rfl
  obtain ⟨Ls, c1, c2⟩ := hall
  have full1 : ∀ (gi : Graph) (L : List (List Nbr)),
      ((gi.entries n).bind fun e => e.mapM fun x => x.1.fullNeighbor x.2 ts types) =
        some (L.map fun r => (r, r.length)) →
      gi.fullNeighbor [n] (ts.map fun t => [t]) types = some (L.flatten, [L.flatten.length]) := by
    intro gi L hL
    have e1 : gi.fullNeighbor1 ts types n = some (L.flatten, L.flatten.length) := by
      simp only [Graph.fullNeighbor1]
      obtain ⟨e, he, hL⟩ := Option.bind_eq_some_iff.1 hL
      rw [he]
      simp only [Option.bind_eq_bind, Option.bind_some]
      have hL' : e.mapM (fun (x : Partition × Nat) =>
        match x with | (p, id) => p.fullNeighbor id ts types) = _ := hL
      rw [hL']
      simp [Function.comp_def, List.length_flatten]
    cases ts with
    | none => simp [Graph.fullNeighbor, e1]
    | some t => simp [Graph.fullNeighbor, e1]
  have count1 : ∀ (gi : Graph) (L : List (List Nbr)),
      ((gi.entries n).bind fun e => e.mapM fun x => x.1.neighborCount x.2 types) =
        some (L.map List.length) →
      gi.neighborCount [n] types = some [L.flatten.length] := by
    intro gi L hL
    have e1 : gi.neighborCount1 types n = some L.flatten.length := by
      simp only [Graph.neighborCount1]
      obtain ⟨e, he, hL⟩ := Option.bind_eq_some_iff.1 hL
      rw [he]
      simp only [Option.bind_eq_bind, Option.bind_some]
      have hL' : e.mapM (fun (x : Partition × Nat) =>
        match x with | (p, id) => p.neighborCount id types) = _ := hL
      rw [hL']
      simp [List.length_flatten]
    simp [Graph.neighborCount, e1]
  have lift : ∀ {γ δ : Type} (f : Graph → Option γ) (f' : Graph → Option δ) (A : List (List Nbr) → γ)
      (B : List (List Nbr) → δ), (∀ gi L, f gi = some (A L) → f' gi = some (B L)) →
      ∀ (gs : List Graph) (Ls : List (List (List Nbr))), gs.mapM f = some (Ls.map A) →
        gs.mapM f' = some (Ls.map B) := by
    intro γ δ f f' A B hf gs
    induction gs with
    | nil =>
      intro Ls hL
      simp only [List.mapM_nil, Option.pure_def, Option.some.injEq] at hL
      have : Ls = [] := by simpa using hL.symm
      subst this; rfl
    | cons gi gs ih =>
      intro Ls hL
      simp only [List.mapM_cons, Option.bind_eq_bind, Option.bind_eq_some_iff, Option.pure_def,
        Option.some.injEq] at hL
      obtain ⟨x, hx, xs, hxs, hL⟩ := hL
      cases Ls with
      | nil => simp at hL
      | cons L Ls =>
        simp only [List.map_cons, List.cons.injEq] at hL
        obtain ⟨rfl, rfl⟩ := hL
        simp only [List.mapM_cons, hf gi L hx, ih Ls hxs]; rfl
  refine ⟨Ls.map List.flatten, ?_, ?_, ?_⟩
  · rw [lift _ _ _ (fun L => (L.flatten, [L.flatten.length])) full1 gs Ls c1, List.map_map]; rfl
  · have := query_split _ h1 h2 c1
    rw [← List.map_flatten] at this
    rw [full1 g Ls.flatten this]
    simp [List.flatten_flatten, List.length_flatten, Function.comp_def]
  · intro ht
    constructor
    · rw [lift _ _ _ (fun L => [L.flatten.length]) count1 gs Ls (c2 ht), List.map_map]; rfl
    · have := query_split _ h1 h2 (c2 ht)
      rw [← List.map_flatten] at this
      rw [count1 g Ls.flatten this]
      simp [List.flatten_flatten, List.length_flatten, Function.comp_def]

/-- Each edge is found exactly once: with all edge types requested, the neighbours are those of the
first partition, then those of the second, and so on. -/
theorem C14_each_edge_once {C : WeightCodec} {wm : Option Nat} {m : Meta}
    {parts : List (List (List Rec))} {g : Graph} (h : Built C wm m parts g) (n : Int) (types : List Int)
    (ht : types.Pairwise (· < ·))
    (hall : ∀ r ∈ Spec.edgeRecords parts, r.src = n → r.typ ∈ types) :
    ∃ nbrs, g.fullNeighbor [n] none types = some (nbrs, [nbrs.length]) ∧
      nbrs.map (fun x => (x.dst, x.typ)) =
        parts.flatMap fun p => ((p.flatten.filter (fun r => r.dst ≠ -1)).filter (fun r => r.src = n)).map
          fun r => (r.dst, r.typ) := by
  obtain ⟨nbrs, h1, h2⟩ := C02_neighbors h [n] types ht (by simpa using hall)
  simp only [List.flatMap_cons, List.flatMap_nil, List.append_nil] at h2
  refine ⟨nbrs, ?_, ?_⟩
  · have := congrArg List.length h2
    simp only [List.length_map] at this
    rw [h1, this]; rfl
  · rw [h2]
    simp only [C02_allNeighbors, Spec.edgeRecords, Spec.allRecords, List.map_map]
    clear h h1 h2 hall
    induction parts with
    | nil => rfl
    | cons p ps ih =>
      simp only [List.flatten_cons, List.flatten_append, List.filter_append, List.map_append,
        List.flatMap_cons, ih]
      rfl

/-- Non-vacuity: node 1 of `C02_example` is spread over two partitions, each loadable alone. -/
example : ∃ g g1 g2, Built intCodec none ⟨0, 0, -1⟩ C02_example g ∧
    All2 (fun p gi => Built intCodec none ⟨0, 0, -1⟩ [p] gi) C02_example [g1, g2] ∧
    g.fullNeighbor [1] none [0, 1, 2] = some ([⟨2, 0, 7⟩, ⟨3, 2, 9⟩] ++ [⟨7, 1, 2⟩], [2 + 1]) := by
  obtain ⟨g, hg, hb⟩ := built_of_check (wm := none) (m := ⟨0, 0, -1⟩) (parts := C02_example)
    (by decide +kernel)
  obtain ⟨g1, -, hb1⟩ := built_of_check (wm := none) (m := ⟨0, 0, -1⟩) (parts := [C02_example[0]!])
    (by decide +kernel)
  obtain ⟨g2, -, hb2⟩ := built_of_check (wm := none) (m := ⟨0, 0, -1⟩) (parts := [C02_example[1]!])
    (by decide +kernel)
  refine ⟨g, g1, g2, hb, .cons hb1 (.cons hb2 .nil), ?_⟩
  have : (graphOf intCodec none ⟨0, 0, -1⟩ C02_example).bind (fun g => g.fullNeighbor [1] none [0, 1, 2]) =
      some ([⟨2, 0, 7⟩, ⟨3, 2, 9⟩] ++ [⟨7, 1, 2⟩], [2 + 1]) := by decide +kernel
  rw [hg] at this; exact this

end DeepGNN
