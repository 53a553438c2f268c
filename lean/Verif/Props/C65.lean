import Verif.Proofs.RemoteEdgesAt

/-
C65 Edge features from several servers.
-/

namespace DeepGNN

open Spec

variable {C : WeightCodec} {wm : Option Nat} {m : Meta} {parts : List (List (List Rec))} {g : Graph}

/-- For all servers, non-empty requests and contents of the output before the call, and for every interleaving of the
writes of the callbacks: all servers answer, and the client returns a row per edge.  Every byte of the row is the byte at
this place in the row that the graph of one of the servers, which holds a record of this very edge, returns for it; or
the graphs of all servers return zeros for the edge, and the row is zero. -/
theorem C65_bytes (servers : List (List (List (List Rec)) × Graph)) (hs : ∀ s ∈ servers, Built C wm m s.1 s.2)
    (edges : List EdgeId) (hne : edges ≠ []) (feats : List (Nat × Nat)) (buffer : Bytes)
    (hb : buffer.length = (feats.map (·.2)).sum * edges.length) :
    ∃ replies, servers.mapM (fun s => s.2.getEdgeFeatures edges none feats) = some replies ∧
      ∀ steps, Interleaved (replies.map (edgeSteps (feats.map (·.2)).sum)) steps → ∃ rows : List Bytes,
        remoteEdgeFeatures edges.length (feats.map (·.2)).sum buffer steps = some rows.flatten ∧
        rows.length = edges.length ∧
        ∀ (k : Nat) e row, edges[k]? = some e → rows[k]? = some row → row.length = (feats.map (·.2)).sum ∧
          ((∀ j < row.length, ∃ s ∈ servers, edgesBetween s.1 e.src e.dst e.typ ≠ [] ∧
            ∃ own, s.2.edgeFeature [e] none feats = some own ∧ row[j]? = own[j]?) ∨
          ((∀ s ∈ servers, s.2.edgeFeature [e] none feats = some (List.replicate (feats.map (·.2)).sum 0)) ∧
            row = List.replicate (feats.map (·.2)).sum 0)) := by
  generalize hfv : (feats.map (·.2)).sum = fv at *
  have hown : ∀ s ∈ servers, ∃ items, GraphOk C m s.2 items s.1 ∧ (∀ it ∈ items, it.files.edgeFeatureCount ≤ m.edgeFeatureCount) ∧
      ∀ e, s.2.edgeFeature [e] none feats = some (edgeRow items feats e) := by
    intro s hsm
    obtain ⟨items, hg, hc⟩ := (hs s hsm).graphOk
    refine ⟨items, hg, fun it hit => (hc it hit).2, fun e => ?_⟩
    have := hg.edgeFeature1 (fun it hit => (hc it hit).2) feats e
    simp [Graph.edgeFeature, tsList, this, edgeRow]
  have key : ∀ servers : List (List (List (List Rec)) × Graph),
      (∀ s ∈ servers, ∃ items, GraphOk C m s.2 items s.1 ∧ (∀ it ∈ items, it.files.edgeFeatureCount ≤ m.edgeFeatureCount) ∧
        ∀ e, s.2.edgeFeature [e] none feats = some (edgeRow items feats e)) →
      ∃ replies, servers.mapM (fun s => s.2.getEdgeFeatures edges none feats) = some replies ∧
      ∃ has : List (List (List Rec)) × Graph → EdgeId → Prop,
      (∀ p v, (∃ l ∈ replies.map (edgeSteps fv), Step.put p v ∈ l) ↔ ∃ s ∈ servers, ∃ k e j, p = fv * k + j ∧
        edges[k]? = some e ∧ has s e ∧ ∃ own, s.2.edgeFeature [e] none feats = some own ∧ own[j]? = some v) ∧
      (∀ p, (∃ l ∈ replies.map (edgeSteps fv), Step.mark p ∈ l) ↔ ∃ s ∈ servers, ∃ e, edges[p]? = some e ∧ has s e) ∧
      ∀ s ∈ servers, ∀ e, (has s e → edgesBetween s.1 e.src e.dst e.typ ≠ []) ∧
        (¬ has s e → s.2.edgeFeature [e] none feats = some (List.replicate fv 0)) ∧
        ∃ own, s.2.edgeFeature [e] none feats = some own ∧ own.length = fv := by
    intro servers hown
    refine (?_ : ∃ replies, servers.mapM (fun s => s.2.getEdgeFeatures edges none feats) = some replies ∧ _)
    let has : List (List (List Rec)) × Graph → EdgeId → Prop := fun s e =>
      ∃ items, GraphOk C m s.2 items s.1 ∧ s.2.edgeFeature [e] none feats = some (edgeRow items feats e) ∧ HasEdge items feats e ∧
        ∃ r, s.2.getEdgeFeatures [e] none feats = some r ∧ Step.mark 0 ∈ edgeSteps fv r
    have hhas : ∀ s, ∀ items, GraphOk C m s.2 items s.1 → (∀ it ∈ items, it.files.edgeFeatureCount ≤ m.edgeFeatureCount) →
        (∀ e, s.2.edgeFeature [e] none feats = some (edgeRow items feats e)) → ∀ e, has s e ↔ HasEdge items feats e := by
      intro s items hg hc hrow e
      obtain ⟨r, h1, -, h3⟩ := hg.serveEdges hc feats [e] 0
      rw [hfv] at h3
      have hr : s.2.getEdgeFeatures [e] none feats = some r := by
        rw [Graph.getEdgeFeatures, edge_requests]
        exact h1
      have h4 : Step.mark 0 ∈ edgeSteps fv r ↔ HasEdge items feats e := by
        rw [h3]
        constructor
        · rintro ⟨k, e', hk, he, h5⟩
          have : k = 0 := by omega
          subst this
          rw [List.getElem?_cons_zero, Option.some.injEq] at he
          subst he
          exact h5
        · intro h5
          exact ⟨0, e, rfl, rfl, h5⟩
      constructor
      · rintro ⟨-, -, -, -, r', h5, h6⟩
        rw [hr, Option.some.injEq] at h5
        subst h5
        exact h4.1 h6
      · intro h5
        exact ⟨items, hg, hrow e, h5, r, hr, h4.2 h5⟩
    have main : ∀ servers : List (List (List (List Rec)) × Graph),
      (∀ s ∈ servers, ∃ items, GraphOk C m s.2 items s.1 ∧ (∀ it ∈ items, it.files.edgeFeatureCount ≤ m.edgeFeatureCount) ∧
        ∀ e, s.2.edgeFeature [e] none feats = some (edgeRow items feats e)) →
      ∃ replies, servers.mapM (fun s => s.2.getEdgeFeatures edges none feats) = some replies ∧
      (∀ p v, (∃ l ∈ replies.map (edgeSteps fv), Step.put p v ∈ l) ↔ ∃ s ∈ servers, ∃ k e j, p = fv * k + j ∧
        edges[k]? = some e ∧ has s e ∧ ∃ own, s.2.edgeFeature [e] none feats = some own ∧ own[j]? = some v) ∧
      (∀ p, (∃ l ∈ replies.map (edgeSteps fv), Step.mark p ∈ l) ↔ ∃ s ∈ servers, ∃ e, edges[p]? = some e ∧ has s e) := by
      intro servers
      induction servers with
      | nil => intro _; exact ⟨[], rfl, by simp, by simp⟩
      | cons s ss ih =>
        intro hown
        obtain ⟨replies, h1, h2, h3⟩ := ih fun s hs' => hown s (List.mem_cons_of_mem _ hs')
        obtain ⟨items, hg, hc, hrow⟩ := hown s (List.mem_cons_self ..)
        obtain ⟨r, h4, h5, h6⟩ := hg.serveEdges hc feats edges 0
        rw [hfv] at h5 h6
        refine ⟨r :: replies, ?_, ?_, ?_⟩
        · rw [List.mapM_cons, Graph.getEdgeFeatures, edge_requests, h4, h1]
          rfl
        · intro p v
          simp only [List.map_cons, List.mem_cons, exists_eq_or_imp, h2, h5, Nat.zero_add, hhas s items hg hc hrow, hrow,
            Option.some.injEq, exists_eq_left']
        · intro p
          simp only [List.map_cons, List.mem_cons, exists_eq_or_imp, h3, h6, Nat.zero_add, hhas s items hg hc hrow]
          simp
    obtain ⟨replies, h1, h2, h3⟩ := main servers hown
    refine ⟨replies, h1, has, h2, h3, fun s hsm e => ?_⟩
    obtain ⟨items, hg, hc, hrow⟩ := hown s hsm
    rw [hhas s items hg hc hrow]
    refine ⟨HasEdge.record hg, fun hno => ?_, _, hrow e, ?_⟩
    · rw [hrow, edgeRow_zero _ _ _ hno, hfv]
    · rw [edgeRow_length, hfv]
  obtain ⟨replies, h1, has, h2, h3, h4⟩ := key servers hown
  refine ⟨replies, h1, fun steps hst => ?_⟩
  have hpos : 0 < edges.length := List.length_pos_iff.2 hne
  rw [remoteEdgeFeatures, if_neg (by omega)]
  refine ⟨(List.range edges.length).map fun i =>
    if (runSteps (buffer, List.replicate edges.length false) steps).2.getD i false then
      ((runSteps (buffer, List.replicate edges.length false) steps).1.drop (fv * i)).take fv else List.replicate fv 0,
    by rw [List.flatMap_def], by simp, ?_⟩
  intro k e row hk hrow
  have hkl : k < edges.length := (List.getElem?_eq_some_iff.1 hk).1
  rw [List.getElem?_map, List.getElem?_range hkl, Option.map_some, Option.some.injEq] at hrow
  obtain ⟨b, hb1, hb2⟩ := runSteps_flag steps buffer edges.length k hkl
  rw [interleaved_mem hst, h3] at hb2
  rw [List.getD_eq_getElem?_getD, hb1, Option.getD_some] at hrow
  have hlen := (runSteps_length steps (buffer, List.replicate edges.length false)).1
  simp only [] at hlen
  have hspace : fv * k + fv ≤ fv * edges.length := by
    rw [← Nat.mul_succ]
    exact Nat.mul_le_mul_left _ hkl
  have hrl : row.length = fv := by
    rw [← hrow]
    split
    · rw [List.length_take, List.length_drop, hlen, hb]
      omega
    · simp
  refine ⟨hrl, ?_⟩
  cases b with
  | false =>
    right
    rw [if_neg (by simp)] at hrow
    refine ⟨fun s hsm => ?_, hrow.symm⟩
    refine (h4 s hsm e).2.1 fun hh => ?_
    have := hb2.2 ⟨s, hsm, e, hk, hh⟩
    cases this
  | true =>
    left
    rw [if_pos rfl] at hrow
    obtain ⟨s0, hs0, e', he', hh0⟩ := hb2.1 rfl
    rw [hk, Option.some.injEq] at he'
    subst he'
    intro j hj
    rw [hrl] at hj
    have hrj : row[j]? = (runSteps (buffer, List.replicate edges.length false) steps).1[fv * k + j]? := by
      rw [← hrow, List.getElem?_take_of_lt hj, List.getElem?_drop]
    rcases runSteps_out steps (buffer, List.replicate edges.length false) (fv * k + j) (by simp only []; omega) with
      ⟨v, hv, ho⟩ | ⟨hno, -⟩
    · rw [interleaved_mem hst, h2] at hv
      obtain ⟨s, hsm, k', e', j', hp, he', hh, own, ho1, ho2⟩ := hv
      obtain ⟨own', ho1', hol⟩ := (h4 s hsm e').2.2
      rw [ho1, Option.some.injEq] at ho1'
      subst ho1'
      have hj' : j' < fv := by
        rw [← hol]
        exact (List.getElem?_eq_some_iff.1 ho2).1
      have hkk : k' = k := by
        rcases Nat.lt_trichotomy k' k with hlt | heq | hgt
        · have := Nat.mul_le_mul_left fv (Nat.succ_le_of_lt hlt)
          rw [Nat.mul_succ] at this
          omega
        · exact heq
        · have := Nat.mul_le_mul_left fv (Nat.succ_le_of_lt hgt)
          rw [Nat.mul_succ] at this
          omega
      subst hkk
      have hjj : j' = j := by omega
      subst hjj
      rw [hk, Option.some.injEq] at he'
      subst he'
      exact ⟨s, hsm, (h4 s hsm e).1 hh, own, ho1, by rw [hrj, ho, ho2]⟩
    · exfalso
      obtain ⟨own, ho1, hol⟩ := (h4 s0 hs0 e).2.2
      exact hno (own[j]'(by omega)) ((interleaved_mem hst _).2 ((h2 _ _).2 ⟨s0, hs0, k, e, j, rfl, hk, hh0, own, ho1,
        List.getElem?_eq_getElem (by omega)⟩))

theorem edgesBetween_servers (servers : List (List (List (List Rec)) × Graph)) (hp : (servers.flatMap (·.1)).Perm parts)
    (a b t : Int) : (servers.flatMap fun s => edgesBetween s.1 a b t).Perm (edgesBetween parts a b t) := by
  have h1 : (edgesBetween (servers.flatMap (·.1)) a b t).Perm (edgesBetween parts a b t) :=
    ((hp.flatten.flatten).filter _).filter _
  refine List.Perm.trans (.of_eq ?_) h1
  clear h1 hp
  induction servers with
  | nil => rfl
  | cons s ss ih =>
    rw [List.flatMap_cons, ih]
    simp only [edgesBetween, edgeRecords, allRecords, List.flatMap_cons, List.flatten_append, List.filter_append]

theorem fit_row_length (v : Nat → Bytes) (feats : List (Nat × Nat)) :
    (feats.flatMap fun f => fit f.2 (v f.1)).length = (feats.map (·.2)).sum := by
  induction feats with
  | nil => rfl
  | cons f fs ih =>
    rw [List.flatMap_cons, List.length_append, ih, List.map_cons, List.sum_cons]
    congr 1
    simp [fit]
    omega

theorem zero_row (feats : List (Nat × Nat)) :
    (feats.flatMap fun f => List.replicate f.2 (0 : UInt8)) = List.replicate (feats.map (·.2)).sum 0 := by
  induction feats with
  | nil => rfl
  | cons f fs ih => rw [List.flatMap_cons, ih, List.map_cons, List.sum_cons, List.replicate_append_replicate]

/-- Servers that hold the partitions of a graph: if every requested edge was given to the converter at most once, then
the features fetched remotely are those fetched from the whole graph, for all distributions of the partitions and all
interleavings of the callbacks.  Missing: edges given several times (`C65_torn_refuted`, `C65_split_refuted`) and requests
without edges (`C65_empty_refuted`). -/
theorem C65_distributed_partial (h : Built C wm m parts g) (servers : List (List (List (List Rec)) × Graph))
    (hs : ∀ s ∈ servers, Built C wm m s.1 s.2) (hp : (servers.flatMap (·.1)).Perm parts) (edges : List EdgeId)
    (hne : edges ≠ []) (huniq : ∀ e ∈ edges, (edgesBetween parts e.src e.dst e.typ).length ≤ 1)
    (feats : List (Nat × Nat)) (buffer : Bytes) (hb : buffer.length = (feats.map (·.2)).sum * edges.length) :
    ∃ replies, servers.mapM (fun s => s.2.getEdgeFeatures edges none feats) = some replies ∧
      ∀ steps, Interleaved (replies.map (edgeSteps (feats.map (·.2)).sum)) steps →
        remoteEdgeFeatures edges.length (feats.map (·.2)).sum buffer steps = g.edgeFeature edges none feats := by
  obtain ⟨replies, h1, h2⟩ := C65_bytes servers hs edges hne feats buffer hb
  refine ⟨replies, h1, fun steps hst => ?_⟩
  obtain ⟨rows, h3, hl, h4⟩ := h2 steps hst
  obtain ⟨val, h5, h6⟩ := C09_edge_features h edges feats
  rw [h3, h5, List.flatMap_def]
  congr 2
  apply List.ext_getElem?
  intro k
  by_cases hk : k < edges.length
  · have hek : edges[k]? = some edges[k] := List.getElem?_eq_getElem hk
    have hrk : rows[k]? = some (rows[k]'(by omega)) := List.getElem?_eq_getElem (by omega)
    rw [List.getElem?_map, hek, Option.map_some, hrk, Option.some.injEq]
    obtain ⟨hrl, hor⟩ := h4 k _ _ hek hrk
    generalize edges[k]'hk = e at *
    generalize rows[k]'(by omega) = row at *
    have hem : e ∈ edges := List.mem_of_getElem? hek
    have hperm := edgesBetween_servers servers hp e.src e.dst e.typ
    have hfitlen := fit_row_length (val e) feats
    have hown : ∀ s ∈ servers, edgesBetween s.1 e.src e.dst e.typ ≠ [] →
        s.2.edgeFeature [e] none feats = some (feats.flatMap fun f => fit f.2 (val e f.1)) := by
      intro s hsm hse
      obtain ⟨r, hr⟩ := List.exists_mem_of_ne_nil _ hse
      have hrp : r ∈ edgesBetween parts e.src e.dst e.typ :=
        hperm.subset (List.mem_flatMap.2 ⟨s, hsm, hr⟩)
      have hr1 : edgesBetween parts e.src e.dst e.typ = [r] := by
        have := huniq e hem
        match hx : edgesBetween parts e.src e.dst e.typ with
        | [] => rw [hx] at hrp; cases hrp
        | [x] => rw [hx] at hrp; rw [List.mem_singleton.1 hrp]
        | x :: y :: l => rw [hx] at this; simp at this
      have hr2 : edgesBetween s.1 e.src e.dst e.typ = [r] := by
        have hsub : (edgesBetween s.1 e.src e.dst e.typ).length ≤ 1 := by
          have h7 := hperm.length_eq
          obtain ⟨u, w, huw⟩ := List.append_of_mem hsm
          rw [hr1, List.length_singleton, huw] at h7
          simp only [List.flatMap_append, List.flatMap_cons, List.length_append] at h7
          omega
        match hx : edgesBetween s.1 e.src e.dst e.typ with
        | [] => exact absurd hx hse
        | [x] => rw [hx] at hr; rw [List.mem_singleton.1 hr]
        | x :: y :: l => rw [hx] at hsub; simp at hsub
      rw [C09_unique (hs s hsm) e r feats hr2]
      congr 2
      funext f
      obtain ⟨r', hr', h8⟩ := (h6 e f.1).2 (by rw [hr1]; simp)
      rw [hr1, List.mem_singleton] at hr'
      rw [h8, hr']
    rcases hor with hj | ⟨hz, hrow⟩
    · apply List.ext_getElem?
      intro j
      by_cases hjl : j < row.length
      · obtain ⟨s, hsm, hse, own, ho, hrj⟩ := hj j hjl
        rw [hown s hsm hse, Option.some.injEq] at ho
        rw [hrj, ho]
      · rw [List.getElem?_eq_none_iff.2 (by omega), List.getElem?_eq_none_iff.2 (by rw [hfitlen]; omega)]
    · rw [hrow]
      by_cases hx : edgesBetween parts e.src e.dst e.typ = []
      · have hv : ∀ f : Nat × Nat, fit f.2 (val e f.1) = List.replicate f.2 0 := by
          intro f
          rw [(h6 e f.1).1 hx]
          simp [fit]
        simp only [hv]
        exact (zero_row feats).symm
      · obtain ⟨r, hr⟩ := List.exists_mem_of_ne_nil _ hx
        obtain ⟨s, hsm, hrs⟩ := List.mem_flatMap.1 (hperm.symm.subset hr)
        have := hown s hsm (List.ne_nil_of_mem hrs)
        rw [hz s hsm, Option.some.injEq] at this
        exact this
  · rw [List.getElem?_eq_none_iff.2 (by omega), List.getElem?_eq_none_iff.2 (by simp; omega)]

theorem row_weaken {feats : List (Nat × Nat)} {P Q : Nat → Bytes → Prop} {row : Bytes} (h : Row feats P row)
    (hpq : ∀ f v, P f v → Q f v) : Row feats Q row := by
  obtain ⟨vs, h1, h2, h3⟩ := h
  exact ⟨vs, h1, h2, fun x hx => hpq _ _ (h3 x hx)⟩

theorem row_zeros (feats : List (Nat × Nat)) {P : Nat → Bytes → Prop} (h : ∀ f, P f []) :
    Row feats P (List.replicate (feats.map (·.2)).sum 0) := by
  refine ⟨feats.map fun _ => [], by simp, ?_, ?_⟩
  · clear h
    induction feats with
    | nil => rfl
    | cons f fs ih =>
      rw [List.map_cons, List.sum_cons, List.map_cons, List.zipWith_cons_cons, List.flatten_cons, ← ih,
        ← List.replicate_append_replicate]
      simp [fit]
  · intro x hx
    rw [List.zip_map_right, List.mem_map] at hx
    obtain ⟨y, -, rfl⟩ := hx
    exact h _

theorem two_sources {α β : Type} (l : List α) (f : α → List β) {a b : α} (ha : a ∈ l) (hb : b ∈ l) (hab : a ≠ b)
    (h1 : f a ≠ []) (h2 : f b ≠ []) : 2 ≤ (l.flatMap f).length := by
  have p1 : 0 < (f a).length := List.length_pos_iff.2 h1
  have p2 : 0 < (f b).length := List.length_pos_iff.2 h2
  obtain ⟨u, w, rfl⟩ := List.append_of_mem ha
  have hb' : b ∈ u ∨ b ∈ w := by
    rcases List.mem_append.1 hb with h | h
    · exact Or.inl h
    · rcases List.mem_cons.1 h with h | h
      · exact absurd h.symm hab
      · exact Or.inr h
  rcases hb' with h | h <;> obtain ⟨u', w', rfl⟩ := List.append_of_mem h <;>
    simp only [List.flatMap_append, List.flatMap_cons, List.length_append] <;> omega

/-- At given times, for edges that were given to the converter at most once: whatever the distribution of the partitions
to the servers, the interleaving of the callbacks and the content of the output before the call, the client returns for
every edge and feature the latest value not after the time asked for, and zeros if there is none.  Missing: edges given
several times (`C65_newest_refuted`). -/
theorem C65_temporal_partial (servers : List (List (List (List Rec)) × Graph))
    (hs : ∀ s ∈ servers, Built C wm m s.1 s.2) (hp : (servers.flatMap (·.1)).Perm parts) (edges : List EdgeId)
    (ts : List Int) (hne : edges ≠ []) (hts : ts.length = edges.length)
    (huniq : ∀ e ∈ edges, (edgesBetween parts e.src e.dst e.typ).length ≤ 1)
    (feats : List (Nat × Nat)) (buffer : Bytes) (hb : buffer.length = (feats.map (·.2)).sum * edges.length)
    (H : Nat → List (Option Bytes) → List (Int × Bytes))
    (hH : ∀ e ∈ edges, ∀ f ∈ feats, ∀ r ∈ edgesBetween parts e.src e.dst e.typ,
      HasHist r.features f.1 (H f.1 r.features)) :
    ∃ replies, servers.mapM (fun s => s.2.getEdgeFeatures edges (some ts) feats) = some replies ∧
      ∀ steps, Interleaved (replies.map (edgeSteps (feats.map (·.2)).sum)) steps → ∃ rows : List Bytes,
        remoteEdgeFeatures edges.length (feats.map (·.2)).sum buffer steps = some rows.flatten ∧
        rows.length = edges.length ∧ ∀ x ∈ (edges.zip ts).zip rows, Row feats (fun fid v =>
          LatestValue ((edgesBetween parts x.1.1.src x.1.1.dst x.1.1.typ).flatMap fun r => H fid r.features) x.1.2 v)
          x.2 := by
  have hreq : ∀ n, edges.zip (tsList (some ts) n) = (edges.zip ts).map fun x => (x.1, some x.2) := by
    intro n
    simp only [tsList, List.zip_map_right]
    rfl
  have hlen : ((edges.zip ts).map fun x => (x.1, some x.2)).length = edges.length := by simp; omega
  have hrec : ∀ s ∈ servers, ∀ e : EdgeId, ∀ r ∈ edgesBetween s.1 e.src e.dst e.typ,
      r ∈ edgesBetween parts e.src e.dst e.typ := by
    intro s hsm e r hr
    exact (edgesBetween_servers servers hp e.src e.dst e.typ).subset (List.mem_flatMap.2 ⟨s, hsm, hr⟩)
  -- what each server answers
  have hserve : ∀ s ∈ servers, ∀ e ∈ edges, ∀ t : Int, ∃ cells, s.2.serveEdge feats e (some t) = some cells ∧
      (cellRow cells).length = (feats.map (·.2)).sum ∧
      (HasCell cells → edgesBetween s.1 e.src e.dst e.typ ≠ []) ∧
      (¬ HasCell cells → cellRow cells = List.replicate (feats.map (·.2)).sum 0) ∧
      (s.2.nodeMap e.src = none → ¬ HasCell cells) ∧
      Row feats (fun fid v => (edgesBetween s.1 e.src e.dst e.typ = [] ∧ v = []) ∨
        ∃ r ∈ edgesBetween s.1 e.src e.dst e.typ, LatestValue (H fid r.features) t v) (cellRow cells) := by
    intro s hsm e he t
    obtain ⟨items, hg, hc⟩ := (hs s hsm).graphOk
    exact hg.cellsAt (fun it hit => (hc it hit).2) feats e t H (fun f hf r hr => hH e he f hf r (hrec s hsm e r hr))
  have hmem : ∀ x ∈ (edges.zip ts).map (fun x => (x.1, some x.2)), x.1 ∈ edges ∧ ∃ t, x.2 = some t := by
    intro x hx
    obtain ⟨y, hy, rfl⟩ := List.mem_map.1 hx
    exact ⟨(List.of_mem_zip hy).1, _, rfl⟩
  obtain ⟨replies, h1, h2⟩ := remoteEdges_cells servers (fun s => s.2) feats (feats.map (·.2)).sum
    (fun s x => (s.2.serveEdge feats x.1 x.2).getD []) ((edges.zip ts).map fun x => (x.1, some x.2))
    (by
      intro h0
      rw [h0] at hlen
      exact hne (List.length_eq_zero_iff.1 hlen.symm))
    buffer (by rw [hlen]; exact hb)
    (by
      intro s hsm x hx
      obtain ⟨he, t, ht⟩ := hmem x hx
      obtain ⟨cells, h1, -⟩ := hserve s hsm x.1 he t
      rw [ht, h1]; rfl)
    (by
      intro s hsm x hx
      obtain ⟨he, t, ht⟩ := hmem x hx
      obtain ⟨cells, h1, -, -, -, h2, -⟩ := hserve s hsm x.1 he t
      rw [ht, h1]; exact h2)
    (by
      intro s hsm x hx
      obtain ⟨he, t, ht⟩ := hmem x hx
      obtain ⟨cells, h1, h2, -⟩ := hserve s hsm x.1 he t
      rw [ht, h1]; exact h2)
  rw [hlen] at h2
  refine ⟨replies, ?_, fun steps hst => ?_⟩
  · rw [← h1]
    congr 1
    funext s
    rw [Graph.getEdgeFeatures, hreq]
  obtain ⟨rows, h3, h4, h5⟩ := h2 steps hst
  refine ⟨rows, h3, h4, ?_⟩
  rintro ⟨⟨e, t⟩, row⟩ hx
  obtain ⟨k, hk, hxk⟩ := List.mem_iff_getElem.1 hx
  simp only [List.getElem_zip, Prod.mk.injEq] at hxk
  obtain ⟨⟨hke, hkt⟩, hkr⟩ := hxk
  simp only [List.length_zip] at hk
  have he : e ∈ edges := by rw [← hke]; exact List.getElem_mem _
  obtain ⟨hrl, hor⟩ := h5 k (e, some t) row
    (by
      rw [List.getElem?_map, List.getElem?_eq_getElem (by simp; omega)]
      simp only [List.getElem_zip, Option.map_some, hke, hkt])
    (by rw [List.getElem?_eq_getElem (by omega), hkr])
  have hperm := edgesBetween_servers servers hp e.src e.dst e.typ
  -- the row of a server with a record
  have hown : ∀ s ∈ servers, edgesBetween s.1 e.src e.dst e.typ ≠ [] → ∀ cells,
      s.2.serveEdge feats e (some t) = some cells → Row feats (fun fid v =>
        LatestValue ((edgesBetween parts e.src e.dst e.typ).flatMap fun r => H fid r.features) t v) (cellRow cells) := by
    intro s hsm hse cells hcells
    obtain ⟨cells', h6, -, -, -, -, h7⟩ := hserve s hsm e he t
    rw [hcells, Option.some.injEq] at h6
    subst h6
    refine row_weaken h7 ?_
    rintro fid v (⟨h8, -⟩ | ⟨r, hr, h8⟩)
    · exact absurd h8 hse
    · have hrp := hrec s hsm e r hr
      have hr1 : edgesBetween parts e.src e.dst e.typ = [r] := by
        have := huniq e he
        match hx : edgesBetween parts e.src e.dst e.typ with
        | [] => rw [hx] at hrp; cases hrp
        | [x] => rw [hx] at hrp; rw [List.mem_singleton.1 hrp]
        | x :: y :: l => rw [hx] at this; simp at this
      rw [hr1]
      simpa using h8
  rcases hor with ⟨⟨s0, hs0, hc0⟩, hj⟩ | ⟨hnone, hrow⟩
  · obtain ⟨cells0, h6, h7, h8, -, -, -⟩ := hserve s0 hs0 e he t
    rw [h6, Option.getD_some] at hc0
    have hrow : row = cellRow cells0 := by
      apply List.ext_getElem?
      intro j
      by_cases hjl : j < (feats.map (·.2)).sum
      · obtain ⟨s, hsm, hcs, hrj⟩ := hj j hjl
        have hss : s = s0 := by
          obtain ⟨cells, h9, -, h10, -, -, -⟩ := hserve s hsm e he t
          rw [h9, Option.getD_some] at hcs
          refine Classical.byContradiction fun hne => ?_
          have := two_sources servers (fun s => edgesBetween s.1 e.src e.dst e.typ) hsm hs0 hne (h10 hcs) (h8 hc0)
          rw [hperm.length_eq] at this
          have := huniq e he
          omega
        subst hss
        rw [hrj, h6, Option.getD_some]
      · rw [List.getElem?_eq_none_iff.2 (by omega), List.getElem?_eq_none_iff.2 (by omega)]
    rw [hrow]
    exact hown s0 hs0 (h8 hc0) cells0 h6
  · by_cases hx : edgesBetween parts e.src e.dst e.typ = []
    · dsimp only
      rw [hrow, hx]
      exact row_zeros feats fun _ => Or.inr ⟨rfl, by simp⟩
    · obtain ⟨r, hr⟩ := List.exists_mem_of_ne_nil _ hx
      obtain ⟨s, hsm, hrs⟩ := List.mem_flatMap.1 (hperm.symm.subset hr)
      obtain ⟨cells, h6, -, -, h7, -, -⟩ := hserve s hsm e he t
      have hn := hnone s hsm
      rw [h6, Option.getD_some] at hn
      have := hown s hsm (List.ne_nil_of_mem hrs) cells h6
      rw [h7 hn, ← hrow] at this
      exact this

/-- Partitions of two servers, with a history for one edge of node 1 each. -/
def C65_early : List (List Rec) :=
  [[⟨1, -1, 0, 1, none, none, []⟩, ⟨1, 2, 0, 1, none, none, [some (serializeTemporal [(5, [7]), (9, [8])])]⟩]]
def C65_late : List (List Rec) := [[⟨1, 2, 1, 1, none, none, [some (serializeTemporal [(20, [3])])]⟩]]

/-- The histories of the edges. -/
def C65_hist (_ : Nat) (fl : List (Option Bytes)) : List (Int × Bytes) :=
  if fl = [some (serializeTemporal [(20, [3])])] then [(20, [3])] else [(5, [7]), (9, [8])]

/-- Non-vacuity of `C65_temporal_partial`: an edge before its first value, two edges on different servers and an edge that
does not exist. -/
example : ∃ g1 g2, Built intCodec (some 30) ⟨0, 1, 30⟩ [C65_early] g1 ∧ Built intCodec (some 30) ⟨0, 1, 30⟩ [C65_late] g2 ∧
    (∀ e ∈ [(⟨1, 2, 1⟩ : EdgeId), ⟨1, 2, 0⟩, ⟨1, 2, 1⟩, ⟨1, 3, 0⟩],
      (edgesBetween [C65_early, C65_late] e.src e.dst e.typ).length ≤ 1 ∧
      ∀ r ∈ edgesBetween [C65_early, C65_late] e.src e.dst e.typ, HasHist r.features 0 (C65_hist 0 r.features)) ∧
    [([C65_early], g1), ([C65_late], g2)].mapM (fun s => s.2.getEdgeFeatures [⟨1, 2, 1⟩, ⟨1, 2, 0⟩, ⟨1, 2, 1⟩, ⟨1, 3, 0⟩]
      (some [19, 8, 20, 20]) [(0, 1)]) = some [⟨[1], [5], [7]⟩, ⟨[2], [20], [3]⟩] ∧
    remoteEdgeFeatures 4 1 [9, 9, 9, 9] [.put 2 3, .put 1 7, .mark 1, .mark 2] = some [0, 7, 3, 0] := by
  obtain ⟨g1, hg1, hb1⟩ := built_of_check (wm := some 30) (m := ⟨0, 1, 30⟩) (parts := [C65_early]) (by decide +kernel)
  obtain ⟨g2, hg2, hb2⟩ := built_of_check (wm := some 30) (m := ⟨0, 1, 30⟩) (parts := [C65_late]) (by decide +kernel)
  have h1 : edgesBetween [C65_early, C65_late] 1 2 0 =
      [⟨1, 2, 0, 1, none, none, [some (serializeTemporal [(5, [7]), (9, [8])])]⟩] := by decide +kernel
  have h2 : edgesBetween [C65_early, C65_late] 1 2 1 =
      [⟨1, 2, 1, 1, none, none, [some (serializeTemporal [(20, [3])])]⟩] := by decide +kernel
  have h3 : edgesBetween [C65_early, C65_late] 1 3 0 = [] := by decide +kernel
  have k1 : HasHist [some (serializeTemporal [(5, [7]), (9, [8])])] 0
      (C65_hist 0 [some (serializeTemporal [(5, [7]), (9, [8])])]) := by
    have : C65_hist 0 [some (serializeTemporal [(5, [7]), (9, [8])])] = [(5, [7]), (9, [8])] := by decide +kernel
    rw [this]
    exact Or.inr ⟨rfl, ⟨by decide, by decide, by decide⟩⟩
  have k2 : HasHist [some (serializeTemporal [(20, [3])])] 0 (C65_hist 0 [some (serializeTemporal [(20, [3])])]) := by
    have : C65_hist 0 [some (serializeTemporal [(20, [3])])] = [(20, [3])] := by decide +kernel
    rw [this]
    exact Or.inr ⟨rfl, ⟨by decide, by decide, by decide⟩⟩
  refine ⟨g1, g2, hb1, hb2, ?_, ?_, by decide +kernel⟩
  · intro e he
    simp only [List.mem_cons, List.not_mem_nil, or_false] at he
    rcases he with rfl | rfl | rfl | rfl
    · rw [h2]; exact ⟨by simp, fun r hr => by rw [List.mem_singleton.1 hr]; exact k2⟩
    · rw [h1]; exact ⟨by simp, fun r hr => by rw [List.mem_singleton.1 hr]; exact k1⟩
    · rw [h2]; exact ⟨by simp, fun r hr => by rw [List.mem_singleton.1 hr]; exact k2⟩
    · rw [h3]; exact ⟨by simp, by simp⟩
  · have e1 : (graphOf intCodec (some 30) ⟨0, 1, 30⟩ [C65_early]).bind (fun g => g.getEdgeFeatures
        [⟨1, 2, 1⟩, ⟨1, 2, 0⟩, ⟨1, 2, 1⟩, ⟨1, 3, 0⟩] (some [19, 8, 20, 20]) [(0, 1)]) = some ⟨[1], [5], [7]⟩ := by
      decide +kernel
    have e2 : (graphOf intCodec (some 30) ⟨0, 1, 30⟩ [C65_late]).bind (fun g => g.getEdgeFeatures
        [⟨1, 2, 1⟩, ⟨1, 2, 0⟩, ⟨1, 2, 1⟩, ⟨1, 3, 0⟩] (some [19, 8, 20, 20]) [(0, 1)]) = some ⟨[2], [20], [3]⟩ := by
      decide +kernel
    rw [hg1, Option.bind_some] at e1
    rw [hg2, Option.bind_some] at e2
    rw [List.mapM_cons, List.mapM_cons, e1, e2]
    rfl

/-- A later value of the edge of `C65_early`. -/
def C65_update : List (List Rec) := [[⟨1, 2, 0, 1, none, none, [some (serializeTemporal [(15, [9])])]⟩]]

/-- The claim that the latest value not after the time is returned is false for an edge with records on two servers: the
replies carry the times of their values, but the client does not compare them, and the reply stored last wins. -/
theorem C65_newest_refuted : ∃ g1 g2 r1 r2, Built intCodec (some 30) ⟨0, 1, 30⟩ [C65_early] g1 ∧
    Built intCodec (some 30) ⟨0, 1, 30⟩ [C65_update] g2 ∧
    g1.getEdgeFeatures [⟨1, 2, 0⟩] (some [16]) [(0, 1)] = some r1 ∧
    g2.getEdgeFeatures [⟨1, 2, 0⟩] (some [16]) [(0, 1)] = some r2 ∧ r1.stamps = [9] ∧ r2.stamps = [15] ∧
    Interleaved [edgeSteps 1 r1, edgeSteps 1 r2] (edgeSteps 1 r2 ++ edgeSteps 1 r1) ∧
    remoteEdgeFeatures 1 1 [0] (edgeSteps 1 r2 ++ edgeSteps 1 r1) = some [8] := by
  obtain ⟨g1, hg1, hb1⟩ := built_of_check (wm := some 30) (m := ⟨0, 1, 30⟩) (parts := [C65_early]) (by decide +kernel)
  obtain ⟨g2, hg2, hb2⟩ := built_of_check (wm := some 30) (m := ⟨0, 1, 30⟩) (parts := [C65_update]) (by decide +kernel)
  refine ⟨g1, g2, ⟨[0], [9], [8]⟩, ⟨[0], [15], [9]⟩, hb1, hb2, ?_, ?_, rfl, rfl,
    ⟨[(1, .put 0 9), (1, .mark 0), (0, .put 0 8), (0, .mark 0)], by decide +kernel, fun i => ?_⟩, by decide +kernel⟩
  · have : (graphOf intCodec (some 30) ⟨0, 1, 30⟩ [C65_early]).bind
        (fun g => g.getEdgeFeatures [⟨1, 2, 0⟩] (some [16]) [(0, 1)]) = some ⟨[0], [9], [8]⟩ := by decide +kernel
    rwa [hg1, Option.bind_some] at this
  · have : (graphOf intCodec (some 30) ⟨0, 1, 30⟩ [C65_update]).bind
        (fun g => g.getEdgeFeatures [⟨1, 2, 0⟩] (some [16]) [(0, 1)]) = some ⟨[0], [15], [9]⟩ := by decide +kernel
    rwa [hg2, Option.bind_some] at this
  · match i with
    | 0 => rfl
    | 1 => rfl
    | i + 2 => rfl

/-- Partitions of two servers with one edge of node 1 each. -/
def C65_a : List (List Rec) :=
  [[⟨1, -1, 0, 1, none, none, []⟩, ⟨1, 2, 0, 1, none, none, [some [1, 2], some [3]]⟩, ⟨1, 3, 0, 1, none, none, []⟩]]
def C65_b : List (List Rec) := [[⟨1, 2, 1, 1, none, none, [none, some [8]]⟩]]

/-- Non-vacuity of both theorems: a missing edge, an edge without features and callbacks that run at the same time. -/
example : ∃ g g1 g2, Built intCodec none ⟨0, 2, -1⟩ [C65_a, C65_b] g ∧ Built intCodec none ⟨0, 2, -1⟩ [C65_a] g1 ∧
    Built intCodec none ⟨0, 2, -1⟩ [C65_b] g2 ∧
    (∀ e ∈ [(⟨1, 2, 1⟩ : EdgeId), ⟨7, 2, 0⟩, ⟨1, 3, 0⟩, ⟨1, 2, 0⟩], (edgesBetween [C65_a, C65_b] e.src e.dst e.typ).length ≤ 1) ∧
    [([C65_b], g2), ([C65_a], g1)].mapM (fun s => s.2.getEdgeFeatures [⟨1, 2, 1⟩, ⟨7, 2, 0⟩, ⟨1, 3, 0⟩, ⟨1, 2, 0⟩] none [(0, 1), (1, 1)]) =
      some [⟨[0], [0, 0], [0, 8]⟩, ⟨[3], [0, 0], [1, 3]⟩] ∧
    Interleaved [edgeSteps 2 ⟨[0], [0, 0], [0, 8]⟩, edgeSteps 2 ⟨[3], [0, 0], [1, 3]⟩]
      [.put 6 1, .put 0 0, .put 7 3, .put 1 8, .mark 0, .mark 3] ∧
    remoteEdgeFeatures 4 2 [9, 9, 9, 9, 9, 9, 9, 9] [.put 6 1, .put 0 0, .put 7 3, .put 1 8, .mark 0, .mark 3] =
      some [0, 8, 0, 0, 0, 0, 1, 3] := by
  obtain ⟨g, -, hb⟩ := built_of_check (wm := none) (m := ⟨0, 2, -1⟩) (parts := [C65_a, C65_b]) (by decide +kernel)
  obtain ⟨g1, hg1, hb1⟩ := built_of_check (wm := none) (m := ⟨0, 2, -1⟩) (parts := [C65_a]) (by decide +kernel)
  obtain ⟨g2, hg2, hb2⟩ := built_of_check (wm := none) (m := ⟨0, 2, -1⟩) (parts := [C65_b]) (by decide +kernel)
  refine ⟨g, g1, g2, hb, hb1, hb2, by decide +kernel, ?_, ?_, by decide +kernel⟩
  · have e1 : (graphOf intCodec none ⟨0, 2, -1⟩ [C65_a]).bind (fun g =>
        g.getEdgeFeatures [⟨1, 2, 1⟩, ⟨7, 2, 0⟩, ⟨1, 3, 0⟩, ⟨1, 2, 0⟩] none [(0, 1), (1, 1)]) = some ⟨[3], [0, 0], [1, 3]⟩ := by
      decide +kernel
    have e2 : (graphOf intCodec none ⟨0, 2, -1⟩ [C65_b]).bind (fun g =>
        g.getEdgeFeatures [⟨1, 2, 1⟩, ⟨7, 2, 0⟩, ⟨1, 3, 0⟩, ⟨1, 2, 0⟩] none [(0, 1), (1, 1)]) = some ⟨[0], [0, 0], [0, 8]⟩ := by
      decide +kernel
    rw [hg1, Option.bind_some] at e1
    rw [hg2, Option.bind_some] at e2
    rw [List.mapM_cons, List.mapM_cons, e1, e2]
    rfl
  · refine ⟨[(1, .put 6 1), (0, .put 0 0), (1, .put 7 3), (0, .put 1 8), (0, .mark 0), (1, .mark 3)], rfl, fun i => ?_⟩
    match i with
    | 0 => rfl
    | 1 => rfl
    | i + 2 => rfl

/-- The claim that a feature of an edge is a value given for that edge is false when two servers hold records of the
edge: the callbacks copy without a lock, so that bytes of both values are mixed. -/
theorem C65_torn_refuted : ∃ p1 p2 g1 g2 r1 r2, Built intCodec none ⟨0, 1, -1⟩ p1 g1 ∧ Built intCodec none ⟨0, 1, -1⟩ p2 g2 ∧
    g1.getEdgeFeatures [⟨1, 2, 0⟩] none [(0, 2)] = some r1 ∧ g2.getEdgeFeatures [⟨1, 2, 0⟩] none [(0, 2)] = some r2 ∧
    g1.edgeFeature [⟨1, 2, 0⟩] none [(0, 2)] = some [1, 1] ∧ g2.edgeFeature [⟨1, 2, 0⟩] none [(0, 2)] = some [2, 2] ∧
    ∃ steps, Interleaved [edgeSteps 2 r1, edgeSteps 2 r2] steps ∧ remoteEdgeFeatures 1 2 [0, 0] steps = some [2, 1] := by
  obtain ⟨g1, hg1, hb1⟩ := built_of_check (wm := none) (m := ⟨0, 1, -1⟩)
    (parts := [[[⟨1, 2, 0, 1, none, none, [some [1, 1]]⟩]]]) (by decide +kernel)
  obtain ⟨g2, hg2, hb2⟩ := built_of_check (wm := none) (m := ⟨0, 1, -1⟩)
    (parts := [[[⟨1, 2, 0, 1, none, none, [some [2, 2]]⟩]]]) (by decide +kernel)
  refine ⟨_, _, g1, g2, ⟨[0], [0], [1, 1]⟩, ⟨[0], [0], [2, 2]⟩, hb1, hb2, ?_, ?_, ?_, ?_,
    [.put 0 1, .put 0 2, .put 1 2, .put 1 1, .mark 0, .mark 0],
    ⟨[(0, .put 0 1), (1, .put 0 2), (1, .put 1 2), (0, .put 1 1), (0, .mark 0), (1, .mark 0)], rfl, fun i => ?_⟩,
    by decide +kernel⟩
  · have : (graphOf intCodec none ⟨0, 1, -1⟩ [[[⟨1, 2, 0, 1, none, none, [some [1, 1]]⟩]]]).bind
        (fun g => g.getEdgeFeatures [⟨1, 2, 0⟩] none [(0, 2)]) = some ⟨[0], [0], [1, 1]⟩ := by decide +kernel
    rwa [hg1, Option.bind_some] at this
  · have : (graphOf intCodec none ⟨0, 1, -1⟩ [[[⟨1, 2, 0, 1, none, none, [some [2, 2]]⟩]]]).bind
        (fun g => g.getEdgeFeatures [⟨1, 2, 0⟩] none [(0, 2)]) = some ⟨[0], [0], [2, 2]⟩ := by decide +kernel
    rwa [hg2, Option.bind_some] at this
  · have : (graphOf intCodec none ⟨0, 1, -1⟩ [[[⟨1, 2, 0, 1, none, none, [some [1, 1]]⟩]]]).bind
        (fun g => g.edgeFeature [⟨1, 2, 0⟩] none [(0, 2)]) = some [1, 1] := by decide +kernel
    rwa [hg1, Option.bind_some] at this
  · have : (graphOf intCodec none ⟨0, 1, -1⟩ [[[⟨1, 2, 0, 1, none, none, [some [2, 2]]⟩]]]).bind
        (fun g => g.edgeFeature [⟨1, 2, 0⟩] none [(0, 2)]) = some [2, 2] := by decide +kernel
    rwa [hg2, Option.bind_some] at this
  · match i with
    | 0 => rfl
    | 1 => rfl
    | i + 2 => rfl

/-- Two partitions with records of the same edge: the first one with feature 0, the second one with feature 1. -/
def C65_first : List (List Rec) := [[⟨1, 2, 0, 1, none, none, [some [1]]⟩]]
def C65_second : List (List Rec) := [[⟨1, 2, 0, 1, none, none, [none, some [2]]⟩]]

/-- The claim that the features of an edge do not depend on whether its partitions are on one server or on two is false
even if the callbacks run one after the other: the reply of the second server overwrites feature 0, which the graph with
both partitions returns, by zeros. -/
theorem C65_split_refuted : ∃ g g1 g2 r1 r2, Built intCodec none ⟨0, 2, -1⟩ [C65_first, C65_second] g ∧
    Built intCodec none ⟨0, 2, -1⟩ [C65_first] g1 ∧ Built intCodec none ⟨0, 2, -1⟩ [C65_second] g2 ∧
    g1.getEdgeFeatures [⟨1, 2, 0⟩] none [(0, 1), (1, 1)] = some r1 ∧
    g2.getEdgeFeatures [⟨1, 2, 0⟩] none [(0, 1), (1, 1)] = some r2 ∧
    g.edgeFeature [⟨1, 2, 0⟩] none [(0, 1), (1, 1)] = some [1, 2] ∧
    Interleaved [edgeSteps 2 r1, edgeSteps 2 r2] (edgeSteps 2 r1 ++ edgeSteps 2 r2) ∧
    remoteEdgeFeatures 1 2 [0, 0] (edgeSteps 2 r1 ++ edgeSteps 2 r2) = some [0, 2] := by
  obtain ⟨g, hg, hb⟩ := built_of_check (wm := none) (m := ⟨0, 2, -1⟩) (parts := [C65_first, C65_second]) (by decide +kernel)
  obtain ⟨g1, hg1, hb1⟩ := built_of_check (wm := none) (m := ⟨0, 2, -1⟩) (parts := [C65_first]) (by decide +kernel)
  obtain ⟨g2, hg2, hb2⟩ := built_of_check (wm := none) (m := ⟨0, 2, -1⟩) (parts := [C65_second]) (by decide +kernel)
  refine ⟨g, g1, g2, ⟨[0], [0, -1], [1, 0]⟩, ⟨[0], [0, 0], [0, 2]⟩, hb, hb1, hb2, ?_, ?_, ?_,
    ⟨[(0, .put 0 1), (0, .put 1 0), (0, .mark 0), (1, .put 0 0), (1, .put 1 2), (1, .mark 0)], by decide +kernel,
      fun i => ?_⟩, by decide +kernel⟩
  · have : (graphOf intCodec none ⟨0, 2, -1⟩ [C65_first]).bind
        (fun g => g.getEdgeFeatures [⟨1, 2, 0⟩] none [(0, 1), (1, 1)]) = some ⟨[0], [0, -1], [1, 0]⟩ := by decide +kernel
    rwa [hg1, Option.bind_some] at this
  · have : (graphOf intCodec none ⟨0, 2, -1⟩ [C65_second]).bind
        (fun g => g.getEdgeFeatures [⟨1, 2, 0⟩] none [(0, 1), (1, 1)]) = some ⟨[0], [0, 0], [0, 2]⟩ := by decide +kernel
    rwa [hg2, Option.bind_some] at this
  · have : (graphOf intCodec none ⟨0, 2, -1⟩ [C65_first, C65_second]).bind
        (fun g => g.edgeFeature [⟨1, 2, 0⟩] none [(0, 1), (1, 1)]) = some [1, 2] := by decide +kernel
    rwa [hg, Option.bind_some] at this
  · match i with
    | 0 => rfl
    | 1 => rfl
    | i + 2 => rfl

/-- The claim that a remote query answers like a local one is false for a query without edges: the client divides the
size of the output by the number of edges. -/
theorem C65_empty_refuted : ∃ p g r, Built intCodec none ⟨0, 2, -1⟩ p g ∧ g.getEdgeFeatures [] none [(0, 1)] = some r ∧
    g.edgeFeature [] none [(0, 1)] = some [] ∧ Interleaved [edgeSteps 1 r] (edgeSteps 1 r) ∧
    remoteEdgeFeatures 0 1 [] (edgeSteps 1 r) = none := by
  obtain ⟨g, -, hb⟩ := built_of_check (wm := none) (m := ⟨0, 2, -1⟩) (parts := [C65_first]) (by decide +kernel)
  refine ⟨_, g, ⟨[], [], []⟩, hb, rfl, rfl, ⟨[], rfl, fun i => ?_⟩, rfl⟩
  match i with
  | 0 => rfl
  | i + 1 => rfl

end DeepGNN
