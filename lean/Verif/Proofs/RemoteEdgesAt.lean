import Verif.Proofs.RemoteEdges
import Verif.Proofs.TemporalFeature

/-
Edge features of servers at given times.
-/

namespace DeepGNN

open Spec

/-- The server has one of the features. -/
def HasCell (cells : List (Int × Bytes)) : Prop := ∃ c ∈ cells, c.1 ≥ 0

/-- The values of all features. -/
def cellRow (cells : List (Int × Bytes)) : Bytes := cells.flatMap (·.2)

/-- The writes of the callback for the reply of one server. -/
theorem serveEdges_cells (g : Graph) (feats : List (Nat × Nat)) (fv : Nat)
    (cells : EdgeId × Option Int → List (Int × Bytes)) (reqs : List (EdgeId × Option Int)) (i : Nat)
    (hc : ∀ x ∈ reqs, g.serveEdge feats x.1 x.2 = some (cells x))
    (hno : ∀ x ∈ reqs, g.nodeMap x.1.src = none → ¬ HasCell (cells x))
    (hl : ∀ x ∈ reqs, (cellRow (cells x)).length = fv) :
    ∃ r, g.serveEdges feats i reqs = some r ∧
      (∀ p v, Step.put p v ∈ edgeSteps fv r ↔ ∃ k x j, p = fv * (i + k) + j ∧
        reqs[k]? = some x ∧ HasCell (cells x) ∧ (cellRow (cells x))[j]? = some v) ∧
      (∀ p, Step.mark p ∈ edgeSteps fv r ↔ ∃ k x, p = i + k ∧ reqs[k]? = some x ∧ HasCell (cells x)) := by
  induction reqs generalizing i with
  | nil => exact ⟨⟨[], [], []⟩, rfl, by simp [edgeSteps], by simp [edgeSteps]⟩
  | cons x xs ih =>
    obtain ⟨r, h1, h2, h3⟩ := ih (i + 1) (fun y hy => hc y (by simp [hy])) (fun y hy => hno y (by simp [hy]))
      (fun y hy => hl y (by simp [hy]))
    have hput : ∀ p v, (∃ k y j, p = fv * (i + k) + j ∧ (x :: xs)[k]? = some y ∧ HasCell (cells y) ∧
        (cellRow (cells y))[j]? = some v) ↔
        (HasCell (cells x) ∧ ∃ j, p = fv * i + j ∧ (cellRow (cells x))[j]? = some v) ∨
        ∃ k y j, p = fv * (i + 1 + k) + j ∧ xs[k]? = some y ∧ HasCell (cells y) ∧
          (cellRow (cells y))[j]? = some v := by
      intro p v
      constructor
      · rintro ⟨k, y, j, rfl, hk, h4, h5⟩
        cases k with
        | zero =>
          rw [List.getElem?_cons_zero, Option.some.injEq] at hk
          subst hk
          exact Or.inl ⟨h4, j, rfl, h5⟩
        | succ k => exact Or.inr ⟨k, y, j, by rw [show i + (k + 1) = i + 1 + k by omega], by simpa using hk, h4, h5⟩
      · rintro (⟨h4, j, rfl, h5⟩ | ⟨k, y, j, rfl, hk, h4, h5⟩)
        · exact ⟨0, x, j, rfl, rfl, h4, h5⟩
        · exact ⟨k + 1, y, j, by rw [show i + (k + 1) = i + 1 + k by omega], by simpa using hk, h4, h5⟩
    have hmark : ∀ p, (∃ k y, p = i + k ∧ (x :: xs)[k]? = some y ∧ HasCell (cells y)) ↔
        (HasCell (cells x) ∧ p = i) ∨ ∃ k y, p = i + 1 + k ∧ xs[k]? = some y ∧ HasCell (cells y) := by
      intro p
      constructor
      · rintro ⟨k, y, rfl, hk, h4⟩
        cases k with
        | zero =>
          rw [List.getElem?_cons_zero, Option.some.injEq] at hk
          subst hk
          exact Or.inl ⟨h4, rfl⟩
        | succ k => exact Or.inr ⟨k, y, by omega, by simpa using hk, h4⟩
      · rintro (⟨h4, rfl⟩ | ⟨k, y, rfl, hk, h4⟩)
        · exact ⟨0, x, rfl, rfl, h4⟩
        · exact ⟨k + 1, y, by omega, by simpa using hk, h4⟩
    have hskip : ¬ HasCell (cells x) → ∃ r', some r = some r' ∧
        (∀ p v, Step.put p v ∈ edgeSteps fv r' ↔ ∃ k y j, p = fv * (i + k) + j ∧ (x :: xs)[k]? = some y ∧
          HasCell (cells y) ∧ (cellRow (cells y))[j]? = some v) ∧
        (∀ p, Step.mark p ∈ edgeSteps fv r' ↔ ∃ k y, p = i + k ∧ (x :: xs)[k]? = some y ∧ HasCell (cells y)) := by
      intro hn
      refine ⟨r, rfl, fun p v => ?_, fun p => ?_⟩
      · rw [hput, h2]
        simp [hn]
      · rw [hmark, h3]
        simp [hn]
    obtain ⟨e, t⟩ := x
    simp only [Graph.serveEdges]
    cases hm : g.nodeMap e.src with
    | none =>
      simp only [h1]
      exact hskip (hno (e, t) (by simp) hm)
    | some o =>
      simp only [hc (e, t) (by simp), Option.bind_some, h1, Option.map_some]
      by_cases hany : (cells (e, t)).any (fun s => decide (s.1 ≥ 0)) = true
      · rw [if_pos hany]
        have hhas : HasCell (cells (e, t)) := by
          rw [List.any_eq_true] at hany
          obtain ⟨f, hf, h4⟩ := hany
          exact ⟨f, hf, by simpa using h4⟩
        have hlen := hl (e, t) (by simp)
        refine ⟨_, rfl, fun p v => ?_, fun p => ?_⟩
        · rw [← cellRow, edgeSteps_cons fv i r.offsets _ r.stamps _ r.values hlen, List.mem_append, put_mem_row, h2, hput]
          simp [hhas]
        · rw [← cellRow, edgeSteps_cons fv i r.offsets _ r.stamps _ r.values hlen, List.mem_append, mark_mem_row, h3, hmark]
          simp [hhas]
      · rw [if_neg hany]
        apply hskip
        rintro ⟨f, hf, h4⟩
        apply hany
        rw [List.any_eq_true]
        exact ⟨f, hf, by simpa using h4⟩

/-- The rows the client returns, for any interleaving of the callbacks. -/
theorem remoteEdges_cells {σ : Type} (servers : List σ) (graph : σ → Graph) (feats : List (Nat × Nat)) (fv : Nat)
    (cells : σ → EdgeId × Option Int → List (Int × Bytes)) (reqs : List (EdgeId × Option Int)) (hne : reqs ≠ [])
    (buffer : Bytes) (hb : buffer.length = fv * reqs.length)
    (hc : ∀ s ∈ servers, ∀ x ∈ reqs, (graph s).serveEdge feats x.1 x.2 = some (cells s x))
    (hno : ∀ s ∈ servers, ∀ x ∈ reqs, (graph s).nodeMap x.1.src = none → ¬ HasCell (cells s x))
    (hl : ∀ s ∈ servers, ∀ x ∈ reqs, (cellRow (cells s x)).length = fv) :
    ∃ replies, servers.mapM (fun s => (graph s).serveEdges feats 0 reqs) = some replies ∧
      ∀ steps, Interleaved (replies.map (edgeSteps fv)) steps → ∃ rows : List Bytes,
        remoteEdgeFeatures reqs.length fv buffer steps = some rows.flatten ∧ rows.length = reqs.length ∧
        ∀ (k : Nat) x row, reqs[k]? = some x → rows[k]? = some row → row.length = fv ∧
          (((∃ s ∈ servers, HasCell (cells s x)) ∧
            ∀ j < fv, ∃ s ∈ servers, HasCell (cells s x) ∧ row[j]? = (cellRow (cells s x))[j]?) ∨
           ((∀ s ∈ servers, ¬ HasCell (cells s x)) ∧ row = List.replicate fv 0)) := by
  have main : ∃ replies, servers.mapM (fun s => (graph s).serveEdges feats 0 reqs) = some replies ∧
      (∀ p v, (∃ l ∈ replies.map (edgeSteps fv), Step.put p v ∈ l) ↔ ∃ s ∈ servers, ∃ k x j, p = fv * k + j ∧
        reqs[k]? = some x ∧ HasCell (cells s x) ∧ (cellRow (cells s x))[j]? = some v) ∧
      (∀ p, (∃ l ∈ replies.map (edgeSteps fv), Step.mark p ∈ l) ↔ ∃ s ∈ servers, ∃ x, reqs[p]? = some x ∧
        HasCell (cells s x)) := by
    clear hb
    induction servers with
    | nil => exact ⟨[], rfl, by simp, by simp⟩
    | cons s ss ih =>
      obtain ⟨replies, h1, h2, h3⟩ := ih (fun s hs => hc s (by simp [hs])) (fun s hs => hno s (by simp [hs]))
        (fun s hs => hl s (by simp [hs]))
      obtain ⟨r, h4, h5, h6⟩ := serveEdges_cells (graph s) feats fv (cells s) reqs 0 (hc s (by simp)) (hno s (by simp))
        (hl s (by simp))
      refine ⟨r :: replies, ?_, ?_, ?_⟩
      · rw [List.mapM_cons, h4, h1]
        rfl
      · intro p v
        simp only [List.map_cons, List.mem_cons, exists_eq_or_imp, h2, h5, Nat.zero_add]
      · intro p
        simp only [List.map_cons, List.mem_cons, exists_eq_or_imp, h3, h6, Nat.zero_add]
        simp
  obtain ⟨replies, h1, h2, h3⟩ := main
  refine ⟨replies, h1, fun steps hst => ?_⟩
  have hpos : 0 < reqs.length := List.length_pos_iff.2 hne
  rw [remoteEdgeFeatures, if_neg (by omega)]
  refine ⟨(List.range reqs.length).map fun i =>
    if (runSteps (buffer, List.replicate reqs.length false) steps).2.getD i false then
      ((runSteps (buffer, List.replicate reqs.length false) steps).1.drop (fv * i)).take fv else List.replicate fv 0,
    by rw [List.flatMap_def], by simp, ?_⟩
  intro k x row hk hrow
  have hkl : k < reqs.length := (List.getElem?_eq_some_iff.1 hk).1
  rw [List.getElem?_map, List.getElem?_range hkl, Option.map_some, Option.some.injEq] at hrow
  obtain ⟨b, hb1, hb2⟩ := runSteps_flag steps buffer reqs.length k hkl
  rw [interleaved_mem hst, h3] at hb2
  rw [List.getD_eq_getElem?_getD, hb1, Option.getD_some] at hrow
  have hlen := (runSteps_length steps (buffer, List.replicate reqs.length false)).1
  simp only [] at hlen
  have hspace : fv * k + fv ≤ fv * reqs.length := by
    rw [← Nat.mul_succ]
    exact Nat.mul_le_mul_left _ hkl
  have hrl : row.length = fv := by
    rw [← hrow]
    split
    · rw [List.length_take, List.length_drop, hlen, hb]
      omega
    · simp
  refine ⟨hrl, ?_⟩
  have hxm : x ∈ reqs := List.mem_of_getElem? hk
  cases b with
  | false =>
    right
    rw [if_neg (by simp)] at hrow
    refine ⟨fun s hsm hh => ?_, hrow.symm⟩
    have := hb2.2 ⟨s, hsm, x, hk, hh⟩
    cases this
  | true =>
    left
    rw [if_pos rfl] at hrow
    obtain ⟨s0, hs0, x', hx', hh0⟩ := hb2.1 rfl
    rw [hk, Option.some.injEq] at hx'
    subst hx'
    refine ⟨⟨s0, hs0, hh0⟩, ?_⟩
    intro j hj
    have hrj : row[j]? = (runSteps (buffer, List.replicate reqs.length false) steps).1[fv * k + j]? := by
      rw [← hrow, List.getElem?_take_of_lt hj, List.getElem?_drop]
    rcases runSteps_out steps (buffer, List.replicate reqs.length false) (fv * k + j) (by simp only []; omega) with
      ⟨v, hv, ho⟩ | ⟨hn, -⟩
    · rw [interleaved_mem hst, h2] at hv
      obtain ⟨s, hsm, k', x', j', hp, hx', hh, ho2⟩ := hv
      have hj' : j' < fv := by
        rw [← hl s hsm x' (List.mem_of_getElem? hx')]
        exact (List.getElem?_eq_some_iff.1 ho2).1
      have hkk : k' = k := by
        rcases Nat.lt_trichotomy k' k with hlt | heq | hgt
        · have := Nat.mul_le_mul_left fv (Nat.succ_le_of_lt hlt)
          rw [Nat.mul_succ] at this
          omega
        · exact heq
        · have := Nat.mul_le_mul_left fv (Nat.succ_le_of_lt hgt)
          rw [Nat.mul_succ] at this
          omega
      subst hkk
      have hjj : j' = j := by omega
      subst hjj
      rw [hk, Option.some.injEq] at hx'
      subst hx'
      exact ⟨s, hsm, hh, by rw [hrj, ho, ho2]⟩
    · exfalso
      have hol := hl s0 hs0 x hxm
      exact hn ((cellRow (cells s0 x))[j]'(by omega)) ((interleaved_mem hst _).2 ((h2 _ _).2 ⟨s0, hs0, k, x, j, rfl, hk,
        hh0, List.getElem?_eq_getElem (by omega)⟩))

/-- A step that leaves the flag negative leaves zeros. -/
theorem edgeFeatureStep_at_zero {index data lo hi fl} (h : Owner index data lo hi fl) (f : Nat × Nat) (t : Int)
    {K : List (Int × Bytes)} (hK : HasHist fl f.1 K) (s s' : Int × Bytes)
    (hs : s.1 < 0 → s.2 = List.replicate f.2 0) (hstep : edgeFeatureStep index data lo hi (some t) f s = some s') :
    s'.1 < 0 → s'.2 = List.replicate f.2 0 := by
  simp only [edgeFeatureStep, settled, decide_eq_true_eq] at hstep
  by_cases hset : s.1 = t
  · rw [if_pos hset] at hstep
    cases hstep; exact hs
  · rw [if_neg hset] at hstep
    rcases hK with ⟨h1, rfl⟩ | ⟨h1, hok⟩
    · rw [h.range_none h1] at hstep
      cases hstep
      intro _; rfl
    · obtain ⟨pre, post, h2, h3⟩ := h.range_some h1
      simp only [featBytes] at h2 h3
      simp only [h3, Option.bind_some, featValue, h2] at hstep
      rcases deserialize_serialize hok pre post t with ⟨h4, h5⟩ | ⟨x, off, h4, h5, pre', post', h6, h7⟩
      · rw [h4] at hstep
        have h6 : pre ++ serializeTemporal K ++ post = pre ++ [] ++ (serializeTemporal K ++ post) := by simp
        simp only [Option.bind_some] at hstep
        rw [h6] at hstep
        have := copyFeature_eq pre [] (serializeTemporal K ++ post) f.2
        simp only [List.length_nil] at this
        rw [this] at hstep
        cases hstep
        intro _
        simp [fit]
      · rw [h5] at hstep
        simp only [Option.bind_some] at hstep
        rw [h6, ← h7, copyFeature_eq] at hstep
        cases hstep
        intro hneg
        have := (hok.times x h4.1).1
        simp only at hneg
        omega

variable {C : WeightCodec} {wm : Option Nat} {m : Meta} {parts : List (List (List Rec))} {g : Graph} {items : List Item}

/-- What a server knows about an edge at time `t`. -/
theorem GraphOk.serveEdgeAt (h : GraphOk C m g items parts)
    (hc : ∀ it ∈ items, it.files.edgeFeatureCount ≤ m.edgeFeatureCount)
    (feats : List (Nat × Nat)) (e : EdgeId) (t : Int) (H : Nat → List (Option Bytes) → List (Int × Bytes))
    (hH : ∀ f ∈ feats, ∀ r ∈ edgesBetween parts e.src e.dst e.typ, HasHist r.features f.1 (H f.1 r.features)) :
    ∃ cells, g.serveEdge feats e (some t) = some cells ∧ feats.length = cells.length ∧
      ∀ x ∈ feats.zip cells, EdgeState (H x.1.1) e.dst e.typ t x.1.2 (nodeBlks items e.src) x.2 ∧
        (x.2.1 < 0 → x.2.2 = List.replicate x.1.2 0) := by
  have hpick : ∀ b ∈ nodeBlks items e.src, ∀ x, pickEdge b.edges e.dst e.typ = some x →
      ∃ r ∈ edgesBetween parts e.src e.dst e.typ, r.features = x.feats := by
    intro b hb x hx
    obtain ⟨h1, h2, h3⟩ := pickEdge_some hx
    have := h.edge_record hb h1
    rw [h2, h3] at this
    exact this
  obtain ⟨es, h1, h2⟩ := h.foldEntries_inv (σ := List (Int × Bytes)) e.src
    (fun (ss : List (Int × Bytes)) (x : Partition × Nat) => x.1.edgeFeature x.2 e.dst e.typ (some t) feats ss)
    (fun (bs : List Blk) (ss : List (Int × Bytes)) => feats.length = ss.length ∧ ∀ x ∈ feats.zip ss,
      EdgeState (H x.1.1) e.dst e.typ t x.1.2 bs x.2 ∧ (x.2.1 < 0 → x.2.2 = List.replicate x.1.2 0)) (by
      intro it hit x hx hid bs ss ⟨hl, hss⟩
      have hb : x.1 ∈ nodeBlks items e.src := by
        rw [List.mem_zipIdx_iff_getElem?] at hx
        exact List.mem_flatMap.2 ⟨it, hit, List.mem_filter.2 ⟨List.mem_of_getElem? hx, by simpa using hid⟩⟩
      have hhist : ∀ y, pickEdge x.1.edges e.dst e.typ = some y → ∀ f ∈ feats, HasHist y.feats f.1 (H f.1 y.feats) := by
        intro y hy f hf
        obtain ⟨r, hr, hrf⟩ := hpick x.1 hb y hy
        rw [← hrf]; exact hH f hf r hr
      simp only [Partition.edgeFeature, Partition.withEdge]
      rcases h.edgeBlocks hc hit hx e.dst e.typ with ⟨e1, e2⟩ | ⟨y, o, e1, e2, ⟨hm, e3, e4⟩ | ⟨e3, lo, hi, e4, e5, ho⟩⟩
      · rw [e2]
        exact ⟨ss, rfl, hl, fun z hz => ⟨(hss z hz).1.none e1, (hss z hz).2⟩⟩
      · rw [e2]
        refine ⟨ss, by simp [e4], hl, fun z hz => ⟨?_, (hss z hz).2⟩⟩
        have hf := (List.of_mem_zip hz).1
        have hK := hhist y e1 z.1 hf
        have hnil : H z.1.1 y.feats = [] := by
          rcases hK with ⟨-, hK⟩ | ⟨hK, -⟩
          · exact hK
          · rw [e3] at hK; simp at hK
        rcases (hss z hz).1 with ⟨a, b⟩ | ⟨b', hb', a⟩
        · right
          exact ⟨x.1, by simp, y, e1, [], by simp [b, Spec.fit], by rw [hnil]; exact latest_nil⟩
        · right
          exact ⟨b', by simp [hb'], a⟩
      · rw [e2]
        simp only [Option.bind_some]
        rw [if_neg, e4, e5]
        · simp only [Option.bind_some]
          refine stepAll_inv (I := fun f s => EdgeState (H f.1) e.dst e.typ t f.2 bs s ∧
              (s.1 < 0 → s.2 = List.replicate f.2 0))
            (J := fun f s => EdgeState (H f.1) e.dst e.typ t f.2 (bs ++ [x.1]) s ∧
              (s.1 < 0 → s.2 = List.replicate f.2 0)) hl hss ?_
          intro f hf s hs
          have hK := hhist y e1 f hf
          obtain ⟨s', h3, h4⟩ := edgeFeatureStep_at ho f t hK s
          exact ⟨s', h3, hs.1.some e1 (hist_nonneg hK) h4, edgeFeatureStep_at_zero ho f t hK s s' hs.2 h3⟩
        · simp only [e3, or_false]
          intro hh; rw [hh] at e4; simp at e4)
  have hinit : feats.length = (feats.map fun f => ((-1 : Int), List.replicate f.2 (0 : UInt8))).length ∧
      ∀ x ∈ feats.zip (feats.map fun f => ((-1 : Int), List.replicate f.2 (0 : UInt8))),
        EdgeState (H x.1.1) e.dst e.typ t x.1.2 [] x.2 ∧ (x.2.1 < 0 → x.2.2 = List.replicate x.1.2 0) := by
    refine ⟨by simp, ?_⟩
    intro x hx
    rw [List.zip_map_right, List.mem_map] at hx
    obtain ⟨⟨a, b⟩, hab, rfl⟩ := hx
    have : a = b := by
      rw [List.mem_iff_getElem] at hab
      obtain ⟨i, hi, h3⟩ := hab
      simp only [List.getElem_zip, Prod.mk.injEq] at h3
      rw [← h3.1, ← h3.2]
    subst this
    exact ⟨Or.inl ⟨by simp, rfl⟩, fun _ => rfl⟩
  obtain ⟨ss, h3, h4, h5⟩ := h2 [] _ hinit
  refine ⟨ss, ?_, h4, by simpa using h5⟩
  rw [Graph.serveEdge, h1, Option.bind_some, slices_zero, List.map_map, List.map_map]
  exact h3

/-- Values and flags of an edge. -/
theorem GraphOk.cellsAt (h : GraphOk C m g items parts)
    (hc : ∀ it ∈ items, it.files.edgeFeatureCount ≤ m.edgeFeatureCount)
    (feats : List (Nat × Nat)) (e : EdgeId) (t : Int) (H : Nat → List (Option Bytes) → List (Int × Bytes))
    (hH : ∀ f ∈ feats, ∀ r ∈ edgesBetween parts e.src e.dst e.typ, HasHist r.features f.1 (H f.1 r.features)) :
    ∃ cells, g.serveEdge feats e (some t) = some cells ∧ (cellRow cells).length = (feats.map (·.2)).sum ∧
      (HasCell cells → edgesBetween parts e.src e.dst e.typ ≠ []) ∧
      (¬ HasCell cells → cellRow cells = List.replicate (feats.map (·.2)).sum 0) ∧
      (g.nodeMap e.src = none → ¬ HasCell cells) ∧
      Row feats (fun fid v => (edgesBetween parts e.src e.dst e.typ = [] ∧ v = []) ∨
        ∃ r ∈ edgesBetween parts e.src e.dst e.typ, LatestValue (H fid r.features) t v) (cellRow cells) := by
  obtain ⟨cells, h1, h2, h3⟩ := h.serveEdgeAt hc feats e t H hH
  obtain ⟨row, h4, h5⟩ := h.edgeFeatureAt1 hc feats e t H hH
  have hrec : ∀ b ∈ nodeBlks items e.src, ∀ x, pickEdge b.edges e.dst e.typ = some x →
      edgesBetween parts e.src e.dst e.typ ≠ [] := by
    intro b hb x hx
    obtain ⟨h1, h2, h3⟩ := pickEdge_some hx
    obtain ⟨r, hr, -⟩ := h.edge_record hb h1
    rw [h2, h3] at hr
    exact List.ne_nil_of_mem hr
  have hzip : ∀ c ∈ cells, ∃ f, (f, c) ∈ feats.zip cells := by
    intro c hcm
    obtain ⟨i, hi, rfl⟩ := List.mem_iff_getElem.1 hcm
    exact ⟨feats[i]'(by omega), List.mem_iff_getElem.2 ⟨i, by simp; omega, by simp⟩⟩
  have hsize : ∀ (fs : List (Nat × Nat)) (cs : List (Int × Bytes)), fs.length = cs.length →
      (∀ x ∈ fs.zip cs, x.2.2.length = x.1.2) → (cellRow cs).length = (fs.map (·.2)).sum := by
    intro fs
    induction fs with
    | nil => intro cs hl _; cases cs with
      | nil => rfl
      | cons c cs => simp at hl
    | cons f fs ih =>
      intro cs hl hx
      cases cs with
      | nil => simp at hl
      | cons c cs =>
        simp only [List.zip_cons_cons, List.mem_cons, forall_eq_or_imp] at hx
        have := ih cs (by simpa using hl) hx.2
        simp only [cellRow, List.flatMap_cons, List.length_append, List.map_cons, List.sum_cons] at this ⊢
        rw [this, hx.1]
  have hzero : ∀ (fs : List (Nat × Nat)) (cs : List (Int × Bytes)), fs.length = cs.length →
      (∀ x ∈ fs.zip cs, x.2.2 = List.replicate x.1.2 0) → cellRow cs = List.replicate (fs.map (·.2)).sum 0 := by
    intro fs
    induction fs with
    | nil => intro cs hl _; cases cs with
      | nil => rfl
      | cons c cs => simp at hl
    | cons f fs ih =>
      intro cs hl hx
      cases cs with
      | nil => simp at hl
      | cons c cs =>
        simp only [List.zip_cons_cons, List.mem_cons, forall_eq_or_imp] at hx
        have := ih cs (by simpa using hl) hx.2
        simp only [cellRow, List.flatMap_cons, List.map_cons, List.sum_cons] at this ⊢
        rw [this, hx.1, List.replicate_append_replicate]
  have hno : ¬ HasCell cells → cellRow cells = List.replicate (feats.map (·.2)).sum 0 := by
    intro hn
    refine hzero feats cells h2 (fun x hx => (h3 x hx).2 ?_)
    have : ¬ x.2.1 ≥ 0 := fun hh => hn ⟨x.2, (List.of_mem_zip hx).2, hh⟩
    omega
  have hnone : g.nodeMap e.src = none → ¬ HasCell cells := by
    rintro hm ⟨c, hcm, hge⟩
    obtain ⟨f, hf⟩ := hzip c hcm
    have hn := ((entries_items h.parts_eq h.inv e.src).2).1 hm
    have hnil : nodeBlks items e.src = [] := by
      simp only [nodeBlks, List.flatMap_eq_nil_iff, List.filter_eq_nil_iff]
      intro it hit b hb
      simpa using hn it hit b hb
    rcases (h3 _ hf).1 with ⟨-, a⟩ | ⟨b, hb, -⟩
    · have a : c = (-1, List.replicate f.2 0) := a
      rw [a] at hge
      simp at hge
    · rw [hnil] at hb
      cases hb
  refine ⟨cells, h1, hsize feats cells h2 (fun x hx => ?_), ?_, hno, hnone, ?_⟩
  · rcases (h3 x hx).1 with ⟨-, a⟩ | ⟨b, hb, y, hy, v, hv, -⟩
    · rw [a]; simp
    · rw [hv]; simp [fit]; omega
  · rintro ⟨c, hcm, hge⟩
    obtain ⟨f, hf⟩ := hzip c hcm
    rcases (h3 _ hf).1 with ⟨-, a⟩ | ⟨b, hb, y, hy, -⟩
    · have a : c = (-1, List.replicate f.2 0) := a
      rw [a] at hge
      simp at hge
    · exact hrec b hb y hy
  · have : row = cellRow cells := by
      rw [Graph.edgeFeature1] at h4
      cases hm : g.nodeMap e.src with
      | none =>
        rw [hm] at h4
        simp only [List.length_replicate, Option.some.injEq] at h4
        rw [hno (hnone hm), h4]
      | some i =>
        rw [hm] at h4
        rw [Graph.serveEdge] at h1
        cases he : g.entries e.src with
        | none => rw [he] at h1; cases h1
        | some es =>
          rw [he, Option.bind_some] at h1 h4
          rw [h1] at h4
          simp only [Option.map_some, Option.some.injEq] at h4
          exact h4.symm
    rw [← this]
    exact h5

end DeepGNN
