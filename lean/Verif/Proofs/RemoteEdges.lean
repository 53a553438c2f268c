import Verif.Proofs.RemoteLookups

/-
Edge features of servers.
-/

namespace DeepGNN

open Spec

theorem edgeSteps_cons (fv i : Nat) (offs : List Nat) (st st' : List Int) (row vals : Bytes) (h : row.length = fv) :
    edgeSteps fv ⟨i :: offs, st, row ++ vals⟩ =
      (row.zipIdx.map fun b => Step.put (fv * i + b.2) b.1) ++ [.mark i] ++ edgeSteps fv ⟨offs, st', vals⟩ := by
  simp only [edgeSteps, List.zipIdx_cons, List.flatMap_cons, Nat.mul_zero, List.drop_zero]
  rw [List.take_append_of_le_length (by omega), List.take_of_length_le (by omega)]
  congr 1
  rw [List.zipIdx_succ, List.flatMap_map]
  congr 1
  funext x
  have : (row ++ vals).drop (fv * (x.2 + 1)) = vals.drop (fv * x.2) := by
    rw [List.drop_append, List.drop_eq_nil_of_le (by rw [Nat.mul_succ]; omega), List.nil_append, Nat.mul_succ]
    congr 1
    omega
  rw [this]

theorem put_mem_row {fv i p : Nat} {row : Bytes} {v : UInt8} :
    Step.put p v ∈ (row.zipIdx.map fun b => Step.put (fv * i + b.2) b.1) ++ [Step.mark i] ↔
      ∃ j, p = fv * i + j ∧ row[j]? = some v := by
  simp only [List.mem_append, List.mem_map, List.mem_singleton, reduceCtorEq, or_false]
  constructor
  · rintro ⟨⟨b, j⟩, hb, he⟩
    simp only [Step.put.injEq] at he
    rw [List.mem_zipIdx_iff_getElem?] at hb
    exact ⟨j, he.1.symm, by rw [← he.2]; exact hb⟩
  · rintro ⟨j, rfl, hj⟩
    exact ⟨(v, j), List.mem_zipIdx_iff_getElem?.2 hj, rfl⟩

theorem mark_mem_row {fv i p : Nat} {row : Bytes} :
    Step.mark p ∈ (row.zipIdx.map fun b => Step.put (fv * i + b.2) b.1) ++ [Step.mark i] ↔ p = i := by
  simp

variable {C : WeightCodec} {wm : Option Nat} {m : Meta} {parts : List (List (List Rec))} {g : Graph} {items : List Item}

/-- What a server knows about a feature of an edge: a flag and the value. -/
def edgeCell (items : List Item) (e : EdgeId) (f : Nat × Nat) : Int × Bytes :=
  (nodeBlks items e.src).foldl (fun s b => stepEdgeBlk e.dst e.typ b f s) ((-1 : Int), List.replicate f.2 0)

/-- The server has one of the features. -/
def HasEdge (items : List Item) (feats : List (Nat × Nat)) (e : EdgeId) : Prop := ∃ f ∈ feats, (edgeCell items e f).1 ≥ 0

/-- The values of all features. -/
def edgeRow (items : List Item) (feats : List (Nat × Nat)) (e : EdgeId) : Bytes :=
  feats.flatMap fun f => fit f.2 (edgeValue (nodeBlks items e.src) e.dst e.typ f.1)

theorem edgeRow_length (items : List Item) (feats : List (Nat × Nat)) (e : EdgeId) :
    (edgeRow items feats e).length = (feats.map (·.2)).sum := by
  rw [edgeRow]
  induction feats with
  | nil => rfl
  | cons f fs ih =>
    rw [List.flatMap_cons, List.length_append, ih, List.map_cons, List.sum_cons]
    congr 1
    simp [fit]
    omega

theorem edgeCell_value (items : List Item) (e : EdgeId) (f : Nat × Nat) :
    (edgeCell items e f).2 = fit f.2 (edgeValue (nodeBlks items e.src) e.dst e.typ f.1) := foldl_stepEdge _ _ _ _

theorem edgeCell_zero (items : List Item) (e : EdgeId) (f : Nat × Nat) (h : (edgeCell items e f).1 < 0) :
    (edgeCell items e f).2 = List.replicate f.2 0 := by
  have : ∀ (l : List Blk) (s : Int × Bytes), (s.1 < 0 → s.2 = List.replicate f.2 0) →
      (l.foldl (fun s b => stepEdgeBlk e.dst e.typ b f s) s).1 < 0 →
      (l.foldl (fun s b => stepEdgeBlk e.dst e.typ b f s) s).2 = List.replicate f.2 0 := by
    intro l
    induction l with
    | nil => intro s hs; exact hs
    | cons b l ih => intro s hs; exact ih _ (stepEdgeBlk_zero _ _ b f s hs)
  exact this _ _ (fun _ => rfl) h

/-- A row without features is zero. -/
theorem edgeRow_zero (items : List Item) (feats : List (Nat × Nat)) (e : EdgeId) (h : ¬ HasEdge items feats e) :
    edgeRow items feats e = List.replicate (feats.map (·.2)).sum 0 := by
  rw [edgeRow]
  have h1 : ∀ f ∈ feats, fit f.2 (edgeValue (nodeBlks items e.src) e.dst e.typ f.1) = List.replicate f.2 0 := by
    intro f hf
    rw [← edgeCell_value]
    apply edgeCell_zero
    have : ¬ (edgeCell items e f).1 ≥ 0 := fun h2 => h ⟨f, hf, h2⟩
    omega
  clear h
  induction feats with
  | nil => rfl
  | cons f fs ih =>
    rw [List.flatMap_cons, h1 f (by simp), ih fun f hf => h1 f (by simp [hf]), List.map_cons, List.sum_cons,
      List.replicate_append_replicate]

theorem HasEdge.record {feats : List (Nat × Nat)} {e : EdgeId} (h : GraphOk C m g items parts) (he : HasEdge items feats e) :
    edgesBetween parts e.src e.dst e.typ ≠ [] := by
  obtain ⟨f, -, hf⟩ := he
  have : ∀ (l : List Blk) (s : Int × Bytes), s.1 < 0 → 0 ≤ (l.foldl (fun s b => stepEdgeBlk e.dst e.typ b f s) s).1 →
      ∃ b ∈ l, pickEdge b.edges e.dst e.typ ≠ none := by
    intro l
    induction l with
    | nil => intro s hs h1; simp only [List.foldl_nil] at h1; omega
    | cons b l ih =>
      intro s hs h1
      cases hp : pickEdge b.edges e.dst e.typ with
      | some e' => exact ⟨b, by simp, by simp [hp]⟩
      | none =>
        rw [List.foldl_cons, stepEdgeBlk_none hp] at h1
        obtain ⟨b', h2, h3⟩ := ih s hs h1
        exact ⟨b', by simp [h2], h3⟩
  obtain ⟨b, hb, hp⟩ := this _ _ (by simp) hf
  cases hp' : pickEdge b.edges e.dst e.typ with
  | none => exact absurd hp' hp
  | some e' =>
    obtain ⟨h1, h2, h3⟩ := pickEdge_some hp'
    obtain ⟨r, hr, -⟩ := h.edge_record hb h1
    rw [h2, h3] at hr
    intro hn
    rw [hn] at hr
    cases hr

theorem GraphOk.serveEdge (h : GraphOk C m g items parts)
    (hc : ∀ it ∈ items, it.files.edgeFeatureCount ≤ m.edgeFeatureCount) (feats : List (Nat × Nat)) (e : EdgeId) :
    g.serveEdge feats e none = some (feats.map (edgeCell items e)) := by
  obtain ⟨es, h1, h2⟩ := h.edgeFeatureFold hc feats e.src e.dst e.typ
  rw [Graph.serveEdge, h1, Option.bind_some, slices_zero, List.map_map, List.map_map, h2]
  · congr 1
    clear h2
    induction feats with
    | nil => rfl
    | cons f fs ih =>
      rw [List.map_cons, List.map_cons, List.zipWith_cons_cons, ih]
      rfl
  · refine ⟨by simp, ?_⟩
    clear h2
    intro x hx _
    rw [List.zip_map_right, List.mem_map] at hx
    obtain ⟨⟨a, b⟩, hab, rfl⟩ := hx
    have : a = b := by
      rw [List.mem_iff_getElem] at hab
      obtain ⟨i, hi, h3⟩ := hab
      simp only [List.getElem_zip, Prod.mk.injEq] at h3
      rw [← h3.1, ← h3.2]
    subst this
    rfl

/-- The writes of the callback for the reply of one server. -/
theorem GraphOk.serveEdges (h : GraphOk C m g items parts)
    (hc : ∀ it ∈ items, it.files.edgeFeatureCount ≤ m.edgeFeatureCount) (feats : List (Nat × Nat)) (edges : List EdgeId)
    (i : Nat) :
    ∃ r, g.serveEdges feats i (edges.map fun e => (e, none)) = some r ∧
      (∀ p v, Step.put p v ∈ edgeSteps (feats.map (·.2)).sum r ↔ ∃ k e j, p = (feats.map (·.2)).sum * (i + k) + j ∧
        edges[k]? = some e ∧ HasEdge items feats e ∧ (edgeRow items feats e)[j]? = some v) ∧
      (∀ p, Step.mark p ∈ edgeSteps (feats.map (·.2)).sum r ↔ ∃ k e, p = i + k ∧ edges[k]? = some e ∧ HasEdge items feats e) := by
  induction edges generalizing i with
  | nil => exact ⟨⟨[], [], []⟩, rfl, by simp [edgeSteps], by simp [edgeSteps]⟩
  | cons e es ih =>
    obtain ⟨r, h1, h2, h3⟩ := ih (i + 1)
    generalize hfv : (feats.map (·.2)).sum = fv at *
    have hput : ∀ p v, (∃ k e' j, p = fv * (i + k) + j ∧ (e :: es)[k]? = some e' ∧ HasEdge items feats e' ∧
        (edgeRow items feats e')[j]? = some v) ↔
        (HasEdge items feats e ∧ ∃ j, p = fv * i + j ∧ (edgeRow items feats e)[j]? = some v) ∨
        ∃ k e' j, p = fv * (i + 1 + k) + j ∧ es[k]? = some e' ∧ HasEdge items feats e' ∧
          (edgeRow items feats e')[j]? = some v := by
      intro p v
      constructor
      · rintro ⟨k, e', j, rfl, hk, h4, h5⟩
        cases k with
        | zero =>
          rw [List.getElem?_cons_zero, Option.some.injEq] at hk
          subst hk
          exact Or.inl ⟨h4, j, rfl, h5⟩
        | succ k => exact Or.inr ⟨k, e', j, by rw [show i + (k + 1) = i + 1 + k by omega], by simpa using hk, h4, h5⟩
      · rintro (⟨h4, j, rfl, h5⟩ | ⟨k, e', j, rfl, hk, h4, h5⟩)
        · exact ⟨0, e, j, rfl, rfl, h4, h5⟩
        · exact ⟨k + 1, e', j, by rw [show i + (k + 1) = i + 1 + k by omega], by simpa using hk, h4, h5⟩
    have hmark : ∀ p, (∃ k e', p = i + k ∧ (e :: es)[k]? = some e' ∧ HasEdge items feats e') ↔
        (HasEdge items feats e ∧ p = i) ∨ ∃ k e', p = i + 1 + k ∧ es[k]? = some e' ∧ HasEdge items feats e' := by
      intro p
      constructor
      · rintro ⟨k, e', rfl, hk, h4⟩
        cases k with
        | zero =>
          rw [List.getElem?_cons_zero, Option.some.injEq] at hk
          subst hk
          exact Or.inl ⟨h4, rfl⟩
        | succ k => exact Or.inr ⟨k, e', by omega, by simpa using hk, h4⟩
      · rintro (⟨h4, rfl⟩ | ⟨k, e', rfl, hk, h4⟩)
        · exact ⟨0, e, rfl, rfl, h4⟩
        · exact ⟨k + 1, e', by omega, by simpa using hk, h4⟩
    have hskip : ¬ HasEdge items feats e → ∃ r', some r = some r' ∧
        (∀ p v, Step.put p v ∈ edgeSteps fv r' ↔ ∃ k e' j, p = fv * (i + k) + j ∧ (e :: es)[k]? = some e' ∧
          HasEdge items feats e' ∧ (edgeRow items feats e')[j]? = some v) ∧
        (∀ p, Step.mark p ∈ edgeSteps fv r' ↔ ∃ k e', p = i + k ∧ (e :: es)[k]? = some e' ∧ HasEdge items feats e') := by
      intro hno
      refine ⟨r, rfl, fun p v => ?_, fun p => ?_⟩
      · rw [hput, h2]
        simp [hno]
      · rw [hmark, h3]
        simp [hno]
    simp only [List.map_cons, Graph.serveEdges]
    cases hm : g.nodeMap e.src with
    | none =>
      simp only [h1]
      apply hskip
      rintro ⟨f, -, hf⟩
      have hno := ((entries_items h.parts_eq h.inv e.src).2).1 hm
      have hnil : nodeBlks items e.src = [] := by
        simp only [nodeBlks, List.flatMap_eq_nil_iff, List.filter_eq_nil_iff]
        intro it hit b hb
        simpa using hno it hit b hb
      rw [edgeCell, hnil] at hf
      simp at hf
    | some o =>
      simp only [h.serveEdge hc, Option.bind_some, h1, Option.map_some]
      by_cases hany : (feats.map (edgeCell items e)).any (fun s => decide (s.1 ≥ 0)) = true
      · rw [if_pos hany]
        have hhas : HasEdge items feats e := by
          rw [List.any_map, List.any_eq_true] at hany
          obtain ⟨f, hf, h4⟩ := hany
          exact ⟨f, hf, by simpa using h4⟩
        have hrow : (feats.map (edgeCell items e)).flatMap (·.2) = edgeRow items feats e := by
          rw [List.flatMap_map, edgeRow]
          congr 1
          funext f
          exact edgeCell_value items e f
        rw [hrow]
        have hl : (edgeRow items feats e).length = fv := by rw [edgeRow_length, hfv]
        refine ⟨_, rfl, fun p v => ?_, fun p => ?_⟩
        · rw [edgeSteps_cons fv i r.offsets _ r.stamps _ r.values hl, List.mem_append, put_mem_row, h2, hput]
          simp [hhas]
        · rw [edgeSteps_cons fv i r.offsets _ r.stamps _ r.values hl, List.mem_append, mark_mem_row, h3, hmark]
          simp [hhas]
      · rw [if_neg hany]
        apply hskip
        rintro ⟨f, hf, h4⟩
        apply hany
        rw [List.any_map, List.any_eq_true]
        exact ⟨f, hf, by simpa using h4⟩

theorem edge_requests (edges : List EdgeId) :
    edges.zip (tsList none edges.length) = edges.map fun e => (e, none) := by
  simp only [tsList]
  induction edges with
  | nil => rfl
  | cons n ns ih => simp [List.replicate_succ, ih]

end DeepGNN
