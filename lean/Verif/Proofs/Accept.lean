import Verif.Proofs.Concrete
import Verif.Spec.Accept

/-
The converter accepts valid input.
-/

namespace DeepGNN

open Spec

/-- Sizes of what was written, and limits on the numbers of features. -/
structure Small (k NF EF : Nat) (wm : Option Nat) (w : BinaryWriter) : Prop where
  count : w.node.count ≤ k
  nm : w.node.nm.length ≤ k
  nfi : w.node.fw.nfi.length ≤ k
  nfd : w.node.fw.nfd.length ≤ k
  ei : w.edge.ei.length ≤ k
  efiPos : w.edge.efiPos ≤ k
  efi : w.edge.fw.efi.length ≤ k
  efd : w.edge.fw.efd.length ≤ k
  nfc : w.node.fw.featureCount ≤ NF
  efc : w.edge.fw.featureCount ≤ EF
  wm : w.edge.watermark = wm

def lastType : Option Rec → Option Int
  | none => none
  | some r => if r.dst = -1 then none else some r.typ

/-- The state of the writer after the record `prev`. -/
structure After (prev : Option Rec) (nc : Int) (nr : Option Int) (w : BinaryWriter) : Prop where
  node : w.prevNode = prev.map (·.src)
  typ : w.prevEdgeType = lastType prev
  created : w.nodeCreated = nc
  removed : w.nodeRemoved = -1 ∨ nr = some w.nodeRemoved
  createdFits : -(2 ^ 63) ≤ w.nodeCreated ∧ w.nodeCreated < 2 ^ 63
  removedFits : -(2 ^ 63) ≤ w.nodeRemoved ∧ w.nodeRemoved < 2 ^ 63

theorem featureSizes (fs : List (Option Bytes)) : (fs.map fun f => 8 + (f.getD []).length).sum = fs.length * 8 + (fs.map featSize).sum := by
  induction fs with
  | nil => rfl
  | cons f fs ih =>
    have : (f.getD []).length = featSize f := by cases f <;> rfl
    simp only [List.map_cons, List.sum_cons, ih, List.length_cons, this]
    omega

theorem length_flatMap_featBytes' (l : List (Option Bytes)) : (l.flatMap featBytes).length = (l.map featSize).sum := by
  induction l with
  | nil => rfl
  | cons f l ih => rw [List.flatMap_cons, List.length_append, ih, length_featBytes, List.map_cons, List.sum_cons]

theorem nodeAdd_some (w : NodeWriter) (id typ : Int) (fs : List (Option Bytes)) (hid : 0 ≤ id ∧ id < 2 ^ 63)
    (ht : -(2 ^ 31) ≤ typ ∧ typ < 2 ^ 31) (hc : w.count < 2 ^ 64) : ∃ w', w.add id typ fs = some w' ∧ w'.count = w.count + 1 ∧
      w'.nm.length = w.nm.length + 20 ∧ w'.fw.nfi.length = w.fw.nfi.length + fs.length * 8 ∧
      w'.fw.nfd.length = w.fw.nfd.length + (fs.map featSize).sum ∧
      w'.fw.featureCount = max w.fw.featureCount fs.length := by
  have h1 : packQ id = some (leBytes 8 id.toNat) := packQ_eq_some.2 ⟨⟨hid.1, by omega⟩, rfl⟩
  have h2 : packQ (w.count : Int) = some (leBytes 8 (w.count : Int).toNat) := packQ_eq_some.2 ⟨⟨by omega, by omega⟩, rfl⟩
  have h3 : packI32 typ = some (leBytes 4 (typ % 2 ^ 32).toNat) := packI32_eq_some.2 ⟨ht, rfl⟩
  refine ⟨_, by simp only [NodeWriter.add, packNode, h1, h2, h3, Option.bind_eq_bind, Option.bind_some, Option.pure_def]; rfl, ?_, ?_, ?_, ?_, ?_⟩
  · rfl
  · simp
  · simp only [NodeFeatureWriter.add, nodeFeature_fold, List.length_append, length_flatMap_cU64, length_starts, List.length_map]
  · simp only [NodeFeatureWriter.add, nodeFeature_fold, List.length_append, length_flatMap_featBytes']
  · simp only [NodeFeatureWriter.add, nodeFeature_fold]
    split <;> omega

theorem edgeAdd_some (C : WeightCodec) (w : EdgeWriter) (dst typ weight : Int) (fs : List (Option Bytes)) (c d : Int)
    (hdst : 0 ≤ dst ∧ dst < 2 ^ 63) (ht : 0 ≤ typ ∧ typ < 2 ^ 31) (hp : w.efiPos < 2 ^ 64)
    (hc : -(2 ^ 63) ≤ c ∧ c < 2 ^ 63) (hd : -(2 ^ 63) ≤ d ∧ d < 2 ^ 63) :
    ∃ w', w.add C dst typ weight fs c d = some w' ∧ w'.ei.length = w.ei.length + 24 ∧ w'.efiPos = w.efiPos + 8 * fs.length ∧
      w'.fw.efi.length = w.fw.efi.length + fs.length * 8 ∧ w'.fw.efd.length = w.fw.efd.length + (fs.map featSize).sum ∧
      w'.fw.featureCount = max w.fw.featureCount fs.length ∧ w'.watermark = w.watermark := by
  have h1 : packQ dst = some (leBytes 8 dst.toNat) := packQ_eq_some.2 ⟨⟨hdst.1, by omega⟩, rfl⟩
  have h2 : packQ ((w.efiPos / 8 : Nat) : Int) = some (leBytes 8 ((w.efiPos / 8 : Nat) : Int).toNat) :=
    packQ_eq_some.2 ⟨⟨by omega, by omega⟩, rfl⟩
  have h3 : packI32 typ = some (leBytes 4 (typ % 2 ^ 32).toNat) := packI32_eq_some.2 ⟨by omega, rfl⟩
  have h4 : packI64 c = some (leBytes 8 (c % 2 ^ 64).toNat) := packI64_eq_some.2 ⟨hc, rfl⟩
  have h5 : packI64 d = some (leBytes 8 (d % 2 ^ 64).toNat) := packI64_eq_some.2 ⟨hd, rfl⟩
  have hfc : (EdgeFeatureWriter.add w.fw fs).1.featureCount = max w.fw.featureCount fs.length := by
    simp only [EdgeFeatureWriter.add, edgeFeature_fold]
    split <;> omega
  have hefi : (EdgeFeatureWriter.add w.fw fs).1.efi.length = w.fw.efi.length + fs.length * 8 := by
    simp only [EdgeFeatureWriter.add, edgeFeature_fold, List.length_append, length_flatMap_cU64, length_starts, List.length_map]
  have hefd : (EdgeFeatureWriter.add w.fw fs).1.efd.length = w.fw.efd.length + (fs.map featSize).sum := by
    simp only [EdgeFeatureWriter.add, edgeFeature_fold, List.length_append, length_flatMap_featBytes']
  cases hw : w.watermark with
  | none =>
    refine ⟨_, by simp only [EdgeWriter.add, packEdge, h1, h2, h3, Option.bind_eq_bind, Option.bind_some, Option.pure_def, hw]; rfl, ?_, ?_, ?_, ?_, ?_, ?_⟩
    · simp [C.len]
    · rfl
    · exact hefi
    · exact hefd
    · exact hfc
    · rfl
  | some t =>
    refine ⟨_, by simp only [EdgeWriter.add, packEdge, h1, h2, h3, h4, h5, Option.bind_eq_bind, Option.bind_some, Option.pure_def, hw]; rfl, ?_, ?_, ?_, ?_,
      ?_, ?_⟩
    · simp [C.len]
    · rfl
    · exact hefi
    · exact hefd
    · exact hfc
    · rfl

theorem pyOr_fits {x : Option Int} {d : Int} (h : TimeFits x) (hd : -(2 ^ 63) ≤ d ∧ d < 2 ^ 63) : -(2 ^ 63) ≤ pyOr x d ∧ pyOr x d < 2 ^ 63 := by
  cases x with
  | none => exact hd
  | some v =>
    simp only [pyOr]
    split
    · exact hd
    · exact h v rfl

theorem Small.mono {k k' NF EF : Nat} {wm : Option Nat} {w : BinaryWriter} (h : Small k NF EF wm w) (hk : k ≤ k') : Small k' NF EF wm w := by
  obtain ⟨h1, h2, h3, h4, h5, h6, h7, h8, h9, h10, h11⟩ := h
  constructor <;> first | omega | assumption

/-- One record. -/
theorem addRec_some (C : WeightCodec) {k NF EF : Nat} {wm : Option Nat} {w : BinaryWriter} {prev : Option Rec} {nc : Int} {nr : Option Int}
    (hs : Small k NF EF wm w) (ha : After prev nc nr w) (r : Rec) (hr : RecordFits r) (hk : k + recordSize r < 2 ^ 64)
    (htyp : ∀ p, prev = some p → p.dst ≠ -1 → r.dst ≠ -1 → p.src = r.src → p.typ ≤ r.typ)
    (hlife : r.dst ≠ -1 → nc ≤ r.created.getD nc ∧ removalLe (removalTime nr r.removed) nr)
    (hNF : r.dst = -1 → r.features.length ≤ NF) (hEF : r.dst ≠ -1 → r.features.length ≤ EF) :
    ∃ w', w.addRec C r = some w' ∧ Small (k + recordSize r) NF EF wm w' ∧
      After (some r) (if r.dst = -1 then r.created.getD 0 else nc) (if r.dst = -1 then removalTime none r.removed else nr) w' := by
  have hsz : recordSize r = 24 + (r.features.length * 8 + (r.features.map featSize).sum) := by rw [recordSize, featureSizes]
  have hcnt := hs.count
  by_cases hd : r.dst = -1
  · obtain ⟨n', h1, h2, h3, h4, h5, h6⟩ := nodeAdd_some w.node r.src r.typ r.features hr.src (by have := hr.typ; omega) (by omega)
    refine ⟨_, by simp only [BinaryWriter.addRec, if_neg (show ¬ r.typ < 0 by have := hr.typ; omega), if_pos hd, BinaryWriter.addNodeRec, h1,
      Option.map_some]; rfl, ?_, ?_⟩
    · obtain ⟨g1, g2, g3, g4, g5, g6, g7, g8, g9, g10, g11⟩ := hs
      have := hNF hd
      constructor <;> simp only [EdgeWriter.addNode] <;> first | omega | exact g11
    · refine ⟨rfl, ?_, ?_, ?_, ?_, ?_⟩
      · simp [lastType, hd]
      · simp only [if_pos hd]
        cases hc : r.created with
        | none => rfl
        | some v => simp only [pyOr, Option.getD_some]; split <;> simp_all
      · simp only [if_pos hd]
        cases hc : r.removed with
        | none => exact .inl rfl
        | some v =>
          by_cases h0 : v = 0
          · exact .inl (by simp [pyOr, h0])
          · by_cases h1 : v = -1
            · exact .inl (by simp [pyOr, h1])
            · exact .inr (by simp [pyOr, h0, removalTime, h1])
      · exact pyOr_fits hr.created (by omega)
      · exact pyOr_fits hr.removed (by omega)
  · -- the node of the edge
    obtain ⟨w1, hw1, hs1, ha1⟩ : ∃ w1, w.startNode r.src = some w1 ∧
        (w1.node.count ≤ k + 1 ∧ w1.node.nm.length ≤ k + 20 ∧ w1.node.fw.nfi.length ≤ k ∧ w1.node.fw.nfd.length ≤ k ∧
          w1.node.fw.featureCount ≤ NF ∧ w1.edge.ei = w.edge.ei ∧ w1.edge.efiPos = w.edge.efiPos ∧ w1.edge.fw = w.edge.fw ∧
          w1.edge.watermark = w.edge.watermark) ∧
        (w1.prevNode = some r.src ∧ (∀ p, w1.prevEdgeType = some p → p ≤ r.typ) ∧ w1.nodeCreated = w.nodeCreated ∧
          w1.nodeRemoved = w.nodeRemoved) := by
      rw [BinaryWriter.startNode]
      split
      · rename_i hp
        refine ⟨w, rfl, ⟨by have := hs.count; omega, by have := hs.nm; omega, hs.nfi, hs.nfd, hs.nfc, rfl, rfl, rfl, rfl⟩, hp, ?_, rfl, rfl⟩
        intro p hpt
        rw [ha.typ] at hpt
        rw [ha.node] at hp
        cases prev with
        | none => simp [lastType] at hpt
        | some q =>
          simp only [lastType] at hpt
          split at hpt
          · simp at hpt
          · rename_i hq
            have := htyp q rfl hq hd (by simpa using hp)
            simp only [Option.some.injEq] at hpt
            omega
      · obtain ⟨n', h1, h2, h3, h4, h5, h6⟩ := nodeAdd_some w.node r.src (-1) [] hr.src (by omega) (by omega)
        rw [h1, Option.map_some]
        simp only [List.length_nil, List.map_nil, List.sum_nil] at h4 h5 h6
        have e1 := hs.nm; have e2 := hs.nfi; have e3 := hs.nfd; have e4 := hs.nfc
        exact ⟨_, rfl, ⟨by simp only; omega, by simp only; omega, by simp only; omega, by simp only; omega, by simp only; omega, rfl, rfl, rfl, rfl⟩,
          rfl, by simp, rfl, rfl⟩
    obtain ⟨a1, a2, a3, a4, a5, a6, a7, a8, a9⟩ := hs1
    obtain ⟨b1, b2, b3, b4⟩ := ha1
    obtain ⟨l1, l2⟩ := hlife hd
    have hok : w1.edgeOk r = true := by
      simp only [BinaryWriter.edgeOk, Bool.and_eq_true]
      refine ⟨⟨?_, ?_⟩, ?_⟩
      · cases hp : w1.prevEdgeType with
        | none => rfl
        | some p => exact decide_eq_true (b2 p hp)
      · cases hc : r.created with
        | none => rfl
        | some c =>
          rw [hc] at l1
          exact decide_eq_true (by rw [b3, ha.created]; exact l1)
      · cases hc : r.removed with
        | none => rfl
        | some d =>
          simp only [Bool.or_eq_true, decide_eq_true_eq]
          rw [b4]
          rcases ha.removed with h | h
          · exact .inl h
          · right
            rw [hc, h, removalTime] at l2
            split at l2
            · exact absurd l2 id
            · exact l2
    have hdst : 0 ≤ r.dst ∧ r.dst < 2 ^ 63 := hr.dst.resolve_left hd
    obtain ⟨e', h1, h2, h3, h4, h5, h6, h7⟩ := edgeAdd_some C w1.edge r.dst r.typ r.weight r.features (pyOr r.created w1.nodeCreated)
      (pyOr r.removed w1.nodeRemoved) hdst hr.typ (by rw [a7]; have := hs.efiPos; omega)
      (pyOr_fits hr.created (by rw [b3]; exact ha.createdFits)) (pyOr_fits hr.removed (by rw [b4]; exact ha.removedFits))
    refine ⟨_, by simp only [BinaryWriter.addRec, if_neg (show ¬ r.typ < 0 by have := hr.typ; omega), if_neg hd, hw1, Option.bind_some,
      BinaryWriter.addEdgeRec, hok, if_true, h1, Option.map_some]; rfl, ?_, ?_⟩
    · obtain ⟨g1, g2, g3, g4, g5, g6, g7, g8, g9, g10, g11⟩ := hs
      have := hEF hd
      rw [a6] at h2
      rw [a7] at h3
      rw [a8] at h4 h5 h6
      constructor <;> simp only <;> first | omega | (rw [h7, a9]; exact g11)
    · refine ⟨b1, ?_, ?_, ?_, ?_, ?_⟩
      · simp [lastType, hd]
      · simp only [if_neg hd, b3]; exact ha.created
      · simp only [if_neg hd, b4]; exact ha.removed
      · simp only [b3]; exact ha.createdFits
      · simp only [b4]; exact ha.removedFits

theorem sum_sizes_cons (r : Rec) (rs : List Rec) : ((r :: rs).map recordSize).sum = recordSize r + (rs.map recordSize).sum := rfl

/-- The records of one call. -/
theorem foldlM_addRec (C : WeightCodec) {NF EF : Nat} {wm : Option Nat} (rs : List Rec) :
    ∀ {k : Nat} {w : BinaryWriter} {prev : Option Rec} {nc : Int} {nr : Option Int}, Small k NF EF wm w → After prev nc nr w →
    (∀ r ∈ rs, RecordFits r) → k + (rs.map recordSize).sum < 2 ^ 64 → TypesOrdered (prev.toList ++ rs) → LifetimesNested nc nr rs →
    (∀ r ∈ rs, (r.dst = -1 → r.features.length ≤ NF) ∧ (r.dst ≠ -1 → r.features.length ≤ EF)) →
    ∃ w', rs.foldlM (BinaryWriter.addRec C) w = some w' ∧ Small (k + (rs.map recordSize).sum) NF EF wm w' ∧
      ∃ nc' nr', After ((prev.toList ++ rs).getLast?) nc' nr' w' := by
  induction rs with
  | nil =>
    intro k w prev nc nr hs ha _ _ _ _ _
    refine ⟨w, rfl, by simpa using hs, nc, nr, ?_⟩
    cases prev <;> simpa using ha
  | cons r rs ih =>
    intro k w prev nc nr hs ha hf hk ht hl hft
    rw [sum_sizes_cons] at hk ⊢
    have hlife : r.dst ≠ -1 → nc ≤ r.created.getD nc ∧ removalLe (removalTime nr r.removed) nr := by
      intro hd
      rw [LifetimesNested, if_neg hd] at hl
      exact hl.1
    obtain ⟨w1, h1, h2, h3⟩ := addRec_some C hs ha r (hf r (by simp)) (by omega) (by
      rintro p rfl h4 h5 h6
      exact ht [] p r rs rfl h4 h5 h6) hlife (hft r (by simp)).1 (hft r (by simp)).2
    obtain ⟨w2, h4, h5, h6⟩ := ih h2 h3 (fun x hx => hf x (by simp [hx])) (by omega) (by
      intro a x y b hab
      refine ht (prev.toList ++ a) x y b ?_
      rw [List.append_assoc, ← hab]
      rfl) (by
      rw [LifetimesNested] at hl
      split at hl
      · rename_i hd; simpa [hd] using hl
      · rename_i hd; simpa [hd] using hl.2) (fun x hx => hft x (by simp [hx]))
    refine ⟨w2, by rw [List.foldlM_cons, h1]; exact h4, h5.mono (by omega), ?_⟩
    have : (prev.toList ++ r :: rs).getLast? = ((some r).toList ++ rs).getLast? := by
      rw [List.getLast?_append]
      simp [List.getLast?_cons]
    rw [this]
    exact h6

theorem typesOrdered_right {a b : List Rec} (h : TypesOrdered (a ++ b)) : TypesOrdered b := by
  intro x r s y hxy
  exact h (a ++ x) r s y (by rw [hxy, List.append_assoc])

theorem typesOrdered_left {a b : List Rec} (h : TypesOrdered (a ++ b)) : TypesOrdered a := by
  intro x r s y hxy
  exact h x r s (y ++ b) (by rw [hxy]; simp)

theorem typesOrdered_last {a b : List Rec} (h : TypesOrdered (a ++ b)) : TypesOrdered (a.getLast?.toList ++ b) := by
  rcases List.eq_nil_or_concat a with rfl | ⟨l, x, rfl⟩
  · simpa using h
  · have : l.concat x ++ b = l ++ ([x] ++ b) := by simp
    rw [this] at h
    simpa using typesOrdered_right h

/-- All calls. -/
theorem writeCalls_some (C : WeightCodec) {NF EF : Nat} {wm : Option Nat} (calls : List (List Rec)) :
    ∀ {k : Nat} {w : BinaryWriter} {past : List Rec} {nc : Int} {nr : Option Int}, Small k NF EF wm w → After past.getLast? nc nr w →
    (∀ r ∈ calls.flatten, RecordFits r) → k + (calls.flatten.map recordSize).sum < 2 ^ 64 → TypesOrdered (past ++ calls.flatten) →
    (∀ c ∈ calls, LifetimesNested 0 none c) →
    (∀ r ∈ calls.flatten, (r.dst = -1 → r.features.length ≤ NF) ∧ (r.dst ≠ -1 → r.features.length ≤ EF)) →
    ∃ w', calls.foldlM (BinaryWriter.add C) w = some w' ∧ Small (k + (calls.flatten.map recordSize).sum) NF EF wm w' := by
  induction calls with
  | nil =>
    intro k w past nc nr hs _ _ _ _ _ _
    exact ⟨w, rfl, by simpa using hs⟩
  | cons c calls ih =>
    intro k w past nc nr hs ha hf hk ht hl hft
    rw [List.flatten_cons, List.map_append, List.sum_append] at hk ⊢
    rw [List.flatten_cons] at hf ht hft
    obtain ⟨w1, h1, h2, nc', nr', h3⟩ := foldlM_addRec C c (k := k) (NF := NF) (EF := EF) (wm := wm)
      (w := { w with nodeCreated := 0, nodeRemoved := -1 }) (prev := past.getLast?) (nc := 0) (nr := none)
      ⟨hs.count, hs.nm, hs.nfi, hs.nfd, hs.ei, hs.efiPos, hs.efi, hs.efd, hs.nfc, hs.efc, hs.wm⟩
      ⟨ha.node, ha.typ, rfl, .inl rfl, by simp only; omega, by simp only; omega⟩ (fun r hr => hf r (List.mem_append_left _ hr)) (by omega)
      (by rw [← List.append_assoc] at ht; exact typesOrdered_last (typesOrdered_left ht)) (hl c (by simp)) (fun r hr => hft r (List.mem_append_left _ hr))
    have hlast : (past.getLast?.toList ++ c).getLast? = (past ++ c).getLast? := by
      rw [List.getLast?_append, List.getLast?_append]
      cases past.getLast? <;> simp
    rw [hlast] at h3
    obtain ⟨w2, h4, h5⟩ := ih h2 h3 (fun r hr => hf r (List.mem_append_right _ hr)) (by omega)
      (by rw [List.append_assoc]; exact ht) (fun x hx => hl x (by simp [hx])) (fun r hr => hft r (List.mem_append_right _ hr))
    exact ⟨w2, by rw [List.foldlM_cons, BinaryWriter.add, h1]; exact h4, h5.mono (by omega)⟩

theorem close_some (C : WeightCodec) (w : BinaryWriter) (hp : w.edge.efiPos < 2 ^ 64) : ∃ f, w.close C = some f ∧
    f.nodeMap = w.node.nm ∧ f.nodeFeatureIndex.length = w.node.fw.nfi.length + 8 ∧ f.nodeFeatureData = w.node.fw.nfd ∧
    f.edgeIndex.length = w.edge.ei.length + 24 ∧ f.edgeFeatureIndex.length = w.edge.fw.efi.length + 8 ∧
    f.edgeFeatureData = w.edge.fw.efd ∧ f.nodeFeatureCount = w.node.fw.featureCount ∧ f.edgeFeatureCount = w.edge.fw.featureCount := by
  have h1 : packQ ((w.edge.efiPos / 8 : Nat) : Int) = some (leBytes 8 ((w.edge.efiPos / 8 : Nat) : Int).toNat) :=
    packQ_eq_some.2 ⟨⟨by omega, by omega⟩, rfl⟩
  have h2 : packQ 0 = some (leBytes 8 (0 : Int).toNat) := packQ_eq_some.2 ⟨by omega, rfl⟩
  have h3 : packI32 0 = some (leBytes 4 ((0 : Int) % 2 ^ 32).toNat) := packI32_eq_some.2 ⟨by omega, rfl⟩
  have hr : packEdge C 0 (w.edge.efiPos / 8) 0 (-1) = some (leBytes 8 (0 : Int).toNat ++ leBytes 8 ((w.edge.efiPos / 8 : Nat) : Int).toNat ++
      leBytes 4 ((0 : Int) % 2 ^ 32).toNat ++ C.enc (-1)) := by
    rw [packEdge, h1, h2, h3]
    rfl
  refine ⟨_, by rw [BinaryWriter.close, EdgeWriter.close, hr]; rfl, ?_, ?_, ?_, ?_, ?_, ?_, ?_, ?_⟩
  · rfl
  · simp [NodeFeatureWriter.close, cU64]
  · rfl
  · simp [C.len]
  · simp [cU64]
  · rfl
  · rfl
  · rfl

theorem small_init (NF EF : Nat) (wm : Option Nat) : Small 0 NF EF wm (BinaryWriter.init wm) := by
  constructor <;> simp only [BinaryWriter.init, EdgeWriter.init] <;> cases wm <;> simp

theorem after_init (wm : Option Nat) : After ([] : List Rec).getLast? 0 none (BinaryWriter.init wm) := by
  refine ⟨rfl, rfl, rfl, .inl rfl, ?_, ?_⟩
  · have : (BinaryWriter.init wm).nodeCreated = 0 := rfl
    rw [this]; omega
  · have : (BinaryWriter.init wm).nodeRemoved = -1 := rfl
    rw [this]; omega

theorem writeCalls_accepts (C : WeightCodec) (wm : Option Nat) {NF EF : Nat} (calls : List (List Rec)) (h : ValidPart calls)
    (hk : inputSize calls < 2 ^ 64)
    (hft : ∀ r ∈ calls.flatten, (r.dst = -1 → r.features.length ≤ NF) ∧ (r.dst ≠ -1 → r.features.length ≤ EF)) :
    ∃ w, writeCalls C wm calls = some w ∧ Small (inputSize calls) NF EF wm w := by
  obtain ⟨w, h1, h2⟩ := writeCalls_some C calls (small_init NF EF wm) (after_init wm) h.fits (by rw [Nat.zero_add]; exact hk)
    (by rw [List.nil_append]; exact h.types) h.lifetimes hft
  rw [Nat.zero_add] at h2
  exact ⟨w, h1, h2⟩

theorem convertPartition_bind (C : WeightCodec) (wm : Option Nat) (calls : List (List Rec)) :
    convertPartition C wm calls = (writeCalls C wm calls).bind fun w => w.close C := rfl

/-- Conversion of a partition. -/
theorem convertPartition_some (C : WeightCodec) (wm : Option Nat) {NF EF : Nat} (calls : List (List Rec)) (h : ValidPart calls)
    (hk : inputSize calls + 24 < 2 ^ 64)
    (hft : ∀ r ∈ calls.flatten, (r.dst = -1 → r.features.length ≤ NF) ∧ (r.dst ≠ -1 → r.features.length ≤ EF)) :
    ∃ f, convertPartition C wm calls = some f ∧ FilesFit f ∧ f.nodeFeatureCount ≤ NF ∧ f.edgeFeatureCount ≤ EF := by
  obtain ⟨w, h1, h2⟩ := writeCalls_accepts C wm calls h (by omega) hft
  obtain ⟨f, c1, c2, c3, c4, c5, c6, c7, c8, c9⟩ := close_some C w (by have := h2.efiPos; omega)
  obtain ⟨g1, g2, g3, g4, g5, g6, g7, g8, g9, g10, g11⟩ := h2
  refine ⟨f, (convertPartition_bind C wm calls).trans (h1 ▸ (Option.bind_some w _).trans c1), ?_, by omega, by omega⟩
  rw [FilesFit, c2, c4, c7]
  omega

end DeepGNN
