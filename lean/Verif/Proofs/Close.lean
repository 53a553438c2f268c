import Verif.Proofs.Stream
import Verif.Proofs.Query
import Verif.Spec.Built

namespace DeepGNN

/-- The edge index record the engine reads for an edge written with feature offset `x.2`. -/
def eRec (x : GEdge × Nat) : EdgeRecord :=
  { dst := x.1.dst, featOff := x.2, typ := x.1.typ, weight := x.1.weight }

/-- Records of every block. -/
def blkRecs (a : Nat) : List Blk → List (List EdgeRecord)
  | [] => []
  | b :: bs => (withOffs nfeats a b.edges).map eRec :: blkRecs (a + (b.edges.map nfeats).sum) bs

@[simp] theorem length_blkRecs (a : Nat) (bs : List Blk) : (blkRecs a bs).length = bs.length := by
  induction bs generalizing a with
  | nil => rfl
  | cons b bs ih => simp [blkRecs, ih]

theorem blkRecs_flatten (a : Nat) (bs : List Blk) :
    (blkRecs a bs).flatten = (withOffs nfeats a (allEdges bs)).map eRec := by
  induction bs generalizing a with
  | nil => rfl
  | cons b bs ih =>
    have : allEdges (b :: bs) = b.edges ++ allEdges bs := by simp [allEdges]
    rw [this, withOffs_append]
    simp [blkRecs, ih]

theorem blkRecs_lengths (a : Nat) (bs : List Blk) :
    (blkRecs a bs).map List.length = bs.map (·.edges.length) := by
  induction bs generalizing a with
  | nil => rfl
  | cons b bs ih => simp [blkRecs, ih]

/-- Feature offset at which block `k` starts. -/
def featStart (bs : List Blk) (k : Nat) : Nat := ((allEdges (bs.take k)).map nfeats).sum

theorem blkRecs_get (a : Nat) (bs : List Blk) (k : Nat) (hk : k < bs.length) :
    (blkRecs a bs)[k]'(by simpa using hk) =
      (withOffs nfeats (a + featStart bs k) bs[k].edges).map eRec := by
  induction bs generalizing a k with
  | nil => simp at hk
  | cons b bs ih =>
    cases k with
    | zero => simp [blkRecs, featStart, allEdges]
    | succ k =>
      simp only [blkRecs, List.getElem_cons_succ]
      rw [ih _ k (by simpa using hk)]
      simp [featStart, allEdges, Nat.add_assoc]

theorem mem_blkRecs {a : Nat} {bs : List Blk} {r : List EdgeRecord} (h : r ∈ blkRecs a bs) :
    ∃ b ∈ bs, ∃ o, r = (withOffs nfeats o b.edges).map eRec := by
  induction bs generalizing a with
  | nil => simp [blkRecs] at h
  | cons b bs ih =>
    simp only [blkRecs, List.mem_cons] at h
    rcases h with rfl | h
    · exact ⟨b, by simp, a, rfl⟩
    · obtain ⟨b', hb', o, ho⟩ := ih h
      exact ⟨b', by simp [hb'], o, ho⟩

theorem withOffs_mem {α} {sz : α → Nat} {a : Nat} {l : List α} {x : α × Nat}
    (h : x ∈ withOffs sz a l) : x.1 ∈ l ∧ x.2 ≤ a + (l.map sz).sum := by
  induction l generalizing a with
  | nil => simp [withOffs] at h
  | cons y ys ih =>
    simp only [withOffs, List.mem_cons] at h
    rcases h with rfl | h
    · simp
    · obtain ⟨h1, h2⟩ := ih h
      refine ⟨by simp [h1], ?_⟩
      simp only [List.map_cons, List.sum_cons]; omega

/-- Node ids and destinations fit the engine's signed 64-bit ids, weights are representable. -/
structure BlkOk (C : WeightCodec) (bs : List Blk) : Prop where
  ids : ∀ b ∈ bs, b.id < 2 ^ 63
  dsts : ∀ e ∈ allEdges bs, e.dst < 2 ^ 63
  weights : ∀ e ∈ allEdges bs, C.Valid e.weight

/-- What is in memory after loading the blocks `bs`. -/
structure Loaded (m : Meta) (p : Partition) (bs : List Blk) : Prop where
  edges : ∃ sent, LoadedEdges m p ((blkRecs 0 bs).map (runs EdgeRecord.typ)) sent ∧
    sent.featOff = (allEdgeFeats bs).length
  nodeTypes : p.nodeTypes = bs.map (·.typ)
  nodeIndex : p.nodeIndex = offsFrom 0 (bs.map (·.feats.length))
  nodeFeatureIndex : m.nodeFeatureCount ≠ 0 →
    p.nodeFeatureIndex = offsFrom 0 ((allNodeFeats bs).map featSize)
  nodeFeatures : m.nodeFeatureCount ≠ 0 → p.nodeFeatures = (allNodeFeats bs).flatMap featBytes
  noNodeFeatures : m.nodeFeatureCount = 0 → p.nodeFeatureIndex = []
  edgeFeatureIndex : m.edgeFeatureCount ≠ 0 →
    p.edgeFeatureIndex = offsFrom 0 ((allEdgeFeats bs).map featSize)
  edgeFeatures : m.edgeFeatureCount ≠ 0 → p.edgeFeatures = (allEdgeFeats bs).flatMap featBytes
  noEdgeFeatures : m.edgeFeatureCount = 0 → p.edgeFeatureIndex = []
  edgeTimestamps : 0 ≤ m.watermark → p.edgeTimestamps = (allEdges bs).map fun e => (e.created, e.removed)
  sorted : ∀ b ∈ bs, b.edges.Pairwise (fun x y => x.typ ≤ y.typ)

theorem readU64File_offs (l : List Nat) (h : ∀ x ∈ l, x < 2 ^ 64) :
    readU64File (l.flatMap cU64) = l := by
  rw [readU64File, records_flatMap (by decide) _ _ (by intros; simp), List.map_map]
  conv => rhs; rw [← List.map_id l]
  exact List.map_congr_left fun x hx => rdU64_cU64 (h x hx)

theorem offsFrom_flatMap (l : List Nat) :
    (starts 0 l).flatMap cU64 ++ cU64 l.sum = (offsFrom 0 l).flatMap cU64 := by
  simp [offsFrom]

theorem offsFrom_lt {l : List Nat} {B : Nat} (h : l.sum < B) : ∀ x ∈ offsFrom 0 l, x < B := by
  intro x hx
  simp only [offsFrom, List.mem_append, List.mem_singleton] at hx
  rcases hx with hx | rfl
  · have := starts_le 0 l x hx; omega
  · omega

theorem length_flatMap_featBytes (l : List (Option Bytes)) :
    (l.flatMap featBytes).length = (l.map featSize).sum := by
  simp [List.length_flatMap, length_featBytes, Function.comp_def]

theorem length_allEdgeFeats (bs : List Blk) :
    (allEdgeFeats bs).length = ((allEdges bs).map nfeats).sum := by
  simp [allEdgeFeats, List.length_flatMap]; rfl

theorem pairUp_flatMap {α β} (f g : α → β) (l : List α) :
    pairUp (l.flatMap fun x => [f x, g x]) = l.map fun x => (f x, g x) := by
  induction l with
  | nil => rfl
  | cons x xs ih => simp [pairUp, ih]

theorem parseEdge_edgeRecBytes (C : WeightCodec) (x : GEdge × Nat) (hx : x.2 < 2 ^ 64) :
    (parseEdge C (edgeRecBytes C x)).featOff = x.2 ∧
    ((0 ≤ x.1.dst ∧ x.1.dst < 2 ^ 63) → (0 ≤ x.1.typ ∧ x.1.typ < 2 ^ 31) → C.Valid x.1.weight →
      parseEdge C (edgeRecBytes C x) = eRec x) := by
  have h1 : (edgeRecBytes C x).take 8 = leBytes 8 x.1.dst.toNat := by
    simp only [edgeRecBytes, List.append_assoc]
    rw [List.take_append_of_le_length (by simp), List.take_of_length_le (by simp)]
  have h2 : ((edgeRecBytes C x).drop 8).take 8 = leBytes 8 x.2 := by
    simp only [edgeRecBytes, List.append_assoc]
    rw [List.drop_append_of_le_length (by simp), List.drop_of_length_le (l := leBytes 8 _) (by simp),
      List.nil_append, List.take_append_of_le_length (by simp), List.take_of_length_le (by simp)]
  have h3 : ((edgeRecBytes C x).drop 16).take 4 = leBytes 4 (x.1.typ % 2 ^ 32).toNat := by
    simp only [edgeRecBytes]
    rw [List.append_assoc (leBytes 8 _ ++ leBytes 8 _), List.drop_append_of_le_length (by simp),
      List.drop_of_length_le (l := leBytes 8 _ ++ _) (by simp),
      List.nil_append, List.take_append_of_le_length (by simp), List.take_of_length_le (by simp)]
  have h4 : (edgeRecBytes C x).drop 20 = C.enc x.1.weight := by
    simp only [edgeRecBytes]
    rw [List.drop_append_of_le_length (by simp), List.drop_of_length_le (by simp), List.nil_append]
  refine ⟨?_, ?_⟩
  · simp only [parseEdge, h2, rdU64_leBytes hx]
  · intro hd ht hv
    simp only [parseEdge, h1, h2, h3, h4, rdU64_leBytes hx, rdI64_leBytes_nat hd.1 hd.2,
      rdI32_leBytes (v := x.1.typ) (by omega) ht.2, C.round _ hv, eRec]

/-- Loading the files of a closed writer. -/
theorem load_close {C : WeightCodec} {w : BinaryWriter} {f : PartitionFiles} {bs S N I}
    (h : WS C w bs S N I) (hc : w.close C = some f) (hfit : FilesFit f) (hok : BlkOk C bs)
    (m : Meta) (hm : 0 ≤ m.watermark → w.edge.watermark ≠ none) :
    parseNodeMap f.nodeMap = bs.zipIdx.map (fun x => (x.1.id, x.2)) ∧
    ∃ p, loadPartition C m f = some p ∧ Loaded m p bs := by
  obtain ⟨hw, hs, -⟩ := h
  simp only [BinaryWriter.close, EdgeWriter.close, Option.bind_eq_bind, Option.bind_eq_some_iff,
    Option.pure_def, Option.some.injEq] at hc
  obtain ⟨e', ⟨r, hr, rfl⟩, rfl⟩ := hc
  obtain ⟨fnm, fnfi, fnfd, fei, fefi, fefd⟩ := hfit
  simp only [packEdge, Option.bind_eq_bind, Option.bind_eq_some_iff, Option.pure_def,
    Option.some.injEq] at hr
  obtain ⟨ra, hra, rb, hrb, rc, hrc, rfl⟩ := hr
  rw [packQ_eq_some] at hra hrb
  rw [packI32_eq_some] at hrc
  obtain ⟨-, rfl⟩ := hra
  obtain ⟨hrb, rfl⟩ := hrb
  obtain ⟨-, rfl⟩ := hrc
  -- sizes
  have hnm : bs.length * 20 < 2 ^ 64 := by
    rw [← List.length_zipIdx (l := bs) (i := 0),
      ← length_flatMap_const _ _ (fun x _ => length_nodeRecBytes x), ← hw.nm]; exact fnm
  have hei : (allEdges bs).length * 24 < 2 ^ 64 := by
    rw [← length_withOffs nfeats 0 (allEdges bs),
      ← length_flatMap_const _ _ (fun x _ => length_edgeRecBytes C x), ← hw.ei]
    simp only [List.length_append] at fei; omega
  have hnfi : (allNodeFeats bs).length * 8 < 2 ^ 64 := by
    simp only [NodeFeatureWriter.close, hw.nfi, List.length_append, length_flatMap_cU64, length_starts,
      List.length_map] at fnfi
    omega
  have hnfd : ((allNodeFeats bs).map featSize).sum < 2 ^ 64 := by
    rw [← length_flatMap_featBytes, ← hw.nfd]; exact fnfd
  have hefd : ((allEdgeFeats bs).map featSize).sum < 2 ^ 64 := by
    rw [← length_flatMap_featBytes, ← hw.efd]; exact fefd
  have hefi : (allEdgeFeats bs).length * 8 < 2 ^ 64 := by
    simp only [hw.efi, List.length_append, length_flatMap_cU64, length_starts, List.length_map] at fefi
    omega
  have hefiPos : w.edge.efiPos / 8 = (allEdgeFeats bs).length := by rw [hw.efiPos]; omega
  have hzip : ∀ x ∈ bs.zipIdx, x.2 < 2 ^ 64 := by
    intro x hx
    have hx2 := List.snd_lt_of_mem_zipIdx hx
    omega
  have hrecNode : records 20 w.node.nm = bs.zipIdx.map nodeRecBytes := by
    rw [hw.nm, records_flatMap (by decide) _ _ (fun x _ => length_nodeRecBytes x)]
  refine ⟨?_, ?_⟩
  · simp only [parseNodeMap, hrecNode, List.map_map]
    apply List.map_congr_left
    intro x hx
    have hxm : x.1 ∈ bs := (List.mem_iff_getElem.2 ⟨x.2, by
      have := List.snd_lt_of_mem_zipIdx hx; simpa using this, by
      have := List.mem_zipIdx hx; simpa using this.2.2.symm⟩)
    simp only [Function.comp, nodeRecBytes, List.append_assoc]
    rw [List.take_append_of_le_length (by simp), List.take_of_length_le (by simp),
      List.drop_append_of_le_length (by simp), List.drop_of_length_le (l := leBytes 8 _) (by simp),
      List.nil_append, List.take_append_of_le_length (by simp), List.take_of_length_le (by simp)]
    rw [rdI64_leBytes_nat (hw.idRange _ hxm).1 (hok.ids _ hxm), rdU64_leBytes (hzip x hx)]
  -- the partition
  · have hTypes : readNodeTypes w.node.nm = bs.map (·.typ) := by
      simp only [readNodeTypes, hrecNode, List.map_map]
      have : bs.map (·.typ) = bs.zipIdx.map (fun x => x.1.typ) := by
        rw [← List.zipIdx_map_fst 0 bs, List.map_map]; simp [Function.comp_def]
      rw [this]
      apply List.map_congr_left
      intro x hx
      have hxm : x.1 ∈ bs := (List.mem_iff_getElem.2 ⟨x.2, by
        have := List.snd_lt_of_mem_zipIdx hx; simpa using this, by
        have := List.mem_zipIdx hx; simpa using this.2.2.symm⟩)
      simp only [Function.comp, nodeRecBytes]
      rw [List.drop_append_of_le_length (by simp), List.drop_of_length_le (l := leBytes 8 _ ++ _) (by simp),
        List.nil_append, List.take_of_length_le (by simp)]
      exact rdI32_leBytes (hw.typRange _ hxm).1 (hw.typRange _ hxm).2
    have hNi : readU64File (w.node.fw.close).ni = offsFrom 0 (bs.map (·.feats.length)) := by
      simp only [NodeFeatureWriter.close, hw.ni, hw.nfi, length_flatMap_cU64, length_starts,
        List.length_map]
      rw [show (allNodeFeats bs).length * 8 / 8 = (bs.map (·.feats.length)).sum by
        rw [← length_allNodeFeats]; omega, offsFrom_flatMap, readU64File_offs]
      apply offsFrom_lt
      rw [← length_allNodeFeats]; omega
    have hNfi : readU64File (w.node.fw.close).nfi = offsFrom 0 ((allNodeFeats bs).map featSize) := by
      simp only [NodeFeatureWriter.close, hw.nfi, hw.nfdPos]
      rw [offsFrom_flatMap, readU64File_offs _ (offsFrom_lt hnfd)]
    have hEfi : readU64File (w.edge.fw.efi ++ cU64 w.edge.fw.efdPos) =
        offsFrom 0 ((allEdgeFeats bs).map featSize) := by
      rw [hw.efi, hw.efdPos, offsFrom_flatMap, readU64File_offs _ (offsFrom_lt hefd)]
    have hNbi : readU64File (w.edge.nbi ++ cU64 (w.edge.ei.length / edgeRecordSize)) =
        offsFrom 0 ((blkRecs 0 bs).map List.length) := by
      rw [blkRecs_lengths, hw.nbi, hw.ei, length_flatMap_const _ _ (fun x _ => length_edgeRecBytes C x),
        length_withOffs]
      rw [show (allEdges bs).length * 24 / edgeRecordSize = (bs.map (·.edges.length)).sum by
        rw [← length_allEdges]; simp only [edgeRecordSize]; omega, offsFrom_flatMap, readU64File_offs]
      apply offsFrom_lt
      rw [← length_allEdges]; omega
    have hEi : ∃ sent, (records 24 (w.edge.ei ++ (leBytes 8 (0 : Int).toNat ++
        leBytes 8 ((w.edge.efiPos / 8 : Nat) : Int).toNat ++ leBytes 4 ((0 : Int) % 2 ^ 32).toNat ++
        C.enc (-1)))).map (parseEdge C) =
        (blkRecs 0 bs).flatten ++ [sent] ∧ sent.featOff = (allEdgeFeats bs).length := by
      obtain ⟨last, hlast⟩ : ∃ last : GEdge × Nat, last = (⟨0, 0, -1, [], 0, 0⟩, (allEdgeFeats bs).length) := ⟨_, rfl⟩
      have : w.edge.ei ++ (leBytes 8 (0 : Int).toNat ++
          leBytes 8 ((w.edge.efiPos / 8 : Nat) : Int).toNat ++ leBytes 4 ((0 : Int) % 2 ^ 32).toNat ++
          C.enc (-1)) = (withOffs nfeats 0 (allEdges bs) ++ [last]).flatMap (edgeRecBytes C) := by
        rw [hw.ei, hefiPos]; simp [edgeRecBytes, hlast]
      rw [this, records_flatMap (by decide) _ _ (fun x _ => length_edgeRecBytes C x)]
      refine ⟨parseEdge C (edgeRecBytes C last), ?_, ?_⟩
      · rw [blkRecs_flatten]
        simp only [List.map_append, List.map_map, List.map_cons, List.map_nil]
        rw [List.append_cancel_right_eq]
        apply List.map_congr_left
        intro x hx
        obtain ⟨hx1, hx2⟩ := withOffs_mem hx
        rw [← length_allEdgeFeats] at hx2
        exact (parseEdge_edgeRecBytes C x (by omega)).2 ⟨(hw.dstRange _ hx1).1, hok.dsts _ hx1⟩ (hw.etypRange _ hx1)
          (hok.weights _ hx1)
      · rw [(parseEdge_edgeRecBytes C last (by simp only [hlast]; omega)).1, hlast]
    obtain ⟨sent, hEi, hsent⟩ := hEi
    have hTs : w.edge.watermark ≠ none →
        readTimestamps w.edge.eti = (allEdges bs).map fun e => (e.created, e.removed) := by
      intro hne
      have he := hw.eti
      cases hwm : w.edge.watermark with
      | none => exact absurd hwm hne
      | some t =>
        rw [hwm] at he
        simp only at he
        have htb : (allEdges bs).flatMap tsBytes = ((allEdges bs).flatMap fun e =>
            [leBytes 8 (e.created % 2 ^ 64).toNat, leBytes 8 (e.removed % 2 ^ 64).toNat]).flatMap id := by
          rw [List.flatMap_assoc]
          congr 1
        rw [readTimestamps, he, records_append (by decide) _ _ (by simp), htb,
          records_flatMap (by decide)]
        · simp only [List.map_cons, List.drop_succ_cons, List.drop_zero, List.map_flatMap, List.map_nil,
            id]
          rw [pairUp_flatMap]
          apply List.map_congr_left
          intro e hme
          obtain ⟨t1, t2⟩ := hw.times hne e hme
          rw [rdI64_leBytes t1.1 t1.2, rdI64_leBytes t2.1 t2.2]
        · intro x hx
          obtain ⟨e, -, hx⟩ := List.mem_flatMap.1 hx
          simp only [List.mem_cons, List.not_mem_nil, or_false] at hx
          rcases hx with rfl | rfl <;> simp
    have hsortedRecs : ∀ r ∈ blkRecs 0 bs, r.Pairwise (fun x y => x.typ ≤ y.typ) := by
      intro r hr
      obtain ⟨b, hb, o, rfl⟩ := mem_blkRecs hr
      rw [List.pairwise_map]
      have := hw.sorted b hb
      rw [← map_fst_withOffs nfeats o b.edges, List.pairwise_map] at this
      exact this
    have h0Recs : ∀ r ∈ blkRecs 0 bs, ∀ e ∈ r, 0 ≤ e.typ := by
      intro r hr e he
      obtain ⟨b, hb, o, rfl⟩ := mem_blkRecs hr
      obtain ⟨x, hx, rfl⟩ := List.mem_map.1 he
      have := (withOffs_mem hx).1
      exact (hw.etypRange x.1 (List.mem_flatMap.2 ⟨b, hb, this⟩)).1
    simp only [loadPartition, hTypes, hNi, hNfi, hEfi, hNbi, hEi, Option.bind_eq_bind]
    have hcore := fun p hp => readEdgeIndex_loaded m (blkRecs 0 bs) sent hsortedRecs h0Recs p hp
    have hedges : ∀ {q p' : Partition}, LoadedEdges m q ((blkRecs 0 bs).map (runs EdgeRecord.typ)) sent →
        p'.neighborsIndex = q.neighborsIndex → p'.edgeTypes = q.edgeTypes →
        p'.edgeTypeOffset = q.edgeTypeOffset → p'.edgeDst = q.edgeDst →
        p'.edgeWeights = q.edgeWeights → p'.edgeFeatureOffset = q.edgeFeatureOffset →
        LoadedEdges m p' ((blkRecs 0 bs).map (runs EdgeRecord.typ)) sent := by
      intro q p' hq a1 a2 a3 a4 a5 a6
      exact ⟨a1.trans hq.1, a2.trans hq.2, a3.trans hq.3, a4.trans hq.4, a5.trans hq.5, a6.trans hq.6⟩
    by_cases hn0 : m.nodeFeatureCount = 0
    · obtain ⟨q, hq, hl, q1, q2, q3, q4, q5, q6, q7⟩ := hcore
        { nodeTypes := bs.map (·.typ), nodeIndex := offsFrom 0 (bs.map (·.feats.length)) }
        ⟨rfl, rfl, rfl, rfl, rfl, rfl⟩
      simp only [hn0, if_true, hq, Option.bind_some]
      refine ⟨_, rfl, ?_⟩
      by_cases hwm : m.watermark ≥ 0 <;> by_cases he0 : m.edgeFeatureCount > 0 <;>
        simp only [hwm, he0, if_true, if_false]
      all_goals
        refine ⟨⟨sent, hedges hl rfl rfl rfl rfl rfl rfl, hsent⟩, q1, q2, fun h => absurd hn0 h,
          fun h => absurd hn0 h, fun _ => q3, ?_, ?_, ?_, ?_, hw.sorted⟩
      all_goals first
        | exact fun _ => hTs (hm hwm)
        | exact fun _ => rfl
        | exact fun _ => hw.efd
        | exact fun h => absurd h hwm
        | exact fun _ => q5
        | exact fun h => absurd h (by omega)
    · obtain ⟨q, hq, hl, q1, q2, q3, q4, q5, q6, q7⟩ := hcore
        { nodeTypes := bs.map (·.typ), nodeIndex := offsFrom 0 (bs.map (·.feats.length)),
          nodeFeatureIndex := offsFrom 0 ((allNodeFeats bs).map featSize),
          nodeFeatures := (allNodeFeats bs).flatMap featBytes }
        ⟨rfl, rfl, rfl, rfl, rfl, rfl⟩
      simp only [hn0, if_false, NodeFeatureWriter.close, hw.nfd, hq, Option.bind_some]
      refine ⟨_, rfl, ?_⟩
      by_cases hwm : m.watermark ≥ 0 <;> by_cases he0 : m.edgeFeatureCount > 0 <;>
        simp only [hwm, he0, if_true, if_false]
      all_goals
        refine ⟨⟨sent, hedges hl rfl rfl rfl rfl rfl rfl, hsent⟩, q1, q2, fun _ => q3,
          fun _ => q4, fun h => absurd h hn0, ?_, ?_, ?_, ?_, hw.sorted⟩
      all_goals first
        | exact fun _ => hTs (hm hwm)
        | exact fun _ => rfl
        | exact fun _ => hw.efd
        | exact fun h => absurd h hwm
        | exact fun _ => q5
        | exact fun h => absurd h (by omega)

end DeepGNN
