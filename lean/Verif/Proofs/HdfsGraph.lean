import Verif.Model.HdfsGraph
import Verif.Proofs.Folders
import Verif.Props.C47

namespace DeepGNN.HdfsGraph

open DeepGNN Download Folders Stream

/-! Bytes that arrive. -/

theorem slices_flatten : ∀ (sizes : List Nat) (file : Bytes), (Spec.slices file sizes).flatten = file.take sizes.sum
  | [], _ => by simp [Spec.slices]
  | n :: ns, file => by
    rw [Spec.slices, List.flatten_cons, slices_flatten ns, List.sum_cons, List.take_add]

theorem stream_bytes {o : Opening} (hg : o.garbage.length = bufferSize) {sizes : List Nat} {file b : Bytes}
    (hs : sizes.sum ≤ file.length) (h : stream o sizes file = some b) : b = file.take sizes.sum := by
  unfold stream at h
  rw [Option.map_eq_some_iff] at h
  obtain ⟨⟨out, s⟩, h1, h2⟩ := h
  rw [← h2, C47_bytes file o.garbage hg o.reader sizes hs h1, slices_flatten]

theorem read_first {o : Opening} (hr : Reliable o.reader) (n : Nat) {file : Bytes} (hs : n ≤ file.length) :
    ∃ r, Stream.read bufferSize file o.reader n (opened bufferSize o.garbage) = some r := by
  rw [Stream.read]
  simp only [Stream.opened, start, Nat.sub_self, Nat.sub_zero]
  split
  · obtain ⟨r, h⟩ := connRead_some (cap := bufferSize) (by decide) hr (file := file) (h := ⟨0, 0⟩) (Nat.le_refl n) (by simpa using hs)
    rw [h]; exact ⟨_, rfl⟩
  · rename_i hsmall
    split
    · rename_i ht
      exfalso; omega
    · split
      · rw [memcpyFront, if_neg (by omega), Option.bind_some, if_neg (by simp only [bufferSize]; omega)]
        obtain ⟨r, h⟩ := connRead_some (cap := bufferSize) (by decide) hr (file := file) (h := ⟨0, 0⟩)
          (Nat.le_refl (min bufferSize file.length)) (by show 0 + _ ≤ _; omega)
        rw [h]; exact ⟨_, rfl⟩
      · exact ⟨_, rfl⟩

theorem stream_some {o : Opening} (hg : o.garbage.length = bufferSize) (hr : Reliable o.reader) {sizes : List Nat} {file : Bytes}
    (hs : sizes.sum ≤ file.length) (ho : (∃ n, sizes = [n]) ∨ ∀ n ∈ sizes, n ≤ 2049) :
    stream o sizes file = some (file.take sizes.sum) := by
  have : ∃ b, stream o sizes file = some b := by
    rcases ho with ⟨n, rfl⟩ | ho
    · obtain ⟨r, h⟩ := read_first hr n (by simpa using hs)
      exact ⟨[r.1].flatten, by unfold stream; simp only [readAll]; rw [h]; rfl⟩
    · obtain ⟨s, h⟩ := C47_reads_partial file o.garbage hg hr sizes hs (fun n hn => .inl (ho n hn))
      exact ⟨_, by unfold stream; rw [h]; rfl⟩
  obtain ⟨b, hb⟩ := this
  rw [hb, stream_bytes hg hs hb]

theorem whole_bytes {o : Opening} {file b : Bytes} (h : whole o file = some b) : b = file := by
  unfold whole at h
  rw [Option.map_eq_some_iff] at h
  obtain ⟨⟨out, s⟩, h1, h2⟩ := h
  have := (connRead_spec h1).1
  simp only at h2
  rw [← h2, this]; simp

theorem whole_some {o : Opening} (hr : Reliable o.reader) (file : Bytes) : whole o file = some file := by
  have : ∃ b, whole o file = some b := by
    obtain ⟨r, h⟩ := connRead_some (cap := bufferSize) (by decide) hr (file := file) (h := ⟨0, 0⟩) (Nat.le_refl file.length)
      (by show 0 + _ ≤ _; omega)
    exact ⟨_, by unfold whole; rw [h]; rfl⟩
  obtain ⟨b, hb⟩ := this
  rw [hb, whole_bytes hb]

/-! Records. -/

theorem records_take {k : Nat} (hk : 0 < k) : ∀ (n : Nat) (b : Bytes), records k (b.take (k * n)) = (records k b).take n
  | 0, b => by simp [records_nil]
  | n + 1, b => by
    rw [records, records.eq_1 k b]
    by_cases hb : b.length < k
    · rw [dif_pos (.inr (by rw [List.length_take]; omega)), dif_pos (.inr hb), List.take_nil]
    · have e : k * (n + 1) = k + k * n := by rw [Nat.mul_add, Nat.mul_one, Nat.add_comm]
      rw [dif_neg (by rw [List.length_take, e]; omega), dif_neg (by omega), List.take_succ_cons, ← records_take hk n,
        List.take_take, Nat.min_eq_left (by omega), List.drop_take]
      congr 2
      congr 1
      omega

theorem records_length {k : Nat} (hk : 0 < k) : ∀ (n : Nat) (b : Bytes), b.length / k = n → (records k b).length = n
  | 0, b, h => by
    rw [records, dif_pos (.inr ((Nat.div_eq_zero_iff_lt hk).1 h))]; rfl
  | n + 1, b, h => by
    have h0 : k ≤ b.length := Nat.le_of_not_lt fun h' => by rw [Nat.div_eq_of_lt h'] at h; cases h
    rw [records, dif_neg (by omega), List.length_cons, records_length hk n]
    rw [List.length_drop]
    have := Nat.sub_mul_div b.length k 1
    rw [Nat.mul_one] at this
    rw [this, h]; rfl

theorem records_all {k : Nat} (hk : 0 < k) (b : Bytes) : records k (b.take (k * (b.length / k))) = records k b := by
  rw [records_take hk, List.take_of_length_le (Nat.le_of_eq (records_length hk _ b rfl))]

theorem nodeMapReads_sum (size : Nat) : (nodeMapReads size).sum = 20 * (size / 20) := by
  unfold nodeMapReads
  generalize size / 20 = n
  induction n with
  | zero => rfl
  | succ n ih => rw [List.replicate_succ, List.flatten_cons, List.sum_append, ih]; simp; omega

theorem replicate_sum (n k : Nat) : (List.replicate n k).sum = n * k := by
  induction n with
  | zero => simp
  | succ n ih => rw [List.replicate_succ, List.sum_cons, ih, Nat.add_mul]; omega

theorem readEdgeIndex_take {m : Meta} : ∀ (idx : List Nat) (es : List EdgeRecord) (p q : Partition),
    readEdgeIndex m idx es p = some q →
    edgeCount idx + 1 ≤ es.length ∧ readEdgeIndex m idx (es.take (edgeCount idx + 1)) p = some q
  | [], es, p, q, h => by simp [readEdgeIndex] at h
  | [a], [], p, q, h => by simp [readEdgeIndex] at h
  | [a], e :: es, p, q, h => by
    have e0 : edgeCount [a] = 0 := rfl
    rw [e0]
    refine ⟨by simp, ?_⟩
    rw [readEdgeIndex] at h
    rw [List.take_succ_cons, readEdgeIndex]
    exact h
  | a :: b :: idx, es, p, q, h => by
    rw [readEdgeIndex] at h
    split at h
    · cases h
    · rename_i hl
      obtain ⟨h1, h2⟩ := readEdgeIndex_take (b :: idx) _ _ _ h
      rw [List.length_drop] at h1
      refine ⟨by simp only [edgeCount]; omega, ?_⟩
      rw [readEdgeIndex]
      rw [if_neg (by rw [List.length_take]; simp only [edgeCount]; omega), List.take_take, List.drop_take, ← h2]
      simp only [edgeCount]
      congr 2
      · congr 1; omega
      · congr 1; omega

theorem pairUp_take {α} : ∀ (n : Nat) (l : List α), l.length / 2 = n → pairUp (l.take (2 * n)) = pairUp l
  | 0, [], _ => rfl
  | 0, [a], _ => rfl
  | 0, a :: b :: l, h => by simp at h; omega
  | n + 1, [], h => by simp at h
  | n + 1, [a], h => by simp at h
  | n + 1, a :: b :: l, h => by
    have e : 2 * (n + 1) = 2 * n + 1 + 1 := by omega
    rw [e, List.take_succ_cons, List.take_succ_cons, pairUp, pairUp, pairUp_take n l]
    simp at h; omega

theorem timestampReads_sum_le (size : Nat) : (timestampReads size).sum ≤ size := by
  unfold timestampReads
  split
  · simp
  · rw [replicate_sum]; omega

theorem readTimestamps_take (b : Bytes) : readTimestamps (b.take (timestampReads b.length).sum) = readTimestamps b := by
  have hl := records_length (k := 8) (by decide) _ b rfl
  unfold timestampReads
  split
  · rename_i h0
    rw [h0] at hl
    have : records 8 b = [] := List.eq_nil_of_length_eq_zero hl
    unfold readTimestamps
    rw [this]
    simp [records_nil]
  · rename_i h0
    unfold readTimestamps
    rw [replicate_sum, Nat.mul_comm, records_take (by decide)]
    rw [← pairUp_take _ (List.drop 1 (List.map rdI64 (records 8 b))) rfl]
    congr 1
    rw [List.map_take, List.drop_take, List.length_drop, List.length_map, hl]
    congr 1
    omega

/-- The files as they arrive. -/
def arrived (m : Meta) (f : PartitionFiles) : PartitionFiles where
  nodeMap := f.nodeMap.take (20 * (f.nodeMap.length / 20))
  nodeIndex := f.nodeIndex.take (8 * (f.nodeIndex.length / 8))
  nodeFeatureIndex := if m.nodeFeatureCount = 0 then [] else f.nodeFeatureIndex.take (8 * (f.nodeFeatureIndex.length / 8))
  nodeFeatureData := if m.nodeFeatureCount = 0 then [] else f.nodeFeatureData
  neighborsIndex := f.neighborsIndex.take (8 * (f.neighborsIndex.length / 8))
  edgeIndex := f.edgeIndex.take (24 * (edgeCount (readU64File f.neighborsIndex) + 1))
  edgeFeatureIndex := if m.edgeFeatureCount > 0 then f.edgeFeatureIndex else []
  edgeFeatureData := if m.edgeFeatureCount > 0 then f.edgeFeatureData else []
  edgeTimestamps := if m.watermark ≥ 0 then f.edgeTimestamps.take (timestampReads f.edgeTimestamps.length).sum else []
  nodeFeatureCount := m.nodeFeatureCount
  edgeFeatureCount := m.edgeFeatureCount

theorem readU64File_take (b : Bytes) : readU64File (b.take (8 * (b.length / 8))) = readU64File b := by
  unfold readU64File; rw [records_all (by decide)]

theorem loadPartition_arrived {C : WeightCodec} {m : Meta} {f : PartitionFiles} {p : Partition} (h : loadPartition C m f = some p) :
    24 * (edgeCount (readU64File f.neighborsIndex) + 1) ≤ f.edgeIndex.length ∧ loadPartition C m (arrived m f) = some p := by
  unfold loadPartition at h
  simp only [Option.bind_eq_bind, Option.bind_eq_some_iff] at h
  obtain ⟨q, h1, h2⟩ := h
  obtain ⟨h3, h4⟩ := readEdgeIndex_take _ _ _ _ h1
  rw [List.length_map, records_length (by decide) _ _ rfl] at h3
  refine ⟨by omega, ?_⟩
  unfold loadPartition
  have e1 : readNodeTypes (arrived m f).nodeMap = readNodeTypes f.nodeMap := by
    unfold readNodeTypes arrived; simp only; rw [records_all (by decide)]
  have e2 : readU64File (arrived m f).nodeIndex = readU64File f.nodeIndex := readU64File_take _
  have e3 : readU64File (arrived m f).neighborsIndex = readU64File f.neighborsIndex := readU64File_take _
  have e4 : (records 24 (arrived m f).edgeIndex).map (parseEdge C) =
      ((records 24 f.edgeIndex).map (parseEdge C)).take (edgeCount (readU64File f.neighborsIndex) + 1) := by
    unfold arrived; simp only; rw [records_take (by decide), List.map_take]
  simp only [Option.bind_eq_bind, Option.bind_eq_some_iff, e1, e2, e3, e4]
  refine ⟨q, ?_, ?_⟩
  · rw [← h4]
    by_cases h1 : m.nodeFeatureCount = 0 <;> simp only [arrived, h1, if_true, if_false, readU64File_take]
  · rw [← h2]
    by_cases h2 : m.watermark ≥ 0 <;> by_cases h3 : m.edgeFeatureCount > 0 <;>
      simp only [arrived, h2, h3, if_true, if_false, readTimestamps_take]

theorem loadSuffixes_arrived (C : WeightCodec) (m : Meta) (i : Nat) : ∀ (fs : List PartitionFiles) (g g' : Graph),
    g.loadSuffixes C m i fs = some g' → (∀ f ∈ fs, ∃ p, loadPartition C m f = some p) ∧ g.loadSuffixes C m i (fs.map (arrived m)) = some g'
  | [], _, _, h => ⟨by simp, h⟩
  | f :: fs, g, g', h => by
    unfold Graph.loadSuffixes at h ⊢
    rw [List.foldlM_cons] at h
    rw [Option.bind_eq_bind, Option.bind_eq_some_iff] at h
    obtain ⟨g1, h1, h2⟩ := h
    rw [Option.bind_eq_bind, Option.bind_eq_some_iff] at h1
    obtain ⟨p, hp, h1⟩ := h1
    obtain ⟨h3, h4⟩ := loadSuffixes_arrived C m i fs g1 g' h2
    refine ⟨fun f' hf' => ?_, ?_⟩
    · rcases List.mem_cons.1 hf' with rfl | hf'
      · exact ⟨p, hp⟩
      · exact h3 f' hf'
    · rw [List.map_cons, List.foldlM_cons, (loadPartition_arrived hp).2]
      have e : ∀ g : Graph, g.readNodeMap (arrived m f).nodeMap i = g.readNodeMap f.nodeMap i := by
        intro g
        unfold Graph.readNodeMap parseNodeMap arrived
        simp only
        rw [records_all (by decide)]
      rw [Option.bind_eq_bind, Option.bind_eq_some_iff]
      refine ⟨g1, ?_, h4⟩
      rw [Option.bind_eq_bind, Option.bind_some, e]
      exact h1

theorem loadGraph_arrived {C : WeightCodec} {m : Meta} {fss : List (List PartitionFiles)} {g : Graph} (h : loadGraph C m fss = some g) :
    (∀ fs ∈ fss, ∀ f ∈ fs, ∃ p, loadPartition C m f = some p) ∧ loadGraph C m (fss.map fun fs => fs.map (arrived m)) = some g := by
  unfold loadGraph at h ⊢
  suffices H : ∀ (fss : List (List PartitionFiles)) (k : Nat) (g0 : Graph),
      (fss.zipIdx k).foldlM (fun g (x : List PartitionFiles × Nat) => g.loadSuffixes C m x.2 x.1) g0 = some g →
      (∀ fs ∈ fss, ∀ f ∈ fs, ∃ p, loadPartition C m f = some p) ∧
      ((fss.map fun fs => fs.map (arrived m)).zipIdx k).foldlM (fun g (x : List PartitionFiles × Nat) => g.loadSuffixes C m x.2 x.1) g0 =
        some g from H fss 0 {} h
  clear h
  intro fss
  induction fss with
  | nil => intro k g0 h; exact ⟨by simp, h⟩
  | cons fs fss ih =>
    intro k g0 h
    rw [List.zipIdx_cons, List.foldlM_cons, Option.bind_eq_bind, Option.bind_eq_some_iff] at h
    obtain ⟨g1, h1, h2⟩ := h
    obtain ⟨h3, h4⟩ := loadSuffixes_arrived C m k fs g0 g1 h1
    obtain ⟨h5, h6⟩ := ih (k + 1) g1 h2
    refine ⟨fun fs' hf' => ?_, ?_⟩
    · rcases List.mem_cons.1 hf' with rfl | hf'
      · exact h3
      · exact h5 fs' hf'
    · rw [List.map_cons, List.zipIdx_cons, List.foldlM_cons]
      simp only
      rw [h4]
      exact h6

end DeepGNN.HdfsGraph

namespace DeepGNN.HdfsGraph

open DeepGNN Download Folders Stream

/-- Every reading that succeeds gives the files as they are, and with a reliable file system it succeeds. -/
theorem streamFiles_arrived {C : WeightCodec} {net : Name → Bool → Opening} (hg : ∀ n b, (net n b).garbage.length = bufferSize) {m : Meta}
    {folder : Name} {d : Dir Bytes} {s : Name} {f : PartitionFiles} {p : Partition} (hf : filesOf m d s = some f)
    (hp : loadPartition C m f = some p) :
    (∀ f', streamFiles net m folder d s = some f' → f' = arrived m f) ∧
    ((∀ n b, Reliable (net n b).reader) → streamFiles net m folder d s = some (arrived m f)) := by
  have he := (loadPartition_arrived hp).1
  have s1 : (nodeMapReads f.nodeMap.length).sum ≤ f.nodeMap.length := by rw [nodeMapReads_sum]; omega
  have s2 : ∀ b : Bytes, (numberReads b.length).sum ≤ b.length := by intro b; simp [numberReads]; omega
  have s3 : ∀ b : Bytes, (numberReads b.length).sum = 8 * (b.length / 8) := by intro b; simp [numberReads]
  have s4 : ∀ b : Bytes, (byteReads b.length).sum = b.length := by intro b; simp [byteReads]
  have s5 := timestampReads_sum_le f.edgeTimestamps.length
  have s6 : (edgeReads (readU64File f.neighborsIndex)).sum = 24 * (edgeCount (readU64File f.neighborsIndex) + 1) := by
    unfold edgeReads; rw [replicate_sum, Nat.mul_comm]
  have t2 : ∀ b : Bytes, b.take (numberReads b.length).sum = b.take (8 * (b.length / 8)) := by intro b; rw [s3]
  have t4 : ∀ b : Bytes, b.take (byteReads b.length).sum = b := by intro b; rw [s4]; exact List.take_of_length_le (Nat.le_refl _)
  have small : ∀ n ∈ nodeMapReads f.nodeMap.length, n ≤ 2049 := by
    intro n hn
    unfold nodeMapReads at hn
    rw [List.mem_flatten] at hn
    obtain ⟨l, hl, hn⟩ := hn
    rw [List.mem_replicate] at hl
    rw [hl.2] at hn
    simp only [List.mem_cons, List.not_mem_nil, or_false] at hn
    omega
  have smallE : ∀ n ∈ edgeReads (readU64File f.neighborsIndex), n ≤ 2049 := by
    intro n hn
    unfold edgeReads at hn
    have := (List.mem_replicate.1 hn).2
    omega
  have smallT : ∀ n ∈ timestampReads f.edgeTimestamps.length, n ≤ 2049 := by
    intro n hn
    unfold timestampReads at hn
    split at hn
    · cases hn
    · have := (List.mem_replicate.1 hn).2
      omega
  constructor
  · intro f' h
    unfold streamFiles at h
    rw [hf, Option.bind_some, Option.bind_eq_some_iff] at h
    obtain ⟨nm, h1, h⟩ := h
    rw [Option.bind_eq_some_iff] at h
    obtain ⟨nm', h2, h⟩ := h
    split at h
    · cases h
    rw [Option.bind_eq_some_iff] at h
    obtain ⟨ni, h3, h⟩ := h
    rw [Option.bind_eq_some_iff] at h
    obtain ⟨nfi, h4, h⟩ := h
    rw [Option.bind_eq_some_iff] at h
    obtain ⟨nfd, h5, h⟩ := h
    rw [Option.bind_eq_some_iff] at h
    obtain ⟨nb, h6, h⟩ := h
    rw [Option.bind_eq_some_iff] at h
    obtain ⟨ei, h7, h⟩ := h
    rw [Option.bind_eq_some_iff] at h
    obtain ⟨ts, h8, h⟩ := h
    rw [Option.bind_eq_some_iff] at h
    obtain ⟨efi, h9, h⟩ := h
    rw [Option.map_eq_some_iff] at h
    obtain ⟨efd, h10, h⟩ := h
    have e1 := stream_bytes (hg _ _) s1 h1
    have e3 := stream_bytes (hg _ _) (s2 _) h3
    have e6 := stream_bytes (hg _ _) (s2 _) h6
    rw [t2] at e6
    rw [e6, readU64File_take] at h7
    have e7 := stream_bytes (hg _ _) (by rw [s6]; exact he) h7
    rw [nodeMapReads_sum] at e1
    rw [t2] at e3
    rw [s6] at e7
    have e4 : nfi = (arrived m f).nodeFeatureIndex := by
      unfold arrived
      simp only
      split at h4
      · rename_i h0; rw [if_pos h0]; exact (Option.some.inj h4).symm
      · rename_i h0; rw [if_neg h0, stream_bytes (hg _ _) (s2 _) h4, t2]
    have e5 : nfd = (arrived m f).nodeFeatureData := by
      unfold arrived
      simp only
      split at h5
      · rename_i h0; rw [if_pos h0]; exact (Option.some.inj h5).symm
      · rename_i h0; rw [if_neg h0, whole_bytes h5]
    have e8 : ts = (arrived m f).edgeTimestamps := by
      unfold arrived
      simp only
      split at h8
      · rename_i h0; rw [if_pos h0, stream_bytes (hg _ _) s5 h8]
      · rename_i h0; rw [if_neg h0]; exact (Option.some.inj h8).symm
    have e9 : efi = (arrived m f).edgeFeatureIndex := by
      unfold arrived
      simp only
      split at h9
      · rename_i h0; rw [if_pos h0, stream_bytes (hg _ _) (Nat.le_of_eq (s4 _)) h9, t4]
      · rename_i h0; rw [if_neg h0]; exact (Option.some.inj h9).symm
    have e10 : efd = (arrived m f).edgeFeatureData := by
      unfold arrived
      simp only
      split at h10
      · rename_i h0; rw [if_pos h0, whole_bytes h10]
      · rename_i h0; rw [if_neg h0]; exact (Option.some.inj h10).symm
    rw [← h, e1, e3, e4, e5, e6, e7, e8, e9, e10]
    rfl
  · intro hr
    unfold streamFiles
    have r1 : ∀ b, stream (net (folder ++ '/' :: (node ++ s ++ dotMap)) b) (nodeMapReads f.nodeMap.length) f.nodeMap =
        some (arrived m f).nodeMap := by
      intro b
      rw [stream_some (hg _ _) (hr _ _) s1 (.inr small), nodeMapReads_sum]; rfl
    have r2 : ∀ (n : Name) (b : Bytes), stream (net n false) (numberReads b.length) b = some (b.take (8 * (b.length / 8))) := by
      intro n b
      rw [stream_some (hg _ _) (hr _ _) (s2 b) (.inl ⟨_, rfl⟩), t2]
    have r4 : ∀ (n : Name) (b : Bytes), stream (net n false) (byteReads b.length) b = some b := by
      intro n b
      rw [stream_some (hg _ _) (hr _ _) (Nat.le_of_eq (s4 b)) (.inl ⟨_, rfl⟩), t4]
    have r3 : ∀ (n : Name), stream (net n false) (edgeReads (readU64File f.neighborsIndex)) f.edgeIndex = some (arrived m f).edgeIndex := by
      intro n
      rw [stream_some (hg _ _) (hr _ _) (by rw [s6]; exact he) (.inr smallE), s6]; rfl
    have r5 : ∀ (n : Name), stream (net n false) (timestampReads f.edgeTimestamps.length) f.edgeTimestamps =
        some (f.edgeTimestamps.take (timestampReads f.edgeTimestamps.length).sum) := by
      intro n
      rw [stream_some (hg _ _) (hr _ _) s5 (.inr smallT)]
    have r6 : ∀ (n : Name) (b : Bytes), whole (net n false) b = some b := fun n b => whole_some (hr _ _) b
    rw [hf, Option.bind_some, r1, Option.bind_some, r1, Option.bind_some, if_neg (by simp), r2, Option.bind_some]
    by_cases h1 : m.nodeFeatureCount = 0 <;> by_cases h2 : m.watermark ≥ 0 <;> by_cases h3 : m.edgeFeatureCount > 0 <;>
      simp only [arrived, h1, h2, h3, if_true, if_false, r2, r4, r5, r6, Option.bind_some, readU64File_take] <;>
      rw [r3] <;> simp only [arrived, h1, Option.bind_some, Option.map_some]

theorem mapM_follow {α β : Type} {f f' : α → Option β} {φ : β → β} : ∀ {l : List α} {r : List β}, l.mapM f = some r →
    (∀ x ∈ l, ∀ y ∈ r, f x = some y → (∀ y', f' x = some y' → y' = φ y)) → ∀ r', l.mapM f' = some r' → r' = r.map φ
  | [], r, h, _, r', h' => by
    simp only [List.mapM_nil, Option.pure_def, Option.some.injEq] at h h'
    rw [← h, ← h']; rfl
  | x :: l, r, h, hx, r', h' => by
    rw [List.mapM_cons, Option.bind_eq_bind, Option.bind_eq_some_iff] at h h'
    obtain ⟨y, h1, h⟩ := h
    obtain ⟨y', h1', h'⟩ := h'
    rw [Option.bind_eq_bind, Option.bind_eq_some_iff] at h h'
    obtain ⟨t, h2, h⟩ := h
    obtain ⟨t', h2', h'⟩ := h'
    simp only [Option.pure_def, Option.some.injEq] at h h'
    subst h
    subst h'
    rw [List.map_cons, hx x List.mem_cons_self y List.mem_cons_self h1 y' h1',
      mapM_follow h2 (fun a ha b hb => hx a (List.mem_cons_of_mem _ ha) b (List.mem_cons_of_mem _ hb)) t' h2']

theorem mapM_follows {α β : Type} {f f' : α → Option β} {φ : β → β} : ∀ {l : List α} {r : List β}, l.mapM f = some r →
    (∀ x ∈ l, ∀ y ∈ r, f x = some y → f' x = some (φ y)) → l.mapM f' = some (r.map φ)
  | [], r, h, _ => by
    simp only [List.mapM_nil, Option.pure_def, Option.some.injEq] at h ⊢
    rw [← h]; rfl
  | x :: l, r, h, hx => by
    rw [List.mapM_cons, Option.bind_eq_bind, Option.bind_eq_some_iff] at h
    obtain ⟨y, h1, h⟩ := h
    rw [Option.bind_eq_bind, Option.bind_eq_some_iff] at h
    obtain ⟨t, h2, h⟩ := h
    simp only [Option.pure_def, Option.some.injEq] at h
    subst h
    rw [List.mapM_cons, hx x List.mem_cons_self y List.mem_cons_self h1,
      mapM_follows h2 (fun a ha b hb => hx a (List.mem_cons_of_mem _ ha) b (List.mem_cons_of_mem _ hb))]
    rfl

end DeepGNN.HdfsGraph
