import Verif.Proofs.Metadata

/-
C28: metadata survives write and read; a distributed client has the metadata of the graph.
-/

namespace DeepGNN

/-- Metadata loaded from any file, whatever was skipped, is written to a file and read back unchanged. -/
theorem C28_write_read {sf st : Bool} {f : MetaFile} {m : Metadata} (h : readMeta sf st f = some m)
    (hp : f.partitions ≠ []) : ∃ f', writeMeta m = some f' ∧ readMeta false false f' = some m := by
  have hm := readMeta_loaded h
  have : m.partitionCount = f.partitions.length := by
    simp only [readMeta] at h
    split at h
    · simp at h
    · simp only [Option.bind_eq_some_iff, Option.map_eq_some_iff] at h
      obtain ⟨_, -, _, -, _, -, _, -, rfl⟩ := h
      rfl
  have hpos : 0 < m.partitionCount := by
    rw [this]; exact List.length_pos_iff.2 hp
  exact ⟨_, writeMeta_eq hm hpos, readMeta_fileOf hm⟩

theorem lookup_of_mem {α : Type} : ∀ {l : List (Nat × α)}, (l.map (·.1)).Nodup → ∀ {x : Nat × α}, x ∈ l → l.lookup x.1 = some x.2
  | [], _, _, h => by simp at h
  | y :: l, hn, x, h => by
    rw [List.map_cons, List.nodup_cons] at hn
    obtain ⟨k, v⟩ := y
    rw [List.lookup_cons]
    rcases List.mem_cons.1 h with e | e
    · subst e; simp
    · have : x.1 ≠ k := fun e' => hn.1 (by rw [List.mem_map]; exact ⟨x, e, e'⟩)
      rw [show (x.1 == k) = false by simpa using this]
      exact lookup_of_mem hn.2 e

theorem rows_perm {f : MetaFile} (h : (f.partitions.map (·.1)).Perm (List.range f.partitions.length)) (g : PartWeights → List Int) :
    ((List.range f.partitions.length).map fun p => g (f.partition p)).Perm (f.partitions.map fun p => g p.2) := by
  have hn : (f.partitions.map (·.1)).Nodup := h.nodup_iff.2 List.nodup_range
  have : f.partitions.map (fun p => g p.2) = (f.partitions.map (·.1)).map fun p => g (f.partition p) := by
    rw [List.map_map]
    refine List.map_congr_left fun x hx => ?_
    simp [MetaFile.partition, lookup_of_mem hn hx]
  rw [this]
  exact (h.map _).symm

theorem partition_mem {f : MetaFile} (h : (f.partitions.map (·.1)).Perm (List.range f.partitions.length)) {p : Nat}
    (hp : p < f.partitions.length) : ∃ x ∈ f.partitions, f.partition p = x.2 := by
  have : p ∈ f.partitions.map (·.1) := h.mem_iff.2 (by simpa using hp)
  rw [List.mem_map] at this
  obtain ⟨x, hx, rfl⟩ := this
  refine ⟨x, hx, ?_⟩
  simp [MetaFile.partition, lookup_of_mem (h.nodup_iff.2 List.nodup_range) hx]

/-- The metadata loaded from a complete file. -/
def loadedMeta (sf st : Bool) (f : MetaFile) : Metadata :=
  { version := f.version, nodeCount := f.nodeCount, edgeCount := f.edgeCount, nodeTypes := f.nodeTypes,
    edgeTypes := f.edgeTypes, nodeFeatures := if sf then 0 else f.nodeFeatures,
    edgeFeatures := if sf then 0 else f.edgeFeatures,
    watermark := if st then -1 else f.watermark, partitionCount := f.partitions.length,
    nodeWeights := (List.range f.partitions.length).map fun p => (f.partition p).node,
    edgeWeights := (List.range f.partitions.length).map fun p => (f.partition p).edge,
    nodePerType := f.nodePerType, edgePerType := f.edgePerType }

/-- A complete file is loaded. -/
theorem readMeta_ok {f : MetaFile} (hf : Spec.MetaOk f) (sf st : Bool) : readMeta sf st f = some (loadedMeta sf st f) := by
  have h1 : ((List.range f.partitions.length).mapM fun p => readArray f.nodeTypes (f.partition p).node) =
      some ((List.range f.partitions.length).map fun p => (f.partition p).node) := by
    refine mapM_option_map _ _ _ fun p hp => ?_
    obtain ⟨x, hx, e⟩ := partition_mem hf.keys (List.mem_range.1 hp)
    rw [e]; exact readArray_eq (hf.nodeWeights x hx)
  have h2 : ((List.range f.partitions.length).mapM fun p => readArray f.edgeTypes (f.partition p).edge) =
      some ((List.range f.partitions.length).map fun p => (f.partition p).edge) := by
    refine mapM_option_map _ _ _ fun p hp => ?_
    obtain ⟨x, hx, e⟩ := partition_mem hf.keys (List.mem_range.1 hp)
    rw [e]; exact readArray_eq (hf.edgeWeights x hx)
  have hv : ¬ f.version < minVersion := by have := hf.version; omega
  rw [readMeta, if_neg hv, h1, h2, readArray_eq hf.nodeCounts, readArray_eq hf.edgeCounts]
  simp only [Option.bind_some, Option.map_some]
  have h3 : ((List.range f.partitions.length).map fun p => (f.partition p).node).map (·.map f32) =
      (List.range f.partitions.length).map fun p => (f.partition p).node := by
    rw [List.map_map]
    refine List.map_congr_left fun p hp => ?_
    obtain ⟨x, hx, e⟩ := partition_mem hf.keys (List.mem_range.1 hp)
    simp only [Function.comp_apply, e]
    exact map_f32_id (hf.nodeFloats x hx)
  have h4 : ((List.range f.partitions.length).map fun p => (f.partition p).edge).map (·.map f32) =
      (List.range f.partitions.length).map fun p => (f.partition p).edge := by
    rw [List.map_map]
    refine List.map_congr_left fun p hp => ?_
    obtain ⟨x, hx, e⟩ := partition_mem hf.keys (List.mem_range.1 hp)
    simp only [Function.comp_apply, e]
    exact map_f32_id (hf.edgeFloats x hx)
  rw [h3, h4, loadedMeta]

/-- A client of servers that loaded a complete file shows the metadata of that file. -/
theorem C28_client_partial {f : MetaFile} (hf : Spec.MetaOk f) (others : List Metadata) :
    ∃ m f' p, readMeta false false f = some m ∧ downloadMeta (m :: others) = some f' ∧ pyMeta f' = some p ∧
      Spec.Shows f p := by
  have hr := readMeta_ok hf false false
  have hm := readMeta_loaded hr
  have hd : downloadMeta (loadedMeta false false f :: others) = some (fileOf (loadedMeta false false f)) := by
    rw [downloadMeta, List.head?_cons, Option.bind_some, metaOfReply_get hm, Option.bind_some]
    exact writeMeta_eq hm (List.length_pos_iff.2 hf.pos)
  have hn : ∀ p ∈ (fileOf (loadedMeta false false f)).partitions, p.2.node.length = (fileOf (loadedMeta false false f)).nodeTypes := by
    intro x hx
    simp only [fileOf, loadedMeta, List.mem_map, List.mem_range] at hx
    obtain ⟨p, hp, rfl⟩ := hx
    obtain ⟨y, hy, e⟩ := partition_mem hf.keys hp
    simp only [fileOf, loadedMeta, List.getD_eq_getElem?_getD]
    rw [List.getElem?_map, List.getElem?_range hp]
    simp only [Option.map_some, Option.getD_some, e]
    exact hf.nodeWeights y hy
  have he : ∀ p ∈ (fileOf (loadedMeta false false f)).partitions, p.2.edge.length = (fileOf (loadedMeta false false f)).edgeTypes := by
    intro x hx
    simp only [fileOf, loadedMeta, List.mem_map, List.mem_range] at hx
    obtain ⟨p, hp, rfl⟩ := hx
    obtain ⟨y, hy, e⟩ := partition_mem hf.keys hp
    simp only [fileOf, loadedMeta, List.getD_eq_getElem?_getD]
    rw [List.getElem?_map, List.getElem?_range hp]
    simp only [Option.map_some, Option.getD_some, e]
    exact hf.edgeWeights y hy
  obtain ⟨p, hp, hs⟩ := pyMeta_shows hn he
  refine ⟨_, _, p, hr, hd, hp, ?_⟩
  have hrow : ∀ g : PartWeights → List Int, ((fileOf (loadedMeta false false f)).partitions.map fun x => g x.2).Perm (f.partitions.map fun x => g x.2) := by
    intro g
    refine List.Perm.trans (List.Perm.of_eq ?_) (rows_perm hf.keys g)
    simp only [fileOf, loadedMeta, List.map_map]
    refine List.map_congr_left fun p hp => ?_
    rw [List.mem_range] at hp
    simp only [Function.comp_apply, List.getD_eq_getElem?_getD]
    rw [List.getElem?_map, List.getElem?_range hp, List.getElem?_map, List.getElem?_range hp]
    rfl
  exact
    { nodeCount := hs.nodeCount, edgeCount := hs.edgeCount, nodeTypes := hs.nodeTypes, edgeTypes := hs.edgeTypes,
      nodeFeatures := hs.nodeFeatures, edgeFeatures := hs.edgeFeatures,
      partitionCount := by rw [hs.partitionCount]; simp [fileOf, loadedMeta],
      nodeWeights := by
        rw [hs.nodeWeights]
        exact List.map_congr_left fun t _ => weightOfType_perm (hrow (·.node)) t
      edgeWeights := by
        rw [hs.edgeWeights]
        exact List.map_congr_left fun t _ => weightOfType_perm (hrow (·.edge)) t
      nodePerType := hs.nodePerType, edgePerType := hs.edgePerType, watermark := hs.watermark }

/-- Three partitions, stored in another order; two node types, one edge type. -/
def C28_example : MetaFile :=
  { version := 2, nodeCount := 9, edgeCount := 12, nodeTypes := 2, edgeTypes := 1, nodeFeatures := 3, edgeFeatures := 1,
    watermark := 17, partitions := [(1, ⟨[4, 5], [6]⟩), (0, ⟨[1, 2], [3]⟩), (2, ⟨[7, 0], [9]⟩)],
    nodePerType := [5, 4], edgePerType := [12] }

/-- The hypotheses hold for the example. -/
theorem C28_example_ok : Spec.MetaOk C28_example := by
  constructor <;> decide +kernel

example : (readMeta false false C28_example).isSome ∧
    ((readMeta true true C28_example).bind writeMeta).bind (readMeta false false) = readMeta true true C28_example ∧
    (((readMeta false false C28_example).bind fun m => downloadMeta [m, m]).bind pyMeta).map
      (fun p => (p.nodeWeights, p.edgeWeights, p.partitionCount)) = some ([12, 7], [18], 3) := by
  decide +kernel

/-- Without partitions the file that is written cannot be read. -/
theorem C28_empty_refuted : ∃ f m f', f.partitions = [] ∧ readMeta false false f = some m ∧ writeMeta m = some f' ∧
    readMeta false false f' = none :=
  ⟨⟨2, 0, 0, 1, 1, 0, 0, -1, [], [0], [0]⟩, ⟨2, 0, 0, 1, 1, 0, 0, -1, 0, [], [], [0], [0]⟩,
    ⟨2, 0, 0, 1, 1, 0, 0, -1, [(0, ⟨[0], []⟩)], [0], [0]⟩, by decide +kernel⟩

/-- A weight that is not a float is rounded on the way to the client: the local and the remote client of the same graph
show different weights. -/
theorem C28_rounding_refuted : ∃ f m f' p q, readMeta false false f = some m ∧ downloadMeta [m] = some f' ∧
    pyMeta f = some p ∧ pyMeta f' = some q ∧ p.nodeWeights ≠ q.nodeWeights := by
  refine ⟨⟨2, 1, 0, 1, 0, 0, 0, -1, [(0, ⟨[16777217], []⟩)], [1], []⟩, ⟨2, 1, 0, 1, 0, 0, 0, -1, 1, [[16777216]], [[]], [1], []⟩,
    ⟨2, 1, 0, 1, 0, 0, 0, -1, [(0, ⟨[16777216], []⟩)], [1], []⟩, ⟨1, 0, 1, 0, 0, 0, 1, [16777217], [], [1], [], -1⟩,
    ⟨1, 0, 1, 0, 0, 0, 1, [16777216], [], [1], [], -1⟩, ?_⟩
  decide +kernel

end DeepGNN
