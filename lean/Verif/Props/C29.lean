import Verif.Proofs.Metadata

/-
C29: the metadata files of the workers of a conversion are merged.
-/

namespace DeepGNN

theorem globMeta_sorted {α : Type} : ∀ (l : List (Nat × α)),
    l.Pairwise (fun x y => nameLe (workerName x.1) (workerName y.1) = true) → globMeta l = l
  | [], _ => rfl
  | [x], _ => rfl
  | x :: y :: l, h => by
    rw [List.pairwise_cons] at h
    have := globMeta_sorted (y :: l) h.2
    rw [globMeta, List.foldr_cons, ← globMeta, this, insertName, if_pos (h.1 y (by simp))]

theorem workerName_le : ∀ i < 10, ∀ j < 10, i < j → nameLe (workerName i) (workerName j) = true := by
  decide +kernel

/-- The files of the workers with their numbers. -/
def workerFiles (fs : List MetaFile) : List (Nat × MetaFile) := fs.zipIdx.map fun x => (x.2, x.1)

theorem globMeta_ten {fs : List MetaFile} (h : fs.length ≤ 10) : globMeta (workerFiles fs) = workerFiles fs := by
  refine globMeta_sorted _ ?_
  rw [workerFiles, List.pairwise_map, List.pairwise_iff_getElem]
  intro i j hi hj hij
  simp only [List.length_zipIdx] at hi hj
  simp only [List.getElem_zipIdx, Nat.zero_add]
  exact workerName_le i (by omega) j (by omega) hij

theorem globMeta_insert_perm {α : Type} (x : Nat × α) : ∀ (l : List (Nat × α)), (insertName x l).Perm (x :: l)
  | [] => .refl _
  | y :: l => by
    rw [insertName]
    split
    · exact .refl _
    · exact ((globMeta_insert_perm x l).cons y).trans (.swap x y l)

/-- The merger reads every file once. -/
theorem globMeta_perm {α : Type} : ∀ (l : List (Nat × α)), (globMeta l).Perm l
  | [] => .refl _
  | x :: l => by
    rw [globMeta, List.foldr_cons, ← globMeta]
    exact (globMeta_insert_perm x _).trans ((globMeta_perm l).cons x)

/-- The shared row of a file. -/
def sharedWorker (f : MetaFile) : WorkerMeta :=
  { version := f.version, nodeCount := f.nodeCount, edgeCount := f.edgeCount, nodeTypes := f.nodeTypes,
    edgeTypes := f.edgeTypes, nodeFeatures := f.nodeFeatures, edgeFeatures := f.edgeFeatures,
    partitionCount := f.partitions.length,
    nodeWeights := List.replicate f.partitions.length ((List.range f.nodeTypes).map (Spec.weightOfType (f.partitions.map (·.2.node)))),
    edgeWeights := List.replicate f.partitions.length ((List.range f.edgeTypes).map (Spec.weightOfType (f.partitions.map (·.2.edge)))),
    nodePerType := f.nodePerType, edgePerType := f.edgePerType, watermark := f.watermark }

theorem loadWorker_eq {f : MetaFile} (hn : ∀ p ∈ f.partitions, p.2.node.length = f.nodeTypes)
    (he : ∀ p ∈ f.partitions, p.2.edge.length = f.edgeTypes) : loadWorker f = some (sharedWorker f) := by
  obtain ⟨p, hp, hs⟩ := pyMeta_shows hn he
  simp only [pyMeta, Option.bind_eq_some_iff, Option.map_eq_some_iff] at hp
  obtain ⟨nw, h1, ew, h2, rfl⟩ := hp
  have h3 : nw = _ := hs.nodeWeights
  have h4 : ew = _ := hs.edgeWeights
  subst h3 h4
  simp only [loadWorker, h1, h2, Option.bind_some, Option.map_some]
  rfl

theorem getPartition_keys (w : WorkerMeta) (off : Nat) :
    ((w.getPartition off).1.map (·.1)) = (List.range w.partitionCount).map (off + ·) := by
  simp [WorkerMeta.getPartition]

theorem range_append' (a b : Nat) : List.range (a + b) = List.range a ++ (List.range b).map (a + ·) := by
  rw [List.range_add]

theorem mergeStep {acc : List (Nat × PartWeights)} {off : Nat} (h : acc.map (·.1) = List.range off) (w : WorkerMeta) :
    (w.getPartition off).1.foldl (fun l x => setKey x.1 x.2 l) acc = acc ++ (w.getPartition off).1 ∧
    (acc ++ (w.getPartition off).1).map (·.1) = List.range (off + w.partitionCount) := by
  have : acc.map (·.1) ++ (w.getPartition off).1.map (·.1) = List.range (off + w.partitionCount) := by
    rw [h, getPartition_keys, range_append']
  refine ⟨foldl_setKey_fresh _ _ ?_, by rw [List.map_append]; exact this⟩
  rw [this]; exact List.nodup_range

theorem mergeFold_keys : ∀ (ws : List WorkerMeta) (acc : List (Nat × PartWeights)) (off : Nat), acc.map (·.1) = List.range off →
    let st := ws.foldl (fun st w => ((w.getPartition st.2).1.foldl (fun l x => setKey x.1 x.2 l) st.1, (w.getPartition st.2).2)) (acc, off)
    st.2 = off + (ws.map (·.partitionCount)).sum ∧ st.1.map (·.1) = List.range st.2
  | [], acc, off, h => by simp [h]
  | w :: ws, acc, off, h => by
    have hs := mergeStep h w
    simp only [List.foldl_cons, hs.1]
    have := mergeFold_keys ws (acc ++ (w.getPartition off).1) (off + w.partitionCount) hs.2
    refine ⟨?_, this.2⟩
    rw [show (w.getPartition off).2 = off + w.partitionCount from rfl, this.1]
    simp; omega

theorem row_of_single {n : Nat} {r : List Int} (h : r.length = n) : (List.range n).map (Spec.weightOfType [r]) = r := by
  apply List.ext_getElem (by simp [h])
  intro i h1 h2
  simp [Spec.weightOfType, h2]

theorem getPartition_single {f : MetaFile} {off : Nat} (hn : ∀ p ∈ f.partitions, p.2.node.length = f.nodeTypes)
    (he : ∀ p ∈ f.partitions, p.2.edge.length = f.edgeTypes) (h1 : f.partitions.length ≤ 1)
    (hid : ∀ p ∈ f.partitions, p.1 = off) : ((sharedWorker f).getPartition off).1 = f.partitions := by
  simp only [WorkerMeta.getPartition, sharedWorker]
  match hf : f.partitions with
  | [] => rfl
  | [p] =>
    rw [hf] at hn he hid
    have a := row_of_single (hn p (by simp))
    have b := row_of_single (he p (by simp))
    have c := hid p (by simp)
    simp only [List.length_singleton, List.map_cons, List.map_nil, List.range_one, a, b]
    subst c
    rfl
  | _ :: _ :: _ => rw [hf] at h1; simp at h1

theorem mergeFold_single : ∀ (fs : List MetaFile) (acc : List (Nat × PartWeights)) (off : Nat), acc.map (·.1) = List.range off →
    (∀ f ∈ fs, ∀ p ∈ f.partitions, p.2.node.length = f.nodeTypes) →
    (∀ f ∈ fs, ∀ p ∈ f.partitions, p.2.edge.length = f.edgeTypes) → (∀ f ∈ fs, f.partitions.length ≤ 1) →
    (acc ++ fs.flatMap (·.partitions)).map (·.1) = List.range (off + (fs.flatMap (·.partitions)).length) →
    ((fs.map sharedWorker).foldl (fun st w => ((w.getPartition st.2).1.foldl (fun l x => setKey x.1 x.2 l) st.1, (w.getPartition st.2).2))
      (acc, off)).1 = acc ++ fs.flatMap (·.partitions)
  | [], acc, off, _, _, _, _, _ => by simp
  | f :: fs, acc, off, h, hn, he, h1, hid => by
    have hoff : ∀ p ∈ f.partitions, p.1 = off := by
      intro p hp
      match hf : f.partitions with
      | [] => rw [hf] at hp; simp at hp
      | [q] =>
        rw [hf] at hp
        have e : p = q := by simpa using hp
        subst e
        rw [List.map_append, h, List.flatMap_cons, hf, List.length_append, range_append'] at hid
        have := List.append_cancel_left hid
        simp only [List.map_cons, List.length_singleton, List.singleton_append] at this
        rw [Nat.add_comm 1, List.range_succ_eq_map, List.map_cons] at this
        injection this
      | _ :: _ :: _ => have := h1 f (by simp); rw [hf] at this; simp at this
    have hg := getPartition_single (hn f (by simp)) (he f (by simp)) (h1 f (by simp)) hoff
    have hs := mergeStep h (sharedWorker f)
    rw [List.map_cons, List.foldl_cons]
    simp only [hs.1]
    rw [hg] at hs ⊢
    have := mergeFold_single fs (acc ++ f.partitions) (off + f.partitions.length) hs.2 (fun g hg => hn g (by simp [hg]))
      (fun g hg => he g (by simp [hg])) (fun g hg => h1 g (by simp [hg])) (by
        rw [List.append_assoc, ← List.flatMap_cons, hid]
        simp [Nat.add_assoc])
    rw [List.flatMap_cons, ← List.append_assoc]
    exact this

theorem sumPerType_eq {n : Nat} {counts : List (List Nat)} (h : ∀ c ∈ counts, n ≤ c.length) :
    sumPerType n counts = some ((List.range n).map (Spec.countOfType counts)) := by
  refine mapM_option_map _ _ _ fun t ht => ?_
  rw [List.mem_range] at ht
  rw [mapM_option_map _ (fun c => c.getD t 0)]
  · rfl
  · intro c hc
    have := h c hc
    have ht' : t < c.length := by omega
    simp [ht']

/-- Everything but the weights of the partitions: for all numbers of workers (in any order) and partitions, if the workers
have seen the same types. -/
theorem C29_counts_partial {fs : List MetaFile} (hf : Spec.WorkersOk fs) (hne : fs ≠ [])
    (hnt : ∀ f ∈ fs, ∀ g ∈ fs, f.nodeTypes = g.nodeTypes) (het : ∀ f ∈ fs, ∀ g ∈ fs, f.edgeTypes = g.edgeTypes)
    {files : List (Nat × MetaFile)} (hfiles : files.map (·.2) = fs) :
    ∃ m, mergeFiles files = some m ∧ m.nodeCount = (fs.map (·.nodeCount)).sum ∧ m.edgeCount = (fs.map (·.edgeCount)).sum ∧
      (∀ f ∈ fs, m.version = f.version ∧ m.nodeFeatures = f.nodeFeatures ∧ m.edgeFeatures = f.edgeFeatures ∧
        m.watermark = f.watermark ∧ m.nodeTypes = f.nodeTypes ∧ m.edgeTypes = f.edgeTypes) ∧
      m.nodePerType = (List.range m.nodeTypes).map (Spec.countOfType (fs.map (·.nodePerType))) ∧
      m.edgePerType = (List.range m.edgeTypes).map (Spec.countOfType (fs.map (·.edgePerType))) ∧
      m.partitions.map (·.1) = List.range (fs.flatMap (·.partitions)).length := by
  have hperm : ((globMeta files).map (·.2)).Perm fs := by rw [← hfiles]; exact (globMeta_perm files).map _
  generalize hgs : (globMeta files).map (·.2) = gs at hperm
  have hmem : ∀ g, g ∈ gs ↔ g ∈ fs := fun g => hperm.mem_iff
  have hload : (globMeta files).mapM (fun x => loadWorker x.2) = some (gs.map sharedWorker) := by
    rw [← hgs, List.map_map]
    refine mapM_option_map _ _ _ fun x hx => ?_
    have hx' : x.2 ∈ fs := (hmem _).1 (hgs ▸ List.mem_map_of_mem (f := (·.2)) hx)
    exact loadWorker_eq (hf.nodeWeights _ hx') (hf.edgeWeights _ hx')
  cases gs with
  | nil => exact absurd hperm.symm.eq_nil hne
  | cons g gs' =>
    have hg : g ∈ fs := (hmem g).1 (by simp)
    have hv : ((g :: gs').map sharedWorker).all (fun x => x.version == (sharedWorker g).version) = true := by
      simp only [List.all_eq_true, List.mem_map, beq_iff_eq]
      rintro x ⟨f, hf', rfl⟩
      exact hf.version f ((hmem f).1 hf') g hg
    have h1 : sumPerType (sharedWorker g).nodeTypes (((g :: gs').map sharedWorker).map (·.nodePerType)) = _ := sumPerType_eq (by
      intro c hc
      simp only [List.map_map, List.mem_map] at hc
      obtain ⟨f, hf', rfl⟩ := hc
      have hf' := (hmem f).1 hf'
      have e1 := hf.nodeCounts f hf'
      have e2 := hnt f hf' g hg
      simp only [Function.comp_apply, sharedWorker]
      omega)
    have h2 : sumPerType (sharedWorker g).edgeTypes (((g :: gs').map sharedWorker).map (·.edgePerType)) = _ := sumPerType_eq (by
      intro c hc
      simp only [List.map_map, List.mem_map] at hc
      obtain ⟨f, hf', rfl⟩ := hc
      have hf' := (hmem f).1 hf'
      have e1 := hf.edgeCounts f hf'
      have e2 := het f hf' g hg
      simp only [Function.comp_apply, sharedWorker]
      omega)
    have hk := mergeFold_keys ((g :: gs').map sharedWorker) [] 0 rfl
    have hlen : (fs.flatMap (·.partitions)).length = (((g :: gs').map sharedWorker).map (·.partitionCount)).sum := by
      rw [List.length_flatMap, List.map_map]
      exact (hperm.map (fun f => f.partitions.length)).sum_nat.symm
    have hm : mergeFiles files = mergeWorkers ((g :: gs').map sharedWorker) := by
      rw [mergeFiles, hload, Option.bind_some]
    rw [List.map_cons] at hm
    simp only [mergeWorkers] at hm
    rw [← List.map_cons, if_pos hv, h1, h2] at hm
    simp only [Option.bind_some, Option.map_some] at hm
    have hc : ∀ (F : MetaFile → List Nat), (List.map F (g :: gs')).Perm (List.map F fs) := fun F => hperm.map F
    refine ⟨_, hm, ?_, ?_, ?_, ?_, ?_, ?_⟩
    · simp only [List.map_map]; exact (hperm.map (fun f => f.nodeCount)).sum_nat
    · simp only [List.map_map]; exact (hperm.map (fun f => f.edgeCount)).sum_nat
    · intro f hf'
      exact ⟨hf.version g hg f hf', hf.nodeFeatures g hg f hf', hf.edgeFeatures g hg f hf', hf.watermark g hg f hf',
        hnt g hg f hf', het g hg f hf'⟩
    · refine List.map_congr_left fun t _ => ?_
      rw [List.map_map]
      exact ((hc (·.nodePerType)).map (fun c => c.getD t 0)).sum_nat
    · refine List.map_congr_left fun t _ => ?_
      rw [List.map_map]
      exact ((hc (·.edgePerType)).map (fun c => c.getD t 0)).sum_nat
    · rw [hlen]
      have := hk.2
      rw [hk.1] at this
      simpa [mergePartitions] using this

/-- The merged metadata is that of the whole conversion: at most ten workers with one partition each, which have seen
the same types. -/
theorem C29_merged_partial {fs : List MetaFile} (hf : Spec.WorkersOk fs) (hne : fs ≠ []) (h10 : fs.length ≤ 10)
    (h1 : ∀ f ∈ fs, f.partitions.length ≤ 1)
    (hnt : ∀ f ∈ fs, ∀ g ∈ fs, f.nodeTypes = g.nodeTypes) (het : ∀ f ∈ fs, ∀ g ∈ fs, f.edgeTypes = g.edgeTypes) :
    ∃ m, mergeFiles (workerFiles fs) = some m ∧ Spec.Merged fs m := by
  have hfiles : (workerFiles fs).map (·.2) = fs := by
    rw [workerFiles, List.map_map]
    exact List.zipIdx_map_fst 0 fs
  obtain ⟨m, hm, hc1, hc2, hc3, hc4, hc5, -⟩ := C29_counts_partial hf hne hnt het hfiles
  refine ⟨m, hm, ?_⟩
  have hp : m.partitions = fs.flatMap (·.partitions) := by
    have hload : (globMeta (workerFiles fs)).mapM (fun x => loadWorker x.2) = some (fs.map sharedWorker) := by
      rw [globMeta_ten h10]
      conv => rhs; rw [← hfiles, List.map_map]
      refine mapM_option_map _ _ _ fun x hx => ?_
      have hx' : x.2 ∈ fs := hfiles ▸ List.mem_map_of_mem (f := (·.2)) hx
      exact loadWorker_eq (hf.nodeWeights _ hx') (hf.edgeWeights _ hx')
    rw [mergeFiles, hload, Option.bind_some] at hm
    have := mergeFold_single fs [] 0 rfl hf.nodeWeights hf.edgeWeights h1 (by simpa using hf.ids)
    rw [List.nil_append] at this
    rw [← this]
    cases fs with
    | nil => exact absurd rfl hne
    | cons f fs =>
      simp only [List.map_cons, mergeWorkers] at hm
      split at hm
      · simp only [Option.bind_eq_some_iff, Option.map_eq_some_iff] at hm
        obtain ⟨_, -, _, -, rfl⟩ := hm
        rfl
      · simp at hm
  obtain ⟨f, hf'⟩ := List.exists_mem_of_ne_nil fs hne
  exact
    { nodeCount := hc1, edgeCount := hc2
      nodeTypes := ⟨⟨f, hf', (hc3 f hf').2.2.2.2.1⟩, fun g hg => Nat.le_of_eq (hc3 g hg).2.2.2.2.1.symm⟩
      edgeTypes := ⟨⟨f, hf', (hc3 f hf').2.2.2.2.2⟩, fun g hg => Nat.le_of_eq (hc3 g hg).2.2.2.2.2.symm⟩
      common := fun g hg => ⟨(hc3 g hg).1, (hc3 g hg).2.1, (hc3 g hg).2.2.1, (hc3 g hg).2.2.2.1⟩
      partitions := hp, nodePerType := hc4, edgePerType := hc5 }

/-- Two workers with one partition each, two node types, one edge type. -/
def C29_example : List MetaFile :=
  [⟨2, 4, 6, 2, 1, 1, 0, 5, [(0, ⟨[3, 2], [6]⟩)], [2, 2], [6]⟩, ⟨2, 3, 4, 2, 1, 1, 0, 5, [(1, ⟨[4, 1], [7]⟩)], [2, 1], [4]⟩]

/-- The hypotheses hold for the example. -/
example : Spec.WorkersOk C29_example ∧ C29_example ≠ [] ∧ C29_example.length ≤ 10 ∧
    (∀ f ∈ C29_example, f.partitions.length ≤ 1) ∧ (∀ f ∈ C29_example, ∀ g ∈ C29_example, f.nodeTypes = g.nodeTypes) ∧
    mergeFiles (workerFiles C29_example) =
      some ⟨2, 7, 10, 2, 1, 1, 0, 5, [(0, ⟨[3, 2], [6]⟩), (1, ⟨[4, 1], [7]⟩)], [4, 3], [10]⟩ :=
  ⟨by constructor <;> decide +kernel, by decide +kernel⟩

/-- Two workers with two partitions each: every partition gets the sum of the weights of its worker. -/
theorem C29_weights_refuted : ∃ fs m, Spec.WorkersOk fs ∧ mergeFiles (workerFiles fs) = some m ∧ ¬ Spec.Merged fs m := by
  refine ⟨[⟨2, 2, 0, 1, 0, 0, 0, -1, [(0, ⟨[1], []⟩), (1, ⟨[2], []⟩)], [2], []⟩,
    ⟨2, 2, 0, 1, 0, 0, 0, -1, [(2, ⟨[3], []⟩), (3, ⟨[4], []⟩)], [2], []⟩],
    ⟨2, 4, 0, 1, 0, 0, 0, -1, [(0, ⟨[3], []⟩), (1, ⟨[3], []⟩), (2, ⟨[7], []⟩), (3, ⟨[7], []⟩)], [4], []⟩,
    by constructor <;> decide +kernel, by decide +kernel, ?_⟩
  intro h
  exact absurd h.partitions (by decide +kernel)

/-- Files of eleven workers with one partition each; the partition of worker `i` has weight `i`. -/
def C29_eleven : List MetaFile := (List.range 11).map fun i => ⟨2, 1, 0, 1, 0, 0, 0, -1, [(i, ⟨[(i : Int)], []⟩)], [1], []⟩

/-- Eleven workers: worker 10 is read before worker 2, and the weights go to other partitions. -/
theorem C29_order_refuted : Spec.WorkersOk C29_eleven ∧ (∀ f ∈ C29_eleven, f.partitions.length = 1) ∧
    ∃ m, mergeFiles (workerFiles C29_eleven) = some m ∧ ¬ Spec.Merged C29_eleven m := by
  refine ⟨by constructor <;> decide +kernel, by decide +kernel, ?_⟩
  have h : ((mergeFiles (workerFiles C29_eleven)).map (·.partitions)) = some [(0, ⟨[0], []⟩), (1, ⟨[1], []⟩), (2, ⟨[10], []⟩),
    (3, ⟨[2], []⟩), (4, ⟨[3], []⟩), (5, ⟨[4], []⟩), (6, ⟨[5], []⟩), (7, ⟨[6], []⟩), (8, ⟨[7], []⟩), (9, ⟨[8], []⟩),
    (10, ⟨[9], []⟩)] := by decide +kernel
  rw [Option.map_eq_some_iff] at h
  obtain ⟨m, hm, hp⟩ := h
  refine ⟨m, hm, fun hM => ?_⟩
  have := hM.partitions
  rw [hp] at this
  exact absurd this (by decide +kernel)

/-- The second worker has seen one more type: it is lost, with its nodes. -/
theorem C29_more_types_refuted : ∃ fs m, Spec.WorkersOk fs ∧ mergeFiles (workerFiles fs) = some m ∧ ¬ Spec.Merged fs m ∧
    m.nodePerType.sum < m.nodeCount := by
  refine ⟨[⟨2, 1, 0, 1, 0, 0, 0, -1, [(0, ⟨[1], []⟩)], [1], []⟩, ⟨2, 2, 0, 2, 0, 0, 0, -1, [(1, ⟨[1, 1], []⟩)], [1, 1], []⟩],
    ⟨2, 3, 0, 1, 0, 0, 0, -1, [(0, ⟨[1], []⟩), (1, ⟨[1, 1], []⟩)], [2], []⟩,
    by constructor <;> decide +kernel, by decide +kernel, ?_, by decide⟩
  intro h
  exact absurd (h.nodeTypes.2 ⟨2, 2, 0, 2, 0, 0, 0, -1, [(1, ⟨[1, 1], []⟩)], [1, 1], []⟩ (by simp)) (by decide)

/-- The second worker has seen one type less: the merge fails. -/
theorem C29_fewer_types_refuted : ∃ fs, Spec.WorkersOk fs ∧ fs ≠ [] ∧ mergeFiles (workerFiles fs) = none :=
  ⟨[⟨2, 2, 0, 2, 0, 0, 0, -1, [(0, ⟨[1, 1], []⟩)], [1, 1], []⟩, ⟨2, 1, 0, 1, 0, 0, 0, -1, [(1, ⟨[1], []⟩)], [1], []⟩],
    by constructor <;> decide +kernel, by decide +kernel⟩

end DeepGNN
