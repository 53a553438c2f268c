import Verif.Proofs.Download
import Verif.Spec.Folders
import Verif.Proofs.GraphQuery

namespace DeepGNN.Folders

open DeepGNN Download
open DeepGNN.Spec (HoldsPartition fileName PlainPaths DistinctNames ConvertedNames)

/-! Files that the metadata say nothing about do not matter. -/

theorem loadPartition_unused (C : WeightCodec) (m : Meta) (f : PartitionFiles) :
    loadPartition C m { f with
      nodeFeatureIndex := if m.nodeFeatureCount = 0 then [] else f.nodeFeatureIndex
      nodeFeatureData := if m.nodeFeatureCount = 0 then [] else f.nodeFeatureData
      edgeTimestamps := if m.watermark ≥ 0 then f.edgeTimestamps else []
      edgeFeatureIndex := if m.edgeFeatureCount > 0 then f.edgeFeatureIndex else []
      edgeFeatureData := if m.edgeFeatureCount > 0 then f.edgeFeatureData else []
      nodeFeatureCount := m.nodeFeatureCount
      edgeFeatureCount := m.edgeFeatureCount } = loadPartition C m f := by
  unfold loadPartition
  by_cases h1 : m.nodeFeatureCount = 0 <;> by_cases h2 : m.watermark ≥ 0 <;> by_cases h3 : m.edgeFeatureCount > 0 <;>
    simp only [h1, h2, h3, if_true, if_false]

/-- The parts of the files that are read. -/
def used (m : Meta) (f : PartitionFiles) : PartitionFiles :=
  { f with
      nodeFeatureIndex := if m.nodeFeatureCount = 0 then [] else f.nodeFeatureIndex
      nodeFeatureData := if m.nodeFeatureCount = 0 then [] else f.nodeFeatureData
      edgeTimestamps := if m.watermark ≥ 0 then f.edgeTimestamps else []
      edgeFeatureIndex := if m.edgeFeatureCount > 0 then f.edgeFeatureIndex else []
      edgeFeatureData := if m.edgeFeatureCount > 0 then f.edgeFeatureData else []
      nodeFeatureCount := m.nodeFeatureCount
      edgeFeatureCount := m.edgeFeatureCount }

theorem loadSuffixes_used (C : WeightCodec) (m : Meta) (i : Nat) : ∀ (fs : List PartitionFiles) (g : Graph),
    g.loadSuffixes C m i (fs.map (used m)) = g.loadSuffixes C m i fs
  | [], _ => rfl
  | f :: fs, g => by
    unfold Graph.loadSuffixes
    rw [List.map_cons, List.foldlM_cons, List.foldlM_cons]
    have e : loadPartition C m (used m f) = loadPartition C m f := loadPartition_unused C m f
    rw [e]
    show _ = _
    congr 1
    funext g'
    exact loadSuffixes_used C m i fs g'

theorem loadGraph_used (C : WeightCodec) (m : Meta) (fss : List (List PartitionFiles)) :
    loadGraph C m (fss.map fun fs => fs.map (used m)) = loadGraph C m fss := by
  unfold loadGraph
  suffices H : ∀ (fss : List (List PartitionFiles)) (k : Nat) (g : Graph),
      ((fss.map fun fs => fs.map (used m)).zipIdx k).foldlM (fun g (x : List PartitionFiles × Nat) => g.loadSuffixes C m x.2 x.1) g =
      (fss.zipIdx k).foldlM (fun g (x : List PartitionFiles × Nat) => g.loadSuffixes C m x.2 x.1) g from H fss 0 {}
  intro fss
  induction fss with
  | nil => intro k g; rfl
  | cons fs fss ih =>
    intro k g
    rw [List.map_cons, List.zipIdx_cons, List.zipIdx_cons, List.foldlM_cons, List.foldlM_cons]
    simp only [loadSuffixes_used]
    congr 1
    funext g'
    exact ih (k + 1) g'

/-! What a directory holds is what is read from it. -/

theorem sort_one (s : Name) : sortNames [s] = [s] := rfl

theorem filterMap_one {α : Type} {d : Dir α} (hd : DistinctNames d) (hc : ConvertedNames d) {p : Nat} {i : Name}
    (hi : ∃ v, (neighborsFile p i, v) ∈ d) (ho : ∀ x ∈ d, ∀ j, x.1 = neighborsFile p j → j = i) :
    (d.filterMap fun f => suffixOf p f.1) = [num p ++ '_' :: i] := by
  have hn := nodup_suffixes hd hc p
  have hall : ∀ s ∈ d.filterMap (fun f => suffixOf p f.1), s = num p ++ '_' :: i := by
    intro s hs
    obtain ⟨f, hf, e⟩ := List.mem_filterMap.1 hs
    obtain ⟨j, -, h1, h2⟩ := suffixOf_eq hc hf e
    rw [h2, ho f hf j h1]
  have hmem : num p ++ '_' :: i ∈ d.filterMap fun f => suffixOf p f.1 := by
    obtain ⟨v, hv⟩ := hi
    refine List.mem_filterMap.2 ⟨_, hv, ?_⟩
    unfold suffixOf
    rw [suffix_file]
    simp
  generalize d.filterMap (fun f => suffixOf p f.1) = l at hn hall hmem
  cases l with
  | nil => cases hmem
  | cons a l =>
    cases l with
    | nil => rw [hall a (by simp)]
    | cons b l =>
      have h1 := hall a (by simp)
      have h2 := hall b (by simp)
      rw [List.nodup_cons] at hn
      exact absurd (by rw [h1, h2]; simp) hn.1

theorem fileName_eq (kind ext : String) (k e : Name) (hk : kind.toList = k) (he : ext.toList = e) (p : Nat) (i : Name) :
    fileName kind p i ext = k ++ (num p ++ '_' :: i) ++ e := by
  unfold fileName
  rw [hk, he]
  simp [num]

variable {m : Meta} {d : Dir Bytes} {p : Nat} {i : Name} {f : PartitionFiles}

theorem neighbors_name (p : Nat) (i : Name) : fileName "neighbors_" p i ".index" = neighborsFile p i := by
  rw [fileName_eq "neighbors_" ".index" neighbors dotIndex (by decide) (by decide)]
  simp [neighborsFile]

theorem holds_suffixes (h : HoldsPartition m d p i f) : suffixes d p = some [num p ++ '_' :: i] := by
  rw [suffixes_eq h.converted, filterMap_one h.distinct h.converted ⟨f.neighborsIndex, by
    rw [← neighbors_name]; exact h.neighborsIndex⟩ fun x hx j e => h.once x hx j (by rw [neighbors_name]; exact e)]
  rfl

theorem holds_files (h : HoldsPartition m d p i f) : filesOf m d (num p ++ '_' :: i) = some (used m f) := by
  have rd : ∀ {kind ext : String} {k e : Name} {v : Bytes}, kind.toList = k → ext.toList = e →
      (fileName kind p i ext, v) ∈ d → read d (k ++ (num p ++ '_' :: i) ++ e) = some v := by
    intro kind ext k e v hk he hv
    rw [read_iff h.distinct, ← fileName_eq kind ext k e hk he]
    exact hv
  unfold filesOf
  rw [rd (by decide) (by decide) h.nodeMap, rd (by decide) (by decide) h.nodeIndex,
    rd (k := node ++ features) (by decide) (by decide) h.nodeFeatureIndex,
    rd (k := node ++ features) (by decide) (by decide) h.nodeFeatureData, rd (by decide) (by decide) h.neighborsIndex,
    rd (by decide) (by decide) h.edgeIndex, rd (k := edge ++ features) (by decide) (by decide) h.edgeFeatureIndex,
    rd (k := edge ++ features) (by decide) (by decide) h.edgeFeatureData]
  unfold used
  by_cases h1 : m.nodeFeatureCount = 0 <;> by_cases h2 : m.watermark ≥ 0 <;> by_cases h3 : m.edgeFeatureCount > 0 <;>
    simp only [h1, h2, h3, if_true, if_false, Option.bind_some, Option.map_some]
  all_goals
    try rw [rd (k := edge) (e := dotTimestamp) (by decide) (by decide) (h.edgeTimestamps h2)]
    try rfl

/-- Requests for partitions, each held by its directory, load their files. -/
theorem openGraph_holds (C : WeightCodec) {reqs : List (Dir Bytes × Nat)} {fs : List PartitionFiles}
    (h : All2 (fun y f => ∃ i, HoldsPartition m y.1 y.2 i f) reqs fs) :
    openGraph C m reqs = loadGraph C m (fs.map fun f => [f]) := by
  unfold openGraph
  have : (reqs.mapM fun y => (suffixes y.1 y.2).bind fun l => l.mapM (filesOf m y.1)) =
      some ((fs.map fun f => [f]).map fun fs => fs.map (used m)) := by
    induction h with
    | nil => rfl
    | cons hab _ ih =>
      obtain ⟨i, hi⟩ := hab
      rw [List.mapM_cons, holds_suffixes hi, ih]
      simp only [Option.bind_some, List.mapM_cons, List.mapM_nil, holds_files hi]
      rfl
  rw [this, Option.bind_some, loadGraph_used]

end DeepGNN.Folders

namespace DeepGNN.Folders

open DeepGNN Download
open DeepGNN.Spec (HoldsPartition fileName PlainPaths DistinctNames ConvertedNames)

/-! Several files for one request. -/

theorem addNode_index {g g' : Graph} {k : Nat} {r : Int × Nat} (h : ∀ x ∈ g.partIdx, x = k) (e : g.addNode k r = some g') :
    (∀ x ∈ g'.partIdx, x = k) ∧ g'.parts = g.parts := by
  unfold Graph.addNode at e
  cases hn : g.nodeMap r.1 with
  | none =>
    rw [hn] at e
    simp only [Option.some.injEq] at e
    subst e
    refine ⟨?_, rfl⟩
    intro x hx
    simp only [List.mem_append, List.mem_singleton] at hx
    rcases hx with hx | hx
    · exact h x hx
    · exact hx
  | some old =>
    rw [hn] at e
    simp only [Option.bind_eq_bind, Option.bind_eq_some_iff] at e
    obtain ⟨c, -, e⟩ := e
    split at e
    · cases e
    · simp only [Option.bind_some, Option.some.injEq] at e
      subst e
      refine ⟨?_, rfl⟩
      intro x hx
      simp only [List.mem_append, List.mem_singleton] at hx
      rcases hx with (hx | hx) | hx
      · exact h x hx
      · exact h x (List.mem_of_mem_drop (List.mem_of_mem_take hx))
      · exact hx

theorem addNodes_index {k : Nat} : ∀ (rs : List (Int × Nat)) {g g' : Graph}, (∀ x ∈ g.partIdx, x = k) →
    rs.foldlM (fun g r => g.addNode k r) g = some g' → (∀ x ∈ g'.partIdx, x = k) ∧ g'.parts = g.parts
  | [], g, g', h, e => by
    simp only [List.foldlM_nil, Option.pure_def, Option.some.injEq] at e
    exact ⟨e ▸ h, by rw [e]⟩
  | r :: rs, g, g', h, e => by
    rw [List.foldlM_cons, Option.bind_eq_bind, Option.bind_eq_some_iff] at e
    obtain ⟨g1, e1, e2⟩ := e
    have h1 := addNode_index h e1
    have h2 := addNodes_index rs h1.1 e2
    exact ⟨h2.1, h2.2.trans h1.2⟩

theorem loadSuffixes_index (C : WeightCodec) (m : Meta) {k : Nat} : ∀ (fs : List PartitionFiles) {g g' : Graph},
    (∀ x ∈ g.partIdx, x = k) → g.loadSuffixes C m k fs = some g' → ∀ x ∈ g'.partIdx, x = k
  | [], g, g', h, e => by
    unfold Graph.loadSuffixes at e
    simp only [List.foldlM_nil, Option.pure_def, Option.some.injEq] at e
    exact e ▸ h
  | f :: fs, g, g', h, e => by
    unfold Graph.loadSuffixes at e
    rw [List.foldlM_cons, Option.bind_eq_bind, Option.bind_eq_some_iff] at e
    obtain ⟨g1, e1, e2⟩ := e
    rw [Option.bind_eq_bind, Option.bind_eq_some_iff] at e1
    obtain ⟨P, -, e1⟩ := e1
    unfold Graph.readNodeMap at e1
    have h1 := addNodes_index (g := { g with parts := g.parts ++ [P] }) _ h e1
    exact loadSuffixes_index C m fs h1.1 e2

theorem mem_mapM_some {α β : Type} {F : α → Option β} : ∀ {l : List α} {r : List β}, l.mapM F = some r → ∀ y ∈ r, ∃ x ∈ l, F x = some y
  | [], r, h, y, hy => by
    simp only [List.mapM_nil, Option.pure_def, Option.some.injEq] at h
    rw [← h] at hy
    cases hy
  | a :: l, r, h, y, hy => by
    rw [List.mapM_cons, Option.bind_eq_bind, Option.bind_eq_some_iff] at h
    obtain ⟨b, hb, h⟩ := h
    rw [Option.bind_eq_bind, Option.bind_eq_some_iff] at h
    obtain ⟨r', hr, h⟩ := h
    simp only [Option.pure_def, Option.some.injEq] at h
    subst h
    rcases List.mem_cons.1 hy with rfl | hy
    · exact ⟨a, by simp, hb⟩
    · obtain ⟨x, hx, e⟩ := mem_mapM_some hr y hy
      exact ⟨x, by simp [hx], e⟩

/-- With one request every node is looked up in the first partition that was loaded. -/
theorem first_only {C : WeightCodec} {m : Meta} {fs : List PartitionFiles} {g : Graph} (h : loadGraph C m [fs] = some g) {n : Int}
    {es : List (Partition × Nat)} (he : g.entries n = some es) : ∀ e ∈ es, g.parts[0]? = some e.1 := by
  have hz : ∀ x ∈ g.partIdx, x = 0 := by
    unfold loadGraph at h
    rw [List.zipIdx_cons, List.zipIdx_nil, List.foldlM_cons, Option.bind_eq_bind, Option.bind_eq_some_iff] at h
    obtain ⟨g1, h1, h2⟩ := h
    simp only [List.foldlM_nil, Option.pure_def, Option.some.injEq] at h2
    subst h2
    exact loadSuffixes_index C m fs (by intro x hx; cases hx) h1
  unfold Graph.entries at he
  cases hn : g.nodeMap n with
  | none =>
    rw [hn] at he
    simp only [Option.some.injEq] at he
    subst he
    intro e he
    cases he
  | some off =>
    rw [hn] at he
    simp only [Option.bind_eq_bind, Option.bind_eq_some_iff] at he
    obtain ⟨c, -, he⟩ := he
    intro e hee
    obtain ⟨j, -, hj⟩ := mem_mapM_some he e hee
    simp only [Option.bind_eq_some_iff] at hj
    obtain ⟨k, hk, P, hP, id, -, e1⟩ := hj
    simp only [Option.pure_def, Option.some.injEq] at e1
    subst e1
    have := hz k (List.mem_of_getElem? hk)
    subst this
    exact hP

/-- Lookups when all records are those of partition 0. -/
theorem entries_zero {g : Graph} {log : List LogEntry} (h : GInv g log) {P : Partition} (hP : g.parts[0]? = some P)
    (hz : ∀ x ∈ log, x.part = 0) (n : Int) : g.entries n = some ((logFor log n).map fun x => (P, x.internal)) := by
  unfold Graph.entries
  cases hn : g.nodeMap n with
  | none => simp [h.none n hn]
  | some off =>
    obtain ⟨-, h2, h3, h4, h5⟩ := h.some n off hn
    simp only [h3, Option.bind_eq_bind, Option.bind_some]
    apply mapM_range'_of_slice _ (logFor log n) (fun x => (P, x.internal)) off
    intro i hi
    have e1 := getElem?_of_take_drop h4 i (by simpa using hi)
    have e2 := getElem?_of_take_drop h5 i (by simpa using hi)
    rw [e1, e2]
    have hx : (logFor log n)[i].part = 0 := hz _ (List.mem_filter.1 (List.getElem_mem hi)).1
    simp [List.getElem?_map, List.getElem?_eq_getElem hi, hx, hP]

theorem mapM_append_same {α β : Type} (F : α → Option β) (l : List α) :
    (l ++ l).mapM F = (l.mapM F).map fun r => r ++ r := by
  rw [List.mapM_append]
  cases l.mapM F with
  | none => rfl
  | some r => rfl

/-- A file loaded twice for one request gives every neighbour twice. -/
theorem load_twice {C : WeightCodec} {wm : Option Nat} {m : Meta} {part : List (List Rec)} {g : Graph} {f : PartitionFiles}
    (h : Built C wm m [part] g) (hf : convertPartition C wm part = some f) :
    ∃ g', loadGraph C m [[f, f]] = some g' ∧ ∀ ts types n,
      g'.fullNeighbor1 ts types n = (g.fullNeighbor1 ts types n).map fun r => (r.1 ++ r.1, r.2 + r.2) := by
  obtain ⟨items, hg, hi, -⟩ := h.exists_items
  rw [List.mapM_cons, hf] at hi
  simp only [Option.bind_eq_bind, Option.bind_some, List.mapM_nil, Option.pure_def, Option.some.injEq] at hi
  match items, hg, hi with
  | [it], hg, hi =>
    simp only [List.map_cons, List.map_nil, List.cons.injEq, and_true] at hi
    subst hi
    have hok := hg.ok it (by simp)
    have h0 : GInv ({} : Graph) [] := by
      constructor <;> simp [logFor]
    have h0' : GInv ({ parts := [it.part] } : Graph) [] := ⟨h0.1, h0.2, h0.3, h0.4⟩
    obtain ⟨g1, a1, a2, a3⟩ := h0'.addNodes 0 (it.blks.zipIdx.map (fun x => (x.1.id, x.2)))
    have h1' : GInv { g1 with parts := g1.parts ++ [it.part] } _ := ⟨a2.1, a2.2, a2.3, a2.4⟩
    obtain ⟨g2, b1, b2, b3⟩ := h1'.addNodes 0 (it.blks.zipIdx.map (fun x => (x.1.id, x.2)))
    have hl : loadGraph C m [[it.files, it.files]] = some g2 := by
      unfold loadGraph
      rw [List.zipIdx_cons, List.zipIdx_nil, List.foldlM_cons]
      simp only [Graph.loadSuffixes, List.foldlM_cons, List.foldlM_nil, hok.load, Option.bind_eq_bind, Option.bind_some,
        Graph.readNodeMap, hok.map, List.nil_append, a1, b1]
      rfl
    refine ⟨g2, hl, ?_⟩
    have hlog : ((it.blks.zipIdx.map fun x => (x.1.id, x.2)).map fun r => (⟨r.1, 0, r.2⟩ : LogEntry)) = itemLog 0 it := by
      rw [List.map_map]
      rfl
    rw [hlog, List.nil_append] at b2
    have hinv := hg.inv
    rw [List.zipIdx_cons, List.zipIdx_nil, List.flatMap_cons, List.flatMap_nil, List.append_nil] at hinv
    have hz : ∀ x ∈ itemLog 0 it, x.part = 0 := by
      intro x hx
      obtain ⟨y, -, rfl⟩ := List.mem_map.1 hx
      rfl
    have e1 : ∀ n, g.entries n = some ((logFor (itemLog 0 it) n).map fun x => (it.part, x.internal)) :=
      entries_zero hinv (by rw [hg.parts_eq]; rfl) hz
    have e2 : ∀ n, g2.entries n = some ((logFor (itemLog 0 it ++ itemLog 0 it) n).map fun x => (it.part, x.internal)) :=
      entries_zero b2 (by rw [b3]; show (g1.parts ++ [it.part])[0]? = _; rw [a3]; rfl) (by
        intro x hx
        rcases List.mem_append.1 hx with hx | hx <;> exact hz x hx)
    intro ts types n
    unfold Graph.fullNeighbor1
    rw [e1, e2]
    simp only [Option.bind_eq_bind, Option.bind_some]
    rw [show logFor (itemLog 0 it ++ itemLog 0 it) n = logFor (itemLog 0 it) n ++ logFor (itemLog 0 it) n from by
      unfold logFor; rw [List.filter_append], List.map_append, mapM_append_same]
    cases (List.map (fun x => (it.part, x.internal)) (logFor (itemLog 0 it) n)).mapM
        fun x => x.1.fullNeighbor x.2 ts types with
    | none => rfl
    | some rs =>
      simp only [Option.map_some, Option.bind_some, Option.pure_def, List.map_append, List.flatten_append, List.sum_append]

/-! Left-over files. -/

theorem read_append {α : Type} {d e : Dir α} {n : Name} {v : α} (h : read d n = some v) : read (d ++ e) n = some v := by
  unfold Download.read at h ⊢
  cases hf : d.find? (fun x => x.1 == n) with
  | none => rw [hf] at h; cases h
  | some y => rw [List.find?_append, hf]; rw [hf] at h; exact h

theorem suffixes_append {α : Type} (d e : Dir α) (p : Nat) {l r : List (Option Name)}
    (h : d.mapM (fun f => suffix p f.1) = some l) (h' : e.mapM (fun f => suffix p f.1) = some r) :
    suffixes (d ++ e) p = some (sortNames (l.filterMap id ++ r.filterMap id)) := by
  unfold suffixes
  rw [List.mapM_append, h, h']
  simp

theorem filesOf_append {m : Meta} {d e : Dir Bytes} {s : Name} {f : PartitionFiles} (h : filesOf m d s = some f) :
    filesOf m (d ++ e) s = some f := by
  have R : ∀ {n : Name} {v : Bytes}, read d n = some v → read (d ++ e) n = some v := read_append
  have Rif : ∀ {c : Prop} [Decidable c] {n : Name} {v : Bytes}, (if c then some [] else read d n) = some v →
      (if c then some [] else read (d ++ e) n) = some v := by
    intro c _ n v h
    split at h
    · next hc => rw [if_pos hc]; exact h
    · next hc => rw [if_neg hc]; exact R h
  have Rif' : ∀ {c : Prop} [Decidable c] {n : Name} {v : Bytes}, (if c then read d n else some []) = some v →
      (if c then read (d ++ e) n else some []) = some v := by
    intro c _ n v h
    split at h
    · next hc => rw [if_pos hc]; exact R h
    · next hc => rw [if_neg hc]; exact h
  unfold filesOf at h ⊢
  simp only [Option.bind_eq_some_iff, Option.map_eq_some_iff] at h ⊢
  obtain ⟨a1, h1, a2, h2, a3, h3, a4, h4, a5, h5, a6, h6, a7, h7, a8, h8, a9, h9, e⟩ := h
  exact ⟨a1, R h1, a2, R h2, a3, Rif h3, a4, Rif h4, a5, R h5, a6, R h6, a7, Rif' h7, a8, Rif' h8, a9, Rif' h9, e⟩

/-- The suffix of a name that starts as the file of neighbours of partition `p`. -/
theorem suffix_named (p : Nat) (i e : Name) (he : '.' ∉ e) :
    suffix p (neighbors ++ (num p ++ '_' :: i) ++ '.' :: e) = some (some (num p ++ '_' :: i)) := by
  unfold suffix
  have hs : stem (neighbors ++ (num p ++ '_' :: i) ++ '.' :: e) = neighbors ++ (num p ++ '_' :: i) :=
    stem_append _ (by simp [neighbors]) e he
  simp only [hs]
  have h1 : ¬ ((neighbors ++ (num p ++ '_' :: i)).length ≤ neighbors.length ∨
      neighbors.isPrefixOf (neighbors ++ (num p ++ '_' :: i)) = false) := by
    rintro (h | h)
    · simp at h
      omega
    · have : neighbors.isPrefixOf (neighbors ++ (num p ++ '_' :: i)) = true :=
        List.isPrefixOf_iff_prefix.2 ⟨_, rfl⟩
      rw [this] at h
      cases h
  rw [if_neg h1, List.drop_left, stoi_num]
  simp

theorem insert_same (s : Name) : sortNames [s, s] = [s, s] := by
  show Download.insertName s [s] = _
  unfold Download.insertName
  have : leName s s = true := by rcases le_total s s with h | h <;> exact h
  rw [if_pos this]

end DeepGNN.Folders
