import Verif.Spec.Metadata

namespace DeepGNN

theorem round24_idem (a : Nat) : round24 (round24 a) = round24 a := by
  by_cases h : a < 2 ^ 24
  · simp [round24, h]
  · have ha0 : a ≠ 0 := by omega
    have hl1 : 2 ^ a.log2 ≤ a := Nat.log2_self_le ha0
    have hl2 : a < 2 ^ (a.log2 + 1) := Nat.lt_log2_self
    have hl : 24 ≤ a.log2 := (Nat.le_log2 ha0).2 (by omega)
    obtain ⟨e, he⟩ : ∃ e, a.log2 = e + 23 := ⟨a.log2 - 23, by omega⟩
    have he1 : 1 ≤ e := by omega
    have hq1 : 2 ^ 23 ≤ a / 2 ^ e := by
      rw [Nat.le_div_iff_mul_le (Nat.two_pow_pos e), ← Nat.pow_add, Nat.add_comm, ← he]; exact hl1
    have hq2 : a / 2 ^ e < 2 ^ 24 := by
      rw [Nat.div_lt_iff_lt_mul (Nat.two_pow_pos e), ← Nat.pow_add]
      rw [he] at hl2
      rw [show 24 + e = e + 23 + 1 by omega]; exact hl2
    have key : ∀ q, 2 ^ 23 ≤ q → q ≤ 2 ^ 24 → round24 (q * 2 ^ e) = q * 2 ^ e := by
      intro q h1 h2
      have hp : 2 ^ 1 ≤ 2 ^ e := Nat.pow_le_pow_right (by omega) he1
      have hge : ¬ q * 2 ^ e < 2 ^ 24 := by
        have := Nat.mul_le_mul h1 hp
        omega
      have hne : q * 2 ^ e ≠ 0 := by omega
      rcases Nat.lt_or_eq_of_le h2 with h3 | h3
      · have hlog : (q * 2 ^ e).log2 = e + 23 := by
          rw [Nat.log2_eq_iff hne]
          constructor
          · rw [Nat.pow_add, Nat.mul_comm]; exact Nat.mul_le_mul_right _ h1
          · rw [show e + 23 + 1 = 24 + e by omega, Nat.pow_add]
            exact Nat.mul_lt_mul_of_pos_right h3 (Nat.two_pow_pos e)
        simp only [round24, hlog, if_neg hge]
        rw [show e + 23 - 23 = e by omega, Nat.mul_div_cancel _ (Nat.two_pow_pos e), Nat.mul_mod_left,
          if_neg]
        have := Nat.two_pow_pos e
        omega
      · subst h3
        have hlog : (2 ^ 24 * 2 ^ e).log2 = e + 24 := by rw [← Nat.pow_add, Nat.log2_two_pow]; omega
        simp only [round24, hlog, if_neg hge]
        have h5 : 2 ^ 24 * 2 ^ e = 2 ^ 23 * 2 ^ (e + 1) := by rw [← Nat.pow_add, ← Nat.pow_add]; congr 1; omega
        rw [show e + 24 - 23 = e + 1 by omega, h5, Nat.mul_div_cancel _ (Nat.two_pow_pos _), Nat.mul_mod_left,
          if_neg]
        have := Nat.two_pow_pos (e + 1)
        omega
    have : ∃ q, 2 ^ 23 ≤ q ∧ q ≤ 2 ^ 24 ∧ round24 a = q * 2 ^ e := by
      simp only [round24, if_neg h, he]
      rw [show e + 23 - 23 = e by omega]
      split
      · exact ⟨_, by omega, by omega, rfl⟩
      · exact ⟨_, by omega, by omega, rfl⟩
    obtain ⟨q, h1, h2, h3⟩ := this
    rw [h3, key q h1 h2]

theorem f32_idem (x : Int) : f32 (f32 x) = f32 x := by
  by_cases h : x < 0
  · have h1 : f32 x = -(round24 x.natAbs : Int) := by simp [f32, h]
    rw [h1]
    by_cases h0 : round24 x.natAbs = 0
    · simp [h0]
    · rw [f32, if_pos (by omega)]
      rw [show (-(round24 x.natAbs : Int)).natAbs = round24 x.natAbs by omega, round24_idem]
  · have h1 : f32 x = (round24 x.natAbs : Int) := by simp [f32, h]
    rw [h1, f32, if_neg (by omega)]
    rw [Int.natAbs_natCast, round24_idem]

theorem setKey_fresh {α : Type} {k : Nat} {v : α} : ∀ {l : List (Nat × α)}, k ∉ l.map (·.1) → setKey k v l = l ++ [(k, v)]
  | [], _ => rfl
  | (k', v') :: l, h => by
    simp only [List.map_cons, List.mem_cons, not_or] at h
    rw [setKey, if_neg (fun e => h.1 e.symm), setKey_fresh h.2]; rfl

theorem foldl_setKey_fresh {α : Type} : ∀ (l acc : List (Nat × α)), (acc.map (·.1) ++ l.map (·.1)).Nodup →
    l.foldl (fun l x => setKey x.1 x.2 l) acc = acc ++ l
  | [], acc, _ => by simp
  | x :: l, acc, h => by
    have h1 : x.1 ∉ acc.map (·.1) := by
      intro hm
      rw [List.nodup_append] at h
      exact h.2.2 _ hm _ (by simp) rfl
    rw [List.foldl_cons, setKey_fresh h1, foldl_setKey_fresh l _ (by simpa [List.append_assoc] using h)]
    simp

theorem foldl_setKey_range {α : Type} (w : Nat → α) (v : α) (k : Nat) (hk : 0 < k) :
    ((List.range k).map fun p => (p, w p)).foldl (fun l x => setKey x.1 x.2 l) [(0, v)] =
      (List.range k).map fun p => (p, w p) := by
  obtain ⟨k, rfl⟩ : ∃ k', k = k' + 1 := ⟨k - 1, by omega⟩
  rw [List.range_succ_eq_map, List.map_cons, List.foldl_cons]
  have : setKey 0 (w 0) [(0, v)] = [(0, w 0)] := by simp [setKey]
  simp only [this]
  rw [foldl_setKey_fresh]
  · simp
  · have : ([(0, w 0)].map (·.1) ++ (((List.range k).map Nat.succ).map fun p => (p, w p)).map (·.1)) = List.range (k + 1) := by
      rw [List.range_succ_eq_map]; simp [List.map_map, Function.comp_def]
    rw [this]; exact List.nodup_range

theorem lookup_range {α : Type} (w : Nat → α) : ∀ (l : List Nat) (p : Nat), p ∈ l →
    (l.map fun p => (p, w p)).lookup p = some (w p)
  | [], _, h => by simp at h
  | q :: l, p, h => by
    rw [List.map_cons, List.lookup_cons]
    by_cases e : p = q
    · subst e; simp
    · rw [show (p == q) = false by simpa using e]
      exact lookup_range w l p (by simpa [e] using h)

theorem readArray_eq {α : Type} {n : Nat} {l : List α} (h : l.length = n) : readArray n l = some l := by
  subst h; simp [readArray]

theorem readArray_some {α : Type} {n : Nat} {l r : List α} (h : readArray n l = some r) :
    r = l.take n ∧ r.length = n := by
  simp only [readArray] at h
  split at h
  · rename_i h'
    injection h with h; subst h; simp; omega
  · simp at h

theorem splitRows_flatten (n : Nat) : ∀ (rows : List (List Int)), (∀ r ∈ rows, r.length = n) →
    splitRows n rows.length rows.flatten = some rows
  | [], _ => rfl
  | r :: rows, h => by
    have hr : r.length = n := h r (by simp)
    rw [List.length_cons, splitRows, List.flatten_cons, if_neg (by simp; omega)]
    rw [List.drop_left' hr, splitRows_flatten n rows (fun x hx => h x (by simp [hx])), List.take_left' hr]
    rfl

/-- What a loaded metadata satisfies. -/
structure MetaLoaded (m : Metadata) : Prop where
  version : minVersion ≤ m.version
  nodeRows : m.nodeWeights.length = m.partitionCount
  edgeRows : m.edgeWeights.length = m.partitionCount
  nodeRow : ∀ r ∈ m.nodeWeights, r.length = m.nodeTypes ∧ ∀ w ∈ r, f32 w = w
  edgeRow : ∀ r ∈ m.edgeWeights, r.length = m.edgeTypes ∧ ∀ w ∈ r, f32 w = w
  nodeCounts : m.nodePerType.length = m.nodeTypes
  edgeCounts : m.edgePerType.length = m.edgeTypes

theorem mapM_rows {ps : List Nat} {g : Nat → List Int} {n : Nat} {out : List (List Int)}
    (h : (ps.mapM fun p => readArray n (g p)) = some out) :
    out.length = ps.length ∧ ∀ r ∈ out, r.length = n := by
  induction ps generalizing out with
  | nil => simp at h; subst h; simp
  | cons p ps ih =>
    rw [List.mapM_cons] at h
    simp only [Option.bind_eq_bind, Option.bind_eq_some_iff] at h
    obtain ⟨r, hr, rs, hrs, ho⟩ := h
    injection ho with ho
    subst ho
    have := ih hrs
    simp [this.1, (readArray_some hr).2]
    exact this.2

theorem readMeta_loaded {sf st : Bool} {f : MetaFile} {m : Metadata} (h : readMeta sf st f = some m) : MetaLoaded m := by
  simp only [readMeta] at h
  split at h
  · simp at h
  · rename_i hv
    simp only [Option.bind_eq_some_iff, Option.map_eq_some_iff] at h
    obtain ⟨nw, hnw, ew, hew, nt, hnt, et, het, rfl⟩ := h
    have h1 := mapM_rows hnw
    have h2 := mapM_rows hew
    refine ⟨by simpa using hv, by simpa using h1.1, by simpa using h2.1, ?_, ?_, (readArray_some hnt).2,
      (readArray_some het).2⟩
    · intro r hr
      simp only [List.mem_map] at hr
      obtain ⟨r', hr', rfl⟩ := hr
      refine ⟨by simpa using h1.2 r' hr', ?_⟩
      intro w hw
      simp only [List.mem_map] at hw
      obtain ⟨w', -, rfl⟩ := hw
      exact f32_idem w'
    · intro r hr
      simp only [List.mem_map] at hr
      obtain ⟨r', hr', rfl⟩ := hr
      refine ⟨by simpa using h2.2 r' hr', ?_⟩
      intro w hw
      simp only [List.mem_map] at hw
      obtain ⟨w', -, rfl⟩ := hw
      exact f32_idem w'

theorem map_f32_id {r : List Int} (h : ∀ w ∈ r, f32 w = w) : r.map f32 = r := by
  conv => rhs; rw [← List.map_id r]
  exact List.map_congr_left (by simpa using h)

/-- The file written for a metadata. -/
def fileOf (m : Metadata) : MetaFile :=
  { version := m.version, nodeCount := m.nodeCount, edgeCount := m.edgeCount, nodeTypes := m.nodeTypes,
    edgeTypes := m.edgeTypes, nodeFeatures := m.nodeFeatures, edgeFeatures := m.edgeFeatures,
    watermark := m.watermark,
    partitions := (List.range m.partitionCount).map fun p => (p, ⟨m.nodeWeights.getD p [], m.edgeWeights.getD p []⟩),
    nodePerType := m.nodePerType, edgePerType := m.edgePerType }

theorem mapM_option_map {α β : Type} (f : α → Option β) (g : α → β) : ∀ (l : List α), (∀ a ∈ l, f a = some (g a)) →
    l.mapM f = some (l.map g)
  | [], _ => rfl
  | a :: l, h => by
    rw [List.mapM_cons, h a (by simp), mapM_option_map f g l (fun x hx => h x (by simp [hx]))]; rfl

theorem writeMeta_eq {m : Metadata} (hm : MetaLoaded m) (hp : 0 < m.partitionCount) : writeMeta m = some (fileOf m) := by
  have : ((List.range m.partitionCount).mapM fun p => (m.nodeWeights[p]?).bind fun n => (m.edgeWeights[p]?).map fun e =>
      (p, PartWeights.mk n e)) =
      some ((List.range m.partitionCount).map fun p => (p, ⟨m.nodeWeights.getD p [], m.edgeWeights.getD p []⟩)) := by
    refine mapM_option_map _ _ _ ?_
    intro p hp'
    rw [List.mem_range] at hp'
    rw [List.getElem?_eq_getElem (by rw [hm.nodeRows]; exact hp'), List.getElem?_eq_getElem (by rw [hm.edgeRows]; exact hp')]
    simp [hm.nodeRows, hm.edgeRows, hp']
  simp only [writeMeta, this, Option.map_some, fileOf]
  rw [foldl_setKey_range (fun p => PartWeights.mk (m.nodeWeights.getD p []) (m.edgeWeights.getD p [])) _ _ hp]

theorem fileOf_partition (m : Metadata) (p : Nat) (hp : p < m.partitionCount) :
    (fileOf m).partition p = ⟨m.nodeWeights.getD p [], m.edgeWeights.getD p []⟩ := by
  simp only [MetaFile.partition, fileOf]
  rw [lookup_range (fun p => PartWeights.mk (m.nodeWeights.getD p []) (m.edgeWeights.getD p [])) _ p (by simpa using hp)]
  rfl

theorem map_getD_range (l : List (List Int)) : (List.range l.length).map (fun p => l.getD p []) = l := by
  apply List.ext_getElem (by simp)
  intro i h1 h2
  simp at h1
  simp [h1]

theorem readMeta_fileOf {m : Metadata} (hm : MetaLoaded m) : readMeta false false (fileOf m) = some m := by
  have hl : (fileOf m).partitions.length = m.partitionCount := by simp [fileOf]
  have h1 : ((List.range m.partitionCount).mapM fun p => readArray m.nodeTypes ((fileOf m).partition p).node) =
      some m.nodeWeights := by
    rw [mapM_option_map _ (fun p => m.nodeWeights.getD p []), ← hm.nodeRows, map_getD_range]
    intro p hp
    rw [List.mem_range] at hp
    rw [fileOf_partition m p hp]
    refine readArray_eq (hm.nodeRow _ ?_).1
    rw [← hm.nodeRows] at hp
    simp [hp]
  have h2 : ((List.range m.partitionCount).mapM fun p => readArray m.edgeTypes ((fileOf m).partition p).edge) =
      some m.edgeWeights := by
    rw [mapM_option_map _ (fun p => m.edgeWeights.getD p []), ← hm.edgeRows, map_getD_range]
    intro p hp
    rw [List.mem_range] at hp
    rw [fileOf_partition m p hp]
    refine readArray_eq (hm.edgeRow _ ?_).1
    rw [← hm.edgeRows] at hp
    simp [hp]
  have h3 : ∀ rows : List (List Int), (∀ r ∈ rows, ∀ w ∈ r, f32 w = w) → rows.map (·.map f32) = rows := by
    intro rows h
    conv => rhs; rw [← List.map_id rows]
    exact List.map_congr_left (fun r hr => by simpa using map_f32_id (h r hr))
  have hv : ¬ (fileOf m).version < minVersion := by
    have := hm.version
    simp only [fileOf]; omega
  rw [readMeta, if_neg hv, hl]
  simp only [show (fileOf m).nodeTypes = m.nodeTypes from rfl, show (fileOf m).edgeTypes = m.edgeTypes from rfl,
    show (fileOf m).nodePerType = m.nodePerType from rfl, show (fileOf m).edgePerType = m.edgePerType from rfl,
    h1, h2, readArray_eq hm.nodeCounts, readArray_eq hm.edgeCounts, Option.bind_some, Option.map_some,
    h3 _ (fun r hr => (hm.nodeRow r hr).2), h3 _ (fun r hr => (hm.edgeRow r hr).2)]
  rfl

theorem metaOfReply_get {m : Metadata} (hm : MetaLoaded m) : metaOfReply (getMetadata m) = some m := by
  have h1 := splitRows_flatten m.nodeTypes m.nodeWeights (fun r hr => (hm.nodeRow r hr).1)
  have h2 := splitRows_flatten m.edgeTypes m.edgeWeights (fun r hr => (hm.edgeRow r hr).1)
  rw [hm.nodeRows] at h1
  rw [hm.edgeRows] at h2
  simp [metaOfReply, getMetadata, h1, h2]

theorem addWeights_eq {row w : List Int} (h : w.length = row.length) : addWeights row w = some (List.zipWith (· + ·) row w) := by
  rw [addWeights, readArray_eq h]; rfl

theorem foldlM_addWeights {n : Nat} : ∀ (rows : List (List Int)) (acc : List Int), acc.length = n → (∀ r ∈ rows, r.length = n) →
    rows.foldlM addWeights acc = some ((List.range n).map fun t => acc.getD t 0 + Spec.weightOfType rows t)
  | [], acc, h, _ => by
    simp only [List.foldlM_nil, Spec.weightOfType, List.map_nil, List.sum_nil]
    refine congrArg some ?_
    apply List.ext_getElem (by simp [h])
    intro i h1 h2
    simp [h1]
  | r :: rows, acc, h, hr => by
    have h1 : r.length = n := hr r (by simp)
    rw [List.foldlM_cons, addWeights_eq (by omega)]
    simp only [Option.bind_eq_bind, Option.bind_some]
    rw [foldlM_addWeights rows _ (by simp; omega) (fun x hx => hr x (by simp [hx]))]
    refine congrArg some (List.map_congr_left ?_)
    intro t ht
    rw [List.mem_range] at ht
    simp only [Spec.weightOfType, List.map_cons, List.sum_cons]
    have : (List.zipWith (· + ·) acc r).getD t 0 = acc.getD t 0 + r.getD t 0 := by
      simp [List.getD_eq_getElem?_getD, h, h1, ht]
    rw [this]; omega

theorem weightOfType_perm {a b : List (List Int)} (h : a.Perm b) (t : Nat) :
    Spec.weightOfType a t = Spec.weightOfType b t := by
  induction h with
  | nil => rfl
  | cons x _ ih => simp only [Spec.weightOfType, List.map_cons, List.sum_cons] at *; rw [ih]
  | swap x y l => simp only [Spec.weightOfType, List.map_cons, List.sum_cons]; omega
  | trans _ _ h1 h2 => exact h1.trans h2

theorem foldlM_map' {α β γ : Type} (g : γ → α → Option γ) (k : β → α) : ∀ (l : List β) (a : γ),
    l.foldlM (fun a b => g a (k b)) a = (l.map k).foldlM g a
  | [], _ => rfl
  | b :: l, a => by
    simp only [List.map_cons, List.foldlM_cons]
    congr 1
    funext a'
    exact foldlM_map' g k l a'

/-- Python's view of a file with a weight for every type. -/
theorem pyMeta_shows {f : MetaFile} (hn : ∀ p ∈ f.partitions, p.2.node.length = f.nodeTypes)
    (he : ∀ p ∈ f.partitions, p.2.edge.length = f.edgeTypes) : ∃ p, pyMeta f = some p ∧ Spec.Shows f p := by
  have h1 := foldlM_addWeights (f.partitions.map (·.2.node)) (List.replicate f.nodeTypes 0) (by simp) (n := f.nodeTypes) (by
    rintro r hr; rw [List.mem_map] at hr; obtain ⟨x, hx, rfl⟩ := hr; exact hn x hx)
  have h2 := foldlM_addWeights (f.partitions.map (·.2.edge)) (List.replicate f.edgeTypes 0) (by simp) (n := f.edgeTypes) (by
    rintro r hr; rw [List.mem_map] at hr; obtain ⟨x, hx, rfl⟩ := hr; exact he x hx)
  have hz : ∀ (n : Nat) (rows : List (List Int)), ((List.range n).map fun t => (List.replicate n (0 : Int)).getD t 0 + Spec.weightOfType rows t) =
      (List.range n).map (Spec.weightOfType rows) := by
    intro n rows
    refine List.map_congr_left fun t ht => ?_
    rw [List.mem_range] at ht
    simp [ht]
  rw [hz] at h1 h2
  simp only [pyMeta]
  rw [foldlM_map' addWeights (fun (p : Nat × PartWeights) => p.2.node), h1, foldlM_map' addWeights (fun (p : Nat × PartWeights) => p.2.edge), h2]
  exact ⟨_, rfl, rfl, rfl, rfl, rfl, rfl, rfl, rfl, rfl, rfl, rfl, rfl, rfl⟩

end DeepGNN
