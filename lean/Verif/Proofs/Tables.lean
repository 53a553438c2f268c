import Verif.Proofs.Close

namespace DeepGNN

/-- An edge with the position of its first feature in the feature index. -/
abbrev PEdge := GEdge × Nat

def ptyp (x : PEdge) : Int := x.1.typ

/-- Like `blkRecs`, before forgetting what is not in the edge index. -/
def blkX (a : Nat) : List Blk → List (List PEdge)
  | [] => []
  | b :: bs => withOffs nfeats a b.edges :: blkX (a + (b.edges.map nfeats).sum) bs

@[simp] theorem length_blkX (a : Nat) (bs : List Blk) : (blkX a bs).length = bs.length := by
  induction bs generalizing a with
  | nil => rfl
  | cons b bs ih => simp [blkX, ih]

theorem blkRecs_eq (a : Nat) (bs : List Blk) : blkRecs a bs = (blkX a bs).map (·.map eRec) := by
  induction bs generalizing a with
  | nil => rfl
  | cons b bs ih => simp [blkX, blkRecs, ih]

theorem blkX_flatten (a : Nat) (bs : List Blk) :
    (blkX a bs).flatten = withOffs nfeats a (allEdges bs) := by
  induction bs generalizing a with
  | nil => rfl
  | cons b bs ih =>
    have : allEdges (b :: bs) = b.edges ++ allEdges bs := by simp [allEdges]
    rw [this, withOffs_append]
    simp [blkX, ih]

theorem blkX_get (a : Nat) (bs : List Blk) (k : Nat) (hk : k < bs.length) :
    (blkX a bs)[k]'(by simpa using hk) = withOffs nfeats (a + featStart bs k) bs[k].edges := by
  induction bs generalizing a k with
  | nil => simp at hk
  | cons b bs ih =>
    cases k with
    | zero => simp [blkX, featStart, allEdges]
    | succ k =>
      simp only [blkX, List.getElem_cons_succ]
      rw [ih _ k (by simpa using hk)]
      simp [featStart, allEdges, Nat.add_assoc]

theorem runStarts_map {α β} (f : α → β) (s : Nat) (l : List (Int × List α)) :
    runStarts s (l.map fun g => (g.1, g.2.map f)) =
      (runStarts s l).map fun x => ((x.1.1, x.1.2.map f), x.2) := by
  induction l generalizing s with
  | nil => rfl
  | cons g gs ih => simp [runStarts, ih]

/-- Entry `j` of a feature index with the data it refers to. -/
def FeatAt (index : List Nat) (data : Bytes) (j : Nat) (v : Bytes) : Prop :=
  ∃ pre post, data = pre ++ v ++ post ∧ index[j]? = some pre.length ∧
    index[j + 1]? = some (pre.length + v.length)

theorem featAt_of_list {l : List (Option Bytes)} {j : Nat} {v : Option Bytes} (h : l[j]? = some v) :
    FeatAt (offsFrom 0 (l.map featSize)) (l.flatMap featBytes) j (featBytes v) := by
  obtain ⟨hj, hv⟩ := List.getElem?_eq_some_iff.1 h
  refine ⟨(l.take j).flatMap featBytes, (l.drop (j + 1)).flatMap featBytes, ?_, ?_, ?_⟩
  · conv => lhs; rw [← List.take_append_drop j l, List.drop_eq_getElem_cons hj, hv]
    simp
  · rw [getElem?_offsFrom _ _ _ (by simp; omega), length_flatMap_featBytes, ← List.map_take]; simp
  · rw [getElem?_offsFrom _ _ _ (by simp; omega), length_flatMap_featBytes, ← List.map_take,
      List.take_succ, h]
    simp [length_featBytes]

theorem flatMap_of_withOffs {l : List GEdge} {a q : Nat} {x : PEdge}
    (h : (withOffs nfeats a l)[q]? = some x) (j : Nat) (hj : j < x.1.feats.length) :
    a ≤ x.2 ∧ (l.flatMap (·.feats))[x.2 - a + j]? = some x.1.feats[j] := by
  induction l generalizing a q with
  | nil => simp [withOffs] at h
  | cons e es ih =>
    cases q with
    | zero =>
      simp only [withOffs, List.getElem?_cons_zero, Option.some.injEq] at h
      subst h
      refine ⟨Nat.le_refl _, ?_⟩
      simp only [Nat.sub_self, Nat.zero_add, List.flatMap_cons]
      rw [List.getElem?_append_left hj, List.getElem?_eq_getElem hj]
    | succ q =>
      simp only [withOffs, List.getElem?_cons_succ] at h
      obtain ⟨h1, h2⟩ := ih h
      refine ⟨by omega, ?_⟩
      rw [List.flatMap_cons, List.getElem?_append_right (by simp only [nfeats] at h1; omega), ← h2]
      congr 1
      simp only [nfeats] at h1 ⊢; omega

/-- Everything a query on node `k` reads, in terms of the edges `b.edges` that were written for it. -/
structure NodeTables (m : Meta) (p : Partition) (k : Nat) (edges : List GEdge)
    (xs : List ((Int × List PEdge) × Nat)) : Prop where
  groups : p.groups k = some (xs.map toGroup)
  xruns : ∃ o, xs.map (·.1) = runs ptyp (withOffs nfeats o edges)
  dst : ∀ x ∈ xs, ∀ i (hi : i < x.1.2.length), p.edgeDst[x.2 + i]? = some x.1.2[i].1.dst
  weight : ∀ x ∈ xs, ∀ i (hi : i < x.1.2.length),
    p.edgeWeight x.2 (x.2 + i) = some (seenWeight (x.1.2.map (·.1.weight)) i)
  cum : ∀ x ∈ xs, ∀ i (_ : i < x.1.2.length),
    p.edgeWeights[x.2 + i]? = some (fsum 0 ((x.1.2.map (·.1.weight)).take (i + 1)))
  ts : 0 ≤ m.watermark → ∀ x ∈ xs, ∀ i (hi : i < x.1.2.length),
    p.edgeTimestamps[x.2 + i]? = some (x.1.2[i].1.created, x.1.2[i].1.removed)
  foff : m.edgeFeatureCount > 0 → ∀ x ∈ xs, ∀ i (hi : i < x.1.2.length),
    p.edgeFeatureOffset[x.2 + i]? = some x.1.2[i].2 ∧
    p.edgeFeatureOffset[x.2 + i + 1]? = some (x.1.2[i].2 + nfeats x.1.2[i].1)
  fdata : m.edgeFeatureCount ≠ 0 → ∀ x ∈ xs, ∀ i (hi : i < x.1.2.length),
    ∀ j (hj : j < x.1.2[i].1.feats.length),
    FeatAt p.edgeFeatureIndex p.edgeFeatures (x.1.2[i].2 + j) (featBytes x.1.2[i].1.feats[j])

theorem withOffs_next {α} (sz : α → Nat) (a : Nat) (l : List α) (j : Nat) (hj : j < l.length) :
    ((withOffs sz a l).map (·.2) ++ [a + (l.map sz).sum])[j + 1]? =
      some (((withOffs sz a l)[j]'(by simpa using hj)).2 + sz ((withOffs sz a l)[j]'(by simpa using hj)).1) := by
  induction l generalizing a j with
  | nil => simp at hj
  | cons x xs ih =>
    cases j with
    | zero =>
      cases xs with
      | nil => simp [withOffs]
      | cons y ys => simp [withOffs]
    | succ j =>
      have := ih (a + sz x) j (by simpa using hj)
      simp only [withOffs, List.map_cons, List.cons_append, List.getElem?_cons_succ,
        List.getElem_cons_succ, List.sum_cons]
      rw [← this, Nat.add_assoc]

theorem Loaded.tables {m : Meta} {p : Partition} {bs : List Blk} (h : Loaded m p bs) (k : Nat)
    (hk : k < bs.length) : ∃ xs, NodeTables m p k bs[k].edges xs := by
  obtain ⟨sent, hle, hsent⟩ := h.edges
  let GRs : List (List (Int × List PEdge)) := (blkX 0 bs).map (DeepGNN.runs ptyp)
  let F : Int × List PEdge → Int × List EdgeRecord := fun g => (g.1, g.2.map eRec)
  have hRs : (blkRecs 0 bs).map (DeepGNN.runs EdgeRecord.typ) = GRs.map (·.map F) := by
    rw [blkRecs_eq, List.map_map, List.map_map]
    apply List.map_congr_left
    intro l _
    simp only [Function.comp, runs_map]
    rfl
  rw [hRs] at hle
  have hflat : GRs.flatten.flatMap (·.2) = withOffs nfeats 0 (allEdges bs) := by
    rw [← blkX_flatten]
    simp only [GRs]
    generalize blkX 0 bs = L
    induction L with
    | nil => rfl
    | cons l L ih => simp only [List.map_cons, List.flatten_cons, List.flatMap_append, ih, runs_flatMap]
  have hk' : k < GRs.length := by simpa [GRs] using hk
  have hk2 : k < (GRs.map (·.map F)).length := by simpa using hk'
  have hFlat : (GRs.map (·.map F)).flatten = GRs.flatten.map F := by rw [List.map_flatten]
  -- membership of the mapped runs
  have hmem : ∀ {s : Nat} {x : (Int × List PEdge) × Nat}, x ∈ runStarts s GRs[k] →
      ((F x.1, x.2) : (Int × List EdgeRecord) × Nat) ∈ runStarts s ((GRs.map (·.map F))[k]) := by
    intro s x hx
    rw [List.getElem_map]
    have := runStarts_map eRec s GRs[k]
    simp only [F]
    rw [this]
    exact List.mem_map.2 ⟨x, hx, rfl⟩
  let es := edgeStart (GRs.map (·.map F)) k
  have hes : es = ((GRs.take k).flatten.map (·.2.length)).sum := by
    simp only [es, edgeStart, ← List.map_take]
    rw [← List.map_flatten, List.map_map]
    simp [F, Function.comp_def]
  have hsplit : GRs.flatten = (GRs.take k).flatten ++ GRs[k] ++ (GRs.drop (k + 1)).flatten := by
    conv => lhs; rw [← List.take_append_drop k GRs]
    rw [List.flatten_append, List.append_assoc]
    congr 1
    conv => lhs; rw [List.drop_eq_getElem_cons hk']
    exact List.flatten_cons
  have hmem0 : ∀ {x : (Int × List PEdge) × Nat}, x ∈ runStarts es GRs[k] → x ∈ runStarts 0 GRs.flatten := by
    intro x hx
    rw [hsplit, runStarts_append, runStarts_append]
    simp only [List.mem_append]
    refine Or.inl (Or.inr ?_)
    rw [hes] at hx; simpa using hx
  -- position in the table of all edges
  have hpos : ∀ x ∈ runStarts es GRs[k], ∀ i (hi : i < x.1.2.length),
      x.2 + i < (allEdges bs).length ∧
      (withOffs nfeats 0 (allEdges bs))[x.2 + i]? = some x.1.2[i] := by
    intro x hx i hi
    obtain ⟨_, h2, h3⟩ := slice_runStarts (hmem0 hx) (fun g => g.2) (fun _ _ => rfl) i hi
    rw [hflat] at h2 h3
    simp only [length_withOffs, Nat.sub_zero] at h2 h3
    exact ⟨h2, by rw [h3, List.getElem?_eq_getElem hi]⟩
  refine ⟨runStarts es GRs[k], ?_, ?_, ?_, ?_, ?_, ?_, ?_, ?_⟩
  · rw [hle.groups k hk2]
    simp only [List.getElem_map]
    have := runStarts_map eRec es GRs[k]
    simp only [F, es] at this ⊢
    rw [this, List.map_map]
    simp [toGroup, Function.comp_def]
  · refine ⟨0 + featStart bs k, ?_⟩
    rw [map_fst_runStarts]
    simp only [GRs, List.getElem_map]
    rw [blkX_get 0 bs k hk]
  · intro x hx i hi
    have := hle.edgeDst_get (LoadedEdges.mem_runStarts k hk2 (hmem hx)) i (by simpa [F] using hi)
    simpa [F, eRec] using this
  · intro x hx i hi
    have := hle.edgeWeight (LoadedEdges.mem_runStarts k hk2 (hmem hx)) i (by simpa [F] using hi)
    simpa [F, eRec, Function.comp_def] using this
  · intro x hx i hi
    have := hle.edgeWeights_get (LoadedEdges.mem_runStarts k hk2 (hmem hx)) i (by simpa [F] using hi)
    simpa [F, eRec, Function.comp_def] using this
  · intro hwm x hx i hi
    obtain ⟨h1, h2⟩ := hpos x hx i hi
    rw [h.edgeTimestamps hwm, ← map_fst_withOffs nfeats 0 (allEdges bs), List.map_map,
      List.getElem?_map, h2]
    rfl
  · intro hc x hx i hi
    obtain ⟨h1, h2⟩ := hpos x hx i hi
    have htab : p.edgeFeatureOffset = (withOffs nfeats 0 (allEdges bs)).map (·.2) ++
        [0 + ((allEdges bs).map nfeats).sum] := by
      rw [hle.edgeFeatureOffset, if_pos hc, hFlat, List.flatMap_map, hsent, length_allEdgeFeats,
        ← hflat, List.map_flatMap, List.map_flatMap]
      simp [F, eRec, Function.comp_def]
    rw [htab]
    constructor
    · rw [List.getElem?_append_left (by simpa using h1), List.getElem?_map, h2]; rfl
    · rw [withOffs_next nfeats 0 _ _ h1]
      rw [List.getElem?_eq_getElem (by simpa using h1)] at h2
      rw [Option.some.inj h2]
  · intro hc x hx i hi j hj
    obtain ⟨h1, h2⟩ := hpos x hx i hi
    rw [h.edgeFeatureIndex hc, h.edgeFeatures hc]
    apply featAt_of_list
    have := (flatMap_of_withOffs h2 j hj).2
    simpa [allEdgeFeats] using this

end DeepGNN
