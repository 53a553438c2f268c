import Verif.Proofs.Features

namespace DeepGNN

theorem bsearch_shift {α} (lt : α → Bool) (l l' : List α) (s n : Nat)
    (h : ∀ i, i < n → l[s + i]? = l'[i]?) (len a : Nat) (ha : a + len ≤ n) :
    bsearch lt l (s + a) len = s + bsearch lt l' a len := by
  induction len using Nat.strongRecOn generalizing a with
  | ind len ih =>
    rw [bsearch, bsearch]
    split
    · rfl
    · dsimp only
      rw [Nat.add_assoc, h _ (by omega)]
      split
      · rfl
      · split
        · have := ih (len - len / 2 - 1) (by omega) (a + len / 2 + 1) (by omega)
          rw [← this]; congr 1
        · exact ih (len / 2) (by omega) a (by omega)

/-- Position of a destination within a group, as found by the lookup. -/
def pickIdx (dsts : List Int) (dst : Int) : Option Nat :=
  let pos := bsearch (fun a => decide (a < dst)) dsts 0 dsts.length
  if dsts.length > 16 ∧ pos ≠ dsts.length ∧ dsts[pos]? = some dst then some pos else dsts.idxOf? dst

theorem pickIdx_some {dsts : List Int} {dst : Int} {i : Nat} (h : pickIdx dsts dst = some i) :
    dsts[i]? = some dst := by
  simp only [pickIdx] at h
  split at h
  · rename_i hc
    obtain rfl := Option.some.inj h
    exact hc.2.2
  · rw [List.idxOf?_eq_some_iff] at h
    obtain ⟨h1, h2, -⟩ := h
    rw [List.getElem?_eq_getElem h1]; simpa using h2

theorem pickIdx_none {dsts : List Int} {dst : Int} (h : pickIdx dsts dst = none) : dst ∉ dsts := by
  simp only [pickIdx] at h
  split at h
  · simp at h
  · simpa [List.idxOf?_eq_none_iff] using h

/-- The edge found for a destination and a type. -/
def pickEdge (edges : List GEdge) (dst typ : Int) : Option GEdge :=
  (pickIdx ((edges.filter (fun e => e.typ = typ)).map (·.dst)) dst).bind fun i =>
    (edges.filter (fun e => e.typ = typ))[i]?

theorem pickEdge_some {edges : List GEdge} {dst typ : Int} {e : GEdge} (h : pickEdge edges dst typ = some e) :
    e ∈ edges ∧ e.dst = dst ∧ e.typ = typ := by
  simp only [pickEdge, Option.bind_eq_some_iff] at h
  obtain ⟨i, h1, h2⟩ := h
  have h3 := pickIdx_some h1
  rw [List.getElem?_map, h2] at h3
  have h4 := List.mem_filter.1 (List.mem_of_getElem? h2)
  exact ⟨h4.1, by simpa using h3, by simpa using h4.2⟩

theorem pickEdge_none {edges : List GEdge} {dst typ : Int} (h : pickEdge edges dst typ = none) :
    ∀ e ∈ edges, ¬ (e.dst = dst ∧ e.typ = typ) := by
  simp only [pickEdge, Option.bind_eq_none_iff] at h
  intro e he hh
  cases hp : pickIdx ((edges.filter (fun e => e.typ = typ)).map (·.dst)) dst with
  | none =>
    apply pickIdx_none hp
    exact List.mem_map.2 ⟨e, List.mem_filter.2 ⟨he, by simpa using hh.2⟩, hh.1⟩
  | some i =>
    have h1 := h i hp
    have h2 := pickIdx_some hp
    rw [List.getElem?_map, h1] at h2
    simp at h2

variable {m : Meta} {p : Partition} {k : Nat} {edges : List GEdge} {xs : List ((Int × List PEdge) × Nat)}

theorem filter_of_unique {α β} (l : List (Int × List α)) (hs : l.Pairwise (fun a b => a.1 < b.1))
    (typ : Int) (x : Int × List α) (hx : x ∈ l) (ht : x.1 = typ) (f : α → β) :
    (l.filter (fun a => decide (a.1 = typ))).flatMap (fun a => a.2.map f) = x.2.map f := by
  induction l with
  | nil => simp at hx
  | cons a l ih =>
    rw [List.pairwise_cons] at hs
    rcases List.mem_cons.1 hx with rfl | hx
    · have : l.filter (fun a => decide (a.1 = typ)) = [] := by
        rw [List.filter_eq_nil_iff]
        intro b hb
        have := hs.1 b hb
        simp; omega
      simp [ht, this]
    · have := hs.1 x hx
      rw [List.filter_cons, if_neg (by simp; omega)]
      exact ih hs.2 hx

theorem runs_ptyp (o : Nat) (edges : List GEdge) :
    runs GEdge.typ edges = (runs ptyp (withOffs nfeats o edges)).map fun g => (g.1, g.2.map (·.1)) := by
  conv => lhs; rw [← map_fst_withOffs nfeats o edges, runs_map]
  rfl

/-- The edges of one type are the run of that type. -/
theorem NodeTables.find_run (h : NodeTables m p k edges xs) (hs : edges.Pairwise (fun x y => x.typ ≤ y.typ))
    (typ : Int) :
    (xs.find? (fun x => x.1.1 = typ) = none ∧ edges.filter (fun e => e.typ = typ) = []) ∨
    ∃ x ∈ xs, xs.find? (fun x => x.1.1 = typ) = some x ∧
      edges.filter (fun e => e.typ = typ) = x.1.2.map (·.1) := by
  obtain ⟨o, ho⟩ := h.xruns
  have hr := runs_ptyp o edges
  have hsort := runs_sorted GEdge.typ edges hs
  have hf := filter_flatMap_runs edges [typ]
  simp only [List.mem_singleton] at hf
  cases hx : xs.find? (fun x => x.1.1 = typ) with
  | none =>
    left
    refine ⟨rfl, ?_⟩
    rw [← hf]
    simp only [List.flatMap_eq_nil_iff]
    intro g hg
    obtain ⟨hg1, hg2⟩ := List.mem_filter.1 hg
    rw [hr, ← ho] at hg1
    simp only [List.map_map, List.mem_map] at hg1
    obtain ⟨y, hy, rfl⟩ := hg1
    rw [List.find?_eq_none] at hx
    exact absurd hg2 (hx y hy)
  | some x =>
    right
    have hmem := List.mem_of_find?_eq_some hx
    have htyp : x.1.1 = typ := by simpa using List.find?_some hx
    refine ⟨x, hmem, rfl, ?_⟩
    rw [← hf]
    have hin : (x.1.1, x.1.2.map (·.1)) ∈ runs GEdge.typ edges := by
      rw [hr, ← ho]
      exact List.mem_map.2 ⟨x.1, List.mem_map_of_mem hmem, rfl⟩
    have := filter_of_unique _ hsort typ _ hin htyp id
    simpa using this

theorem NodeTables.edge_lookup (h : NodeTables m p k edges xs)
    (hs : edges.Pairwise (fun x y => x.typ ≤ y.typ)) (dst typ : Int) :
    (pickEdge edges dst typ = none ∧ p.edgeOffset k dst typ = some none) ∨
    ∃ e o, pickEdge edges dst typ = some e ∧ p.edgeOffset k dst typ = some (some o) ∧
      (m.edgeFeatureCount ≠ 0 → ∃ lo hi, p.edgeFeatureOffset[o]? = some lo ∧
        p.edgeFeatureOffset[o + 1]? = some hi ∧
        Owner p.edgeFeatureIndex p.edgeFeatures lo hi e.feats) := by
  have hfind : (xs.map toGroup).find? (fun g => g.typ = typ) = (xs.find? (fun x => x.1.1 = typ)).map toGroup := by
    rw [List.find?_map]; rfl
  simp only [Partition.edgeOffset, h.groups, Option.map_some, hfind, pickEdge]
  rcases h.find_run hs typ with ⟨h1, h2⟩ | ⟨x, hx, h1, h2⟩
  · left
    rw [h1, h2]
    simp [pickIdx]
  · rw [h1, h2]
    simp only [Option.map_some, toGroup, Nat.add_sub_cancel_left, List.map_map]
    generalize hds : x.1.2.map ((fun e : GEdge => e.dst) ∘ fun x : PEdge => x.1) = ds
    have hlen : ds.length = x.1.2.length := by rw [← hds]; simp
    have hget : ∀ i, i < ds.length → p.edgeDst[x.2 + i]? = ds[i]? := by
      intro i hi
      have hi' : i < x.1.2.length := by omega
      rw [h.dst x hx i hi']
      subst hds
      rw [List.getElem?_map, List.getElem?_eq_getElem hi']; rfl
    have hslice : (p.edgeDst.drop x.2).take x.1.2.length = ds := by
      apply List.ext_getElem?
      intro i
      rw [List.getElem?_take]
      split
      · rw [List.getElem?_drop, hget i (by omega)]
      · rw [List.getElem?_eq_none (by omega)]
    have hb := bsearch_shift (fun a => decide (a < dst)) p.edgeDst ds x.2 ds.length hget ds.length 0 (by omega)
    simp only [Nat.add_zero] at hb
    have hpos : (if x.1.2.length > 16 ∧ bsearch (fun a => decide (a < dst)) p.edgeDst x.2 x.1.2.length ≠
          x.2 + x.1.2.length ∧
          p.edgeDst[bsearch (fun a => decide (a < dst)) p.edgeDst x.2 x.1.2.length]? = some dst
        then some (bsearch (fun a => decide (a < dst)) p.edgeDst x.2 x.1.2.length)
        else findDst p.edgeDst x.2 x.1.2.length dst) = (pickIdx ds dst).map (x.2 + ·) := by
      have hle := bsearch_le (fun a => decide (a < dst)) ds 0 ds.length
      rw [← hlen, hb]
      simp only [pickIdx, findDst]
      rw [hlen, hslice, ← hlen]
      by_cases hlt : bsearch (fun a => decide (a < dst)) ds 0 ds.length = ds.length
      · rw [if_neg (by omega), if_neg (by omega)]
      · rw [hget _ (by omega)]
        by_cases hc : ds.length > 16 ∧ ds[bsearch (fun a => decide (a < dst)) ds 0 ds.length]? = some dst
        · rw [if_pos ⟨hc.1, by omega, hc.2⟩, if_pos ⟨hc.1, by omega, hc.2⟩]; rfl
        · rw [if_neg (fun hh => hc ⟨hh.1, hh.2.2⟩), if_neg (fun hh => hc ⟨hh.1, hh.2.2⟩)]
    rw [hpos]
    cases hp : pickIdx ds dst with
    | none => left; simp
    | some i =>
      right
      have hi := pickIdx_some hp
      obtain ⟨hlt, -⟩ := List.getElem?_eq_some_iff.1 hi
      rw [hlen] at hlt
      refine ⟨x.1.2[i].1, x.2 + i, by simp [List.getElem?_eq_getElem hlt], by simp, ?_⟩
      intro hc
      obtain ⟨f1, f2⟩ := h.foff (by omega) x hx i hlt
      refine ⟨_, _, f1, f2, rfl, ?_⟩
      intro j hj
      exact h.fdata hc x hx i hlt j hj

/-- Effect of the features `fl` of an edge on a dense edge feature query without timestamps. -/
def stepEdge (fl : List (Option Bytes)) (f : Nat × Nat) (s : Int × Bytes) : Int × Bytes :=
  if s.1 ≥ 0 then s else
    match fl[f.1]? with
    | none => (s.1, List.replicate f.2 0)
    | some v => (0, Spec.fit f.2 (featBytes v))

theorem edgeFeatureStep_owner {index data lo hi fl} (h : Owner index data lo hi fl) (f : Nat × Nat)
    (s : Int × Bytes) : edgeFeatureStep index data lo hi none f s = some (stepEdge fl f s) := by
  simp only [edgeFeatureStep, settled, stepEdge, decide_eq_true_eq]
  split
  · rfl
  · rename_i hs
    cases hf : fl[f.1]? with
    | none => simp [h.range_none hf]
    | some v =>
      obtain ⟨pre, post, h1, h2⟩ := h.range_some hf
      simp only [h2, Option.bind_some, featValue, h1, copyFeature_eq, Option.map_some]

/-- A block's contribution to an edge feature query. -/
def stepEdgeBlk (dst typ : Int) (b : Blk) (f : Nat × Nat) (s : Int × Bytes) : Int × Bytes :=
  match pickEdge b.edges dst typ with
  | none => s
  | some e => stepEdge e.feats f s

theorem stepEdgeBlk_none {dst typ : Int} {b : Blk} (h : pickEdge b.edges dst typ = none) :
    stepEdgeBlk dst typ b = fun _ s => s := by
  funext f s; simp [stepEdgeBlk, h]

theorem stepEdgeBlk_some {dst typ : Int} {b : Blk} {e : GEdge} (h : pickEdge b.edges dst typ = some e) :
    stepEdgeBlk dst typ b = stepEdge e.feats := by
  funext f s; simp [stepEdgeBlk, h]

theorem offsFrom_ne_nil (a : Nat) (l : List Nat) : offsFrom a l ≠ [] := by
  intro hh
  have := congrArg List.length hh
  simp at this

variable {C : WeightCodec} {g : Graph} {items : List Item} {parts : List (List (List Rec))}

theorem zipWith_snd {α β} (fs : List α) (ss : List β) (h : fs.length = ss.length) :
    List.zipWith (fun _ s => s) fs ss = ss := by
  induction fs generalizing ss with
  | nil => cases ss with
    | nil => rfl
    | cons s ss => simp at h
  | cons f fs ih => cases ss with
    | nil => simp at h
    | cons s ss => simp [ih ss (by simpa using h)]

/-- If there are no edge features at all the state of an all-zero buffer does not change. -/
def Zeroed (feats : List (Nat × Nat)) (ss : List (Int × Bytes)) : Prop :=
  feats.length = ss.length ∧ ∀ x ∈ feats.zip ss, x.2.1 < 0 → x.2.2 = List.replicate x.1.2 0

theorem Zeroed.step {feats ss} (h : Zeroed feats ss) (r : Nat × Nat → Int × Bytes → Int × Bytes)
    (hr : ∀ f s, (s.1 < 0 → s.2 = List.replicate f.2 0) → ((r f s).1 < 0 → (r f s).2 = List.replicate f.2 0)) :
    Zeroed feats (List.zipWith r feats ss) := by
  obtain ⟨h1, h2⟩ := h
  refine ⟨by simp [← h1], ?_⟩
  clear h1
  induction feats generalizing ss with
  | nil => simp
  | cons f fs ih =>
    cases ss with
    | nil => simp
    | cons s ss =>
      simp only [List.zip_cons_cons, List.mem_cons, forall_eq_or_imp] at h2
      simp only [List.zipWith_cons_cons, List.zip_cons_cons, List.mem_cons, forall_eq_or_imp]
      exact ⟨hr f s h2.1, ih h2.2⟩

theorem stepEdge_zero (fl : List (Option Bytes)) (f : Nat × Nat) (s : Int × Bytes)
    (h : s.1 < 0 → s.2 = List.replicate f.2 0) :
    (stepEdge fl f s).1 < 0 → (stepEdge fl f s).2 = List.replicate f.2 0 := by
  simp only [stepEdge]
  split
  · exact h
  · split
    · intro _; rfl
    · intro hh; simp at hh

theorem stepEdgeBlk_zero (dst typ : Int) (b : Blk) (f : Nat × Nat) (s : Int × Bytes)
    (h : s.1 < 0 → s.2 = List.replicate f.2 0) :
    (stepEdgeBlk dst typ b f s).1 < 0 → (stepEdgeBlk dst typ b f s).2 = List.replicate f.2 0 := by
  simp only [stepEdgeBlk]
  split
  · exact h
  · exact stepEdge_zero _ _ _ h

theorem zipWith_stepEdge_nil {feats ss} (h : Zeroed feats ss) : List.zipWith (stepEdge []) feats ss = ss := by
  obtain ⟨h1, h2⟩ := h
  induction feats generalizing ss with
  | nil => cases ss with
    | nil => rfl
    | cons s ss => simp at h1
  | cons f fs ih => cases ss with
    | nil => simp at h1
    | cons s ss =>
      simp only [List.zip_cons_cons, List.mem_cons, forall_eq_or_imp] at h2
      rw [List.zipWith_cons_cons, ih (by simpa using h1) h2.2]
      congr 1
      simp only [stepEdge, List.getElem?_nil]
      split
      · rfl
      · rw [← h2.1 (by omega)]

theorem GraphOk.edgeBlocks (h : GraphOk C m g items parts)
    (hc : ∀ it ∈ items, it.files.edgeFeatureCount ≤ m.edgeFeatureCount) {it : Item} (hit : it ∈ items)
    {x : Blk × Nat} (hx : x ∈ it.blks.zipIdx) (dst typ : Int) :
    (pickEdge x.1.edges dst typ = none ∧ it.part.edgeOffset x.2 dst typ = some none) ∨
    ∃ e o, pickEdge x.1.edges dst typ = some e ∧ it.part.edgeOffset x.2 dst typ = some (some o) ∧
      ((m.edgeFeatureCount = 0 ∧ e.feats = [] ∧ it.part.edgeFeatureIndex = []) ∨
       (it.part.edgeFeatureIndex ≠ [] ∧ ∃ lo hi, it.part.edgeFeatureOffset[o]? = some lo ∧
        it.part.edgeFeatureOffset[o + 1]? = some hi ∧
        Owner it.part.edgeFeatureIndex it.part.edgeFeatures lo hi e.feats)) := by
  obtain ⟨xs, ht⟩ := (h.ok it hit).tables hx
  obtain ⟨c, -, hsrc⟩ := item_of_src h.src hit
  have hb : x.1 ∈ it.blks := by
    rw [List.mem_zipIdx_iff_getElem?] at hx
    exact List.mem_of_getElem? hx
  rcases ht.edge_lookup (hsrc.sorted x.1 hb) dst typ with hn | ⟨e, o, h1, h2, h3⟩
  · exact Or.inl hn
  · refine Or.inr ⟨e, o, h1, h2, ?_⟩
    by_cases hm : m.edgeFeatureCount = 0
    · left
      have h4 := hsrc.efc x.1 hb e (pickEdge_some h1).1
      have h5 := hc it hit
      exact ⟨hm, List.eq_nil_of_length_eq_zero (by omega), (h.ok it hit).loaded.noEdgeFeatures hm⟩
    · right
      refine ⟨?_, h3 hm⟩
      rw [(h.ok it hit).loaded.edgeFeatureIndex hm]
      exact offsFrom_ne_nil _ _

theorem GraphOk.edgeFeatureFold (h : GraphOk C m g items parts)
    (hc : ∀ it ∈ items, it.files.edgeFeatureCount ≤ m.edgeFeatureCount)
    (feats : List (Nat × Nat)) (src dst typ : Int) :
    ∃ es, g.entries src = some es ∧ ∀ ss, Zeroed feats ss →
      es.foldlM (fun (ss : List (Int × Bytes)) (x : Partition × Nat) =>
        x.1.edgeFeature x.2 dst typ none feats ss) ss =
      some (List.zipWith (fun f s => (nodeBlks items src).foldl (fun s b => stepEdgeBlk dst typ b f s) s)
        feats ss) := by
  obtain ⟨es, h1, h2⟩ := h.foldEntries src
    (fun (ss : List (Int × Bytes)) (x : Partition × Nat) => x.1.edgeFeature x.2 dst typ none feats ss)
    (fun ss b => List.zipWith (stepEdgeBlk dst typ b) feats ss) (Zeroed feats)
    (fun ss b hs => hs.step _ (stepEdgeBlk_zero dst typ b)) (by
      intro it hit x hx _ ss hss
      simp only [Partition.edgeFeature, Partition.withEdge]
      rcases h.edgeBlocks hc hit hx dst typ with ⟨e1, e2⟩ | ⟨e, o, e1, e2, ⟨hm, e3, e4⟩ | ⟨e3, lo, hi, e4, e5, ho⟩⟩
      · rw [e2]
        simp only [Option.bind_some, Option.some.injEq]
        rw [stepEdgeBlk_none e1, zipWith_snd _ _ hss.1]
      · rw [e2]
        simp only [Option.bind_some, e4, or_true, if_true, Option.some.injEq]
        rw [stepEdgeBlk_some e1, e3, zipWith_stepEdge_nil hss]
      · rw [e2]
        simp only [Option.bind_some]
        rw [if_neg, e4, e5]
        · have := stepAll_pure (fun f (_ : f ∈ feats) s => edgeFeatureStep_owner ho f s) ss
          simp only [Option.bind_some, this, stepEdgeBlk_some e1]
        · simp only [e3, or_false]
          intro hh; rw [hh] at e4; simp at e4)
  refine ⟨es, h1, fun ss hss => ?_⟩
  rw [h2 ss hss, foldl_zipWith _ _ _ _ hss.1]

/-- The edge whose value is returned for feature `fid`: the first one found that has such a
feature. -/
def edgeValue (bs : List Blk) (dst typ : Int) (fid : Nat) : Bytes :=
  match (bs.filterMap (fun b => pickEdge b.edges dst typ)).find? (fun e => fid < e.feats.length) with
  | some e => (e.feats[fid]?.join).getD []
  | none => []

theorem foldl_stepEdge (bs : List Blk) (dst typ : Int) (f : Nat × Nat) :
    (bs.foldl (fun s b => stepEdgeBlk dst typ b f s) ((-1 : Int), List.replicate f.2 0)).2 =
      Spec.fit f.2 (edgeValue bs dst typ f.1) := by
  induction bs with
  | nil => simp [edgeValue, Spec.fit]
  | cons b bs ih =>
    rw [List.foldl_cons]
    cases hp : pickEdge b.edges dst typ with
    | none =>
      have : stepEdgeBlk dst typ b f (-1, List.replicate f.2 0) = (-1, List.replicate f.2 0) := by
        simp [stepEdgeBlk, hp]
      rw [this, ih]
      simp [edgeValue, List.filterMap_cons, hp]
    | some e =>
      by_cases hf : f.1 < e.feats.length
      · have hf' : e.feats[f.1]? = some e.feats[f.1] := List.getElem?_eq_getElem hf
        have : stepEdgeBlk dst typ b f (-1, List.replicate f.2 0) =
            (0, Spec.fit f.2 (featBytes e.feats[f.1])) := by
          simp [stepEdgeBlk, hp, stepEdge, hf']
        have h2 : ∀ (l : List Blk) v, l.foldl (fun s b => stepEdgeBlk dst typ b f s) ((0 : Int), v) = (0, v) := by
          intro l v
          induction l with
          | nil => rfl
          | cons a l ih =>
            rw [List.foldl_cons]
            have : stepEdgeBlk dst typ a f (0, v) = (0, v) := by
              simp only [stepEdgeBlk]; split <;> simp [stepEdge]
            rw [this]; exact ih
        rw [this, h2]
        simp only [edgeValue, List.filterMap_cons, hp, List.find?_cons, hf, decide_true, hf', Option.join_some]
        cases e.feats[f.1] <;> rfl
      · have hf' : e.feats[f.1]? = none := List.getElem?_eq_none_iff.2 (by omega)
        have : stepEdgeBlk dst typ b f (-1, List.replicate f.2 0) = (-1, List.replicate f.2 0) := by
          simp [stepEdgeBlk, hp, stepEdge, hf']
        rw [this, ih]
        simp [edgeValue, List.filterMap_cons, hp, hf]

theorem slices_zero (ns : List Nat) :
    slices ns (List.replicate ns.sum 0) = ns.map fun n => List.replicate n (0 : UInt8) := by
  induction ns with
  | nil => rfl
  | cons n ns ih => simp [slices, ih]

theorem GraphOk.edgeFeature1 (h : GraphOk C m g items parts)
    (hc : ∀ it ∈ items, it.files.edgeFeatureCount ≤ m.edgeFeatureCount)
    (feats : List (Nat × Nat)) (e : EdgeId) :
    g.edgeFeature1 feats e none (List.replicate (feats.map (·.2)).sum 0) =
      some (feats.flatMap fun f => Spec.fit f.2 (edgeValue (nodeBlks items e.src) e.dst e.typ f.1)) := by
  obtain ⟨es, h1, h2⟩ := h.edgeFeatureFold hc feats e.src e.dst e.typ
  simp only [Graph.edgeFeature1]
  cases hm : g.nodeMap e.src with
  | none =>
    have hno := ((entries_items h.parts_eq h.inv e.src).2).1 hm
    have hnil : nodeBlks items e.src = [] := by
      simp only [nodeBlks, List.flatMap_eq_nil_iff, List.filter_eq_nil_iff]
      intro it hit b hb
      simpa using hno it hit b hb
    simp only [hnil, edgeValue, List.filterMap_nil, List.find?_nil, Spec.fit, List.length_replicate,
      Option.some.injEq]
    clear h2
    induction feats with
    | nil => rfl
    | cons f fs ih =>
      rw [List.map_cons, List.sum_cons, List.flatMap_cons, ← ih, ← List.replicate_append_replicate]
      simp
  | some i =>
    simp only [h1, Option.bind_some]
    rw [slices_zero, List.map_map, List.map_map, h2]
    · simp only [Option.map_some, Option.some.injEq]
      clear h2
      induction feats with
      | nil => rfl
      | cons f fs ih =>
        simp only [List.map_cons, List.zipWith_cons_cons, List.flatMap_cons]
        rw [ih]
        congr 1
        exact foldl_stepEdge _ _ _ _
    · refine ⟨by simp, ?_⟩
      clear h2
      intro x hx _
      rw [List.zip_map_right, List.mem_map] at hx
      obtain ⟨⟨a, b⟩, hab, rfl⟩ := hx
      have : a = b := by
        rw [List.mem_iff_getElem] at hab
        obtain ⟨i, hi, h3⟩ := hab
        simp only [List.getElem_zip, Prod.mk.injEq] at h3
        rw [← h3.1, ← h3.2]
      subst this
      rfl

theorem mem_effEdges_rec {nc nr : Int} {rs : List Rec} {x : Int × GEdge} (h : x ∈ effEdges nc nr rs) :
    ∃ r ∈ rs, r.dst ≠ -1 ∧ r.src = x.1 ∧ r.dst = x.2.dst ∧ r.typ = x.2.typ ∧ r.features = x.2.feats := by
  induction rs generalizing nc nr with
  | nil => simp [effEdges] at h
  | cons r rs ih =>
    simp only [effEdges] at h
    split at h
    · obtain ⟨r', hr', h'⟩ := ih h; exact ⟨r', by simp [hr'], h'⟩
    · rename_i hd
      rcases List.mem_cons.1 h with rfl | h
      · exact ⟨r, by simp, hd, rfl, rfl, rfl, rfl⟩
      · obtain ⟨r', hr', h'⟩ := ih h; exact ⟨r', by simp [hr'], h'⟩

theorem rec_mem_effEdges {nc nr : Int} {rs : List Rec} {r : Rec} (h : r ∈ rs) (hd : r.dst ≠ -1) :
    ∃ x ∈ effEdges nc nr rs, x.1 = r.src ∧ x.2.dst = r.dst ∧ x.2.typ = r.typ := by
  induction rs generalizing nc nr with
  | nil => simp at h
  | cons a rs ih =>
    simp only [effEdges]
    rcases List.mem_cons.1 h with rfl | h
    · rw [if_neg hd]; exact ⟨(r.src, effEdge nc nr r), by simp, rfl, rfl, rfl⟩
    · split
      · exact ih h
      · obtain ⟨x, hx, hx'⟩ := ih h (nc := nc) (nr := nr); exact ⟨x, by simp [hx], hx'⟩

/-- An edge of a block comes from an edge record of the input. -/
theorem GraphOk.edge_record (h : GraphOk C m g items parts) {n : Int} {b : Blk} (hb : b ∈ nodeBlks items n)
    {e : GEdge} (he : e ∈ b.edges) :
    ∃ r ∈ Spec.edgesBetween parts n e.dst e.typ, r.features = e.feats := by
  obtain ⟨it, hit, hb⟩ := List.mem_flatMap.1 hb
  obtain ⟨hb1, hb2⟩ := List.mem_filter.1 hb
  have hb2 : b.id = n := by simpa using hb2
  obtain ⟨c, hc, hsrc⟩ := item_of_src h.src hit
  have : (b.id, e) ∈ c.flatMap (effEdges 0 (-1)) := by
    rw [← hsrc.edges]; exact List.mem_flatMap.2 ⟨b, hb1, List.mem_map.2 ⟨e, he, rfl⟩⟩
  obtain ⟨d, hd, hx⟩ := List.mem_flatMap.1 this
  obtain ⟨r, hr, h1, h2, h3, h4, h5⟩ := mem_effEdges_rec hx
  refine ⟨r, ?_, h5⟩
  refine List.mem_filter.2 ⟨List.mem_filter.2 ⟨List.mem_flatten.2 ⟨d, List.mem_flatten.2 ⟨c, hc, hd⟩, hr⟩,
    by simpa using h1⟩, ?_⟩
  simp [h2, h3, h4, hb2]

/-- Conversely every edge record is an edge of a block. -/
theorem GraphOk.record_edge (h : GraphOk C m g items parts) {n dst typ : Int} {r : Rec}
    (hr : r ∈ Spec.edgesBetween parts n dst typ) :
    ∃ b ∈ nodeBlks items n, ∃ e ∈ b.edges, e.dst = dst ∧ e.typ = typ := by
  obtain ⟨hr1, hr2⟩ := List.mem_filter.1 hr
  obtain ⟨hr3, hr4⟩ := List.mem_filter.1 hr1
  obtain ⟨d, hd, hr5⟩ := List.mem_flatten.1 hr3
  simp only [decide_eq_true_eq] at hr2
  obtain ⟨x, hx, h1, h2, h3⟩ := rec_mem_effEdges (nc := 0) (nr := -1) hr5 (by simpa using hr4)
  have hall := h.all_edges n (fun _ => true)
  have : x.2 ∈ ((parts.flatten.flatMap (effEdges 0 (-1))).filter
      (fun y => decide (y.1 = n) && true)).map (·.2) := by
    refine List.mem_map.2 ⟨x, List.mem_filter.2 ⟨List.mem_flatMap.2 ⟨d, hd, hx⟩, ?_⟩, rfl⟩
    simp [h1, hr2.1]
  rw [← hall] at this
  obtain ⟨it, hit, h4⟩ := List.mem_flatMap.1 this
  obtain ⟨b, hb, h5⟩ := List.mem_flatMap.1 h4
  refine ⟨b, List.mem_flatMap.2 ⟨it, hit, hb⟩, x.2, (List.mem_filter.1 h5).1, ?_, ?_⟩
  · rw [h2, hr2.2.1]
  · rw [h3, hr2.2.2]

/-- The value returned belongs to a record of the requested edge. -/
theorem GraphOk.edgeValue_spec (h : GraphOk C m g items parts) (n dst typ : Int) (fid : Nat) :
    (Spec.edgesBetween parts n dst typ = [] → edgeValue (nodeBlks items n) dst typ fid = []) ∧
    (Spec.edgesBetween parts n dst typ ≠ [] → ∃ r ∈ Spec.edgesBetween parts n dst typ,
      edgeValue (nodeBlks items n) dst typ fid = Spec.featureOf r fid) := by
  have hpick : ∀ e ∈ (nodeBlks items n).filterMap (fun b => pickEdge b.edges dst typ),
      ∃ r ∈ Spec.edgesBetween parts n dst typ, r.features = e.feats := by
    intro e he
    obtain ⟨b, hb, he⟩ := List.mem_filterMap.1 he
    obtain ⟨h1, h2, h3⟩ := pickEdge_some he
    have := h.edge_record hb h1
    rw [h2, h3] at this
    exact this
  constructor
  · intro hn
    have : (nodeBlks items n).filterMap (fun b => pickEdge b.edges dst typ) = [] := by
      rw [List.eq_nil_iff_forall_not_mem]
      intro e he
      obtain ⟨r, hr, -⟩ := hpick e he
      rw [hn] at hr; simp at hr
    simp [edgeValue, this]
  · intro hne
    simp only [edgeValue]
    cases hf : ((nodeBlks items n).filterMap (fun b => pickEdge b.edges dst typ)).find?
        (fun e => decide (fid < e.feats.length)) with
    | some e =>
      obtain ⟨r, hr, hre⟩ := hpick e (List.mem_of_find?_eq_some hf)
      exact ⟨r, hr, by simp [Spec.featureOf, hre]⟩
    | none =>
      obtain ⟨r0, hr0⟩ := List.exists_mem_of_ne_nil _ hne
      obtain ⟨b, hb, e, he, h1, h2⟩ := h.record_edge hr0
      cases hp : pickEdge b.edges dst typ with
      | none => exact absurd ⟨h1, h2⟩ (pickEdge_none hp e he)
      | some e' =>
        have hmem : e' ∈ (nodeBlks items n).filterMap (fun b => pickEdge b.edges dst typ) :=
          List.mem_filterMap.2 ⟨b, hb, hp⟩
        obtain ⟨r, hr, hre⟩ := hpick e' hmem
        rw [List.find?_eq_none] at hf
        have hlen := hf e' hmem
        refine ⟨r, hr, ?_⟩
        have : r.features[fid]? = none := by
          rw [hre]; exact List.getElem?_eq_none_iff.2 (by simpa using hlen)
        simp [Spec.featureOf, this]

end DeepGNN
