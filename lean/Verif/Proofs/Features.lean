import Verif.Proofs.GraphQuery
import Verif.Model.Features
import Verif.Spec.Features

namespace DeepGNN

theorem readAt_in (pre v post : Bytes) (k n : Nat) (h : k + n ≤ v.length) :
    readAt (pre ++ v ++ post) (pre.length + k) n = some ((v.drop k).take n) := by
  rw [readAt, if_pos (by simp only [List.length_append]; omega)]
  congr 1
  rw [List.append_assoc, ← List.drop_drop, List.drop_left, List.drop_append_of_le_length (by omega),
    List.take_append_of_le_length (by simp; omega)]

theorem readAt_start (pre v post : Bytes) (n : Nat) (h : n ≤ v.length) :
    readAt (pre ++ v ++ post) pre.length n = some (v.take n) := by
  have := readAt_in pre v post 0 n (by omega)
  simpa using this

/-- Entries `lo … hi-1` of the feature index are the features `fl`. -/
structure Owner (index : List Nat) (data : Bytes) (lo hi : Nat) (fl : List (Option Bytes)) : Prop where
  hi : hi = lo + fl.length
  at_ : ∀ j (hj : j < fl.length), FeatAt index data (lo + j) (featBytes fl[j])

theorem Owner.range_none {index data lo hi fl} (h : Owner index data lo hi fl) {fid : Nat}
    (hf : fl[fid]? = none) : featRange index lo hi fid = some none := by
  rw [List.getElem?_eq_none_iff] at hf
  rw [featRange, if_pos (by have := h.hi; omega)]

theorem Owner.range_some {index data lo hi fl} (h : Owner index data lo hi fl) {fid : Nat} {v : Option Bytes}
    (hf : fl[fid]? = some v) : ∃ pre post, data = pre ++ featBytes v ++ post ∧
      featRange index lo hi fid = some (some (pre.length, (featBytes v).length)) := by
  obtain ⟨hj, hv⟩ := List.getElem?_eq_some_iff.1 hf
  obtain ⟨pre, post, h1, h2, h3⟩ := h.at_ fid hj
  refine ⟨pre, post, by rw [h1, hv], ?_⟩
  rw [featRange, if_neg (by have := h.hi; omega), h2, h3]
  simp [hv]

theorem copyFeature_eq (pre v post : Bytes) (size : Nat) :
    copyFeature (pre ++ v ++ post) size pre.length v.length = some (Spec.fit size v) := by
  rw [copyFeature, readAt_start _ _ _ _ (Nat.min_le_right _ _), Option.map_some, Spec.fit]
  rw [Nat.min_comm, List.take_eq_take_min (i := size)]
  simp [Nat.min_comm]

/-- Effect of one record with features `fl` on a dense feature query without timestamps. -/
def stepNode (fl : List (Option Bytes)) (f : Nat × Nat) (s : Int × Bytes) : Int × Bytes :=
  if s.1 ≥ 0 then s else
    match fl[f.1]? with
    | none => s
    | some v => (0, Spec.fit f.2 (featBytes v))

theorem nodeFeatureStep_owner {index data lo hi fl} (h : Owner index data lo hi fl) (f : Nat × Nat)
    (s : Int × Bytes) : nodeFeatureStep index data lo hi none f s = some (stepNode fl f s) := by
  simp only [nodeFeatureStep, settled, stepNode, decide_eq_true_eq]
  split
  · rfl
  · rename_i hs
    cases hf : fl[f.1]? with
    | none => simp [h.range_none hf]
    | some v =>
      obtain ⟨pre, post, h1, h2⟩ := h.range_some hf
      simp only [h2, Option.bind_some, featValue, h1, copyFeature_eq, Option.map_some]
      rw [if_neg (by omega)]

theorem stepAll_pure {α β} {step : α → β → Option β} {r : α → β → β} {fs : List α}
    (h : ∀ f ∈ fs, ∀ s, step f s = some (r f s)) (ss : List β) :
    stepAll step fs ss = some (List.zipWith r fs ss) := by
  induction fs generalizing ss with
  | nil => simp [stepAll]
  | cons f fs ih =>
    cases ss with
    | nil => simp [stepAll]
    | cons s ss =>
      rw [stepAll, h f (by simp), Option.bind_some, ih (fun f hf => h f (by simp [hf]))]; rfl

/-- Blocks of node `n`, in load order. -/
def nodeBlks (items : List Item) (n : Int) : List Blk :=
  items.flatMap fun it => it.blks.filter (fun b => b.id = n)

variable {C : WeightCodec} {m : Meta} {g : Graph} {items : List Item} {parts : List (List (List Rec))}

/-- Evaluation of a stateful per-(partition, node) query over all entries of a node. -/
theorem GraphOk.foldEntries {σ} (h : GraphOk C m g items parts) (n : Int)
    (q : σ → Partition × Nat → Option σ) (r : σ → Blk → σ) (I : σ → Prop)
    (hI : ∀ s b, I s → I (r s b))
    (hq : ∀ it ∈ items, ∀ x ∈ it.blks.zipIdx, x.1.id = n → ∀ s, I s →
      q s (it.part, x.2) = some (r s x.1)) :
    ∃ es, g.entries n = some es ∧ ∀ s, I s → es.foldlM q s = some ((nodeBlks items n).foldl r s) := by
  refine ⟨_, (entries_items h.parts_eq h.inv n).1, ?_⟩
  clear h
  simp only [nodeBlks]
  induction items with
  | nil => intro s _; rfl
  | cons it items ih =>
    intro s hs
    rw [List.flatMap_cons, List.flatMap_cons, List.foldlM_append, List.foldl_append]
    have h1 : ((it.blks.zipIdx.filter (fun x => decide (x.1.id = n))).map
        (fun x => (it.part, x.2))).foldlM q s =
        some ((it.blks.filter (fun b => b.id = n)).foldl r s) ∧
        I ((it.blks.filter (fun b => b.id = n)).foldl r s) := by
      rw [← filter_zipIdx_map_fst _ it.blks 0]
      have hmem : ∀ x ∈ it.blks.zipIdx.filter (fun x => decide (x.1.id = n)),
          x ∈ it.blks.zipIdx ∧ x.1.id = n :=
        fun x hx => ⟨(List.mem_filter.1 hx).1, by simpa using (List.mem_filter.1 hx).2⟩
      generalize it.blks.zipIdx.filter (fun x => decide (x.1.id = n)) = L at hmem
      clear ih
      induction L generalizing s with
      | nil => exact ⟨rfl, hs⟩
      | cons x L ih =>
        obtain ⟨h1, h2⟩ := hmem x (by simp)
        rw [List.map_cons, List.map_cons, List.foldlM_cons, hq it (by simp) x h1 h2 s hs, List.foldl_cons]
        exact ih _ (hI _ _ hs) (fun y hy => hmem y (by simp [hy]))
    rw [h1.1]
    exact ih (fun it hit => hq it (by simp [hit])) _ h1.2

/-- The features of a block in the loaded tables. -/
theorem ItemOk.owner {it : Item} (h : ItemOk C m it) {x : Blk × Nat} (hx : x ∈ it.blks.zipIdx)
    (hm : m.nodeFeatureCount ≠ 0) : ∃ lo hi, it.part.nodeIndex[x.2]? = some lo ∧
      it.part.nodeIndex[x.2 + 1]? = some hi ∧
      Owner it.part.nodeFeatureIndex it.part.nodeFeatures lo hi x.1.feats := by
  rw [List.mem_zipIdx_iff_getElem?] at hx
  obtain ⟨hlt, hx'⟩ := List.getElem?_eq_some_iff.1 hx
  have hl := h.loaded
  have hidx := hl.nodeIndex
  refine ⟨_, _, by rw [hidx]; exact getElem?_offsFrom _ _ _ (by simp; omega),
    by rw [hidx]; exact getElem?_offsFrom _ _ _ (by simp; omega), ?_, ?_⟩
  · rw [List.take_succ, List.getElem?_map, hx]; simp
  · intro j hj
    rw [hl.nodeFeatureIndex hm, hl.nodeFeatures hm]
    apply featAt_of_list
    have : allNodeFeats it.blks = (it.blks.take x.2).flatMap (·.feats) ++ x.1.feats ++
        (it.blks.drop (x.2 + 1)).flatMap (·.feats) := by
      rw [allNodeFeats]
      conv => lhs; rw [← List.take_append_drop x.2 it.blks, List.drop_eq_getElem_cons hlt, hx']
      simp
    rw [this, List.getElem?_append_left, List.getElem?_append_right, ← List.getElem?_eq_getElem hj]
    · congr 1
      simp [List.length_flatMap]
    · simp [List.length_flatMap]
    · simp [List.length_flatMap]; omega

theorem ItemOk.feats_nil {it : Item} (hc : it.files.nodeFeatureCount ≤ m.nodeFeatureCount)
    {c} (hsrc : ItemFrom c it) {x : Blk × Nat} (hx : x ∈ it.blks.zipIdx)
    (hm : m.nodeFeatureCount = 0) : x.1.feats = [] := by
  rw [List.mem_zipIdx_iff_getElem?] at hx
  have := hsrc.nfc x.1 (List.mem_of_getElem? hx)
  apply List.eq_nil_of_length_eq_zero; omega

theorem zipWith_stepNode_nil (feats : List (Nat × Nat)) (ss : List (Int × Bytes))
    (h : feats.length = ss.length) : List.zipWith (stepNode []) feats ss = ss := by
  induction feats generalizing ss with
  | nil => cases ss with
    | nil => rfl
    | cons s ss => simp at h
  | cons f fs ih =>
    cases ss with
    | nil => simp at h
    | cons s ss => simp [stepNode, ih ss (by simpa using h)]

theorem foldl_zipWith {α β γ} (r : γ → α → β → β) (fs : List α) (bs : List γ) (ss : List β)
    (h : fs.length = ss.length) :
    bs.foldl (fun ss b => List.zipWith (r b) fs ss) ss =
      List.zipWith (fun f s => bs.foldl (fun s b => r b f s) s) fs ss := by
  induction bs generalizing ss with
  | nil =>
    simp only [List.foldl_nil]
    induction fs generalizing ss with
    | nil => cases ss with
      | nil => rfl
      | cons s ss => simp at h
    | cons f fs ih =>
      cases ss with
      | nil => simp at h
      | cons s ss => simp only [List.zipWith_cons_cons]; rw [← ih ss (by simpa using h)]
  | cons b bs ih =>
    rw [List.foldl_cons, ih _ (by simp; omega)]
    clear ih
    induction fs generalizing ss with
    | nil => cases ss with
      | nil => rfl
      | cons s ss => simp at h
    | cons f fs ih =>
      cases ss with
      | nil => simp at h
      | cons s ss =>
        simp only [List.zipWith_cons_cons]
        rw [ih ss (by simpa using h)]
        rfl

@[simp] theorem length_slices (ns : List Nat) (b : Bytes) : (slices ns b).length = ns.length := by
  induction ns generalizing b with
  | nil => rfl
  | cons n ns ih => simp [slices, ih]

theorem foldl_stepNode (bs : List Blk) (f : Nat × Nat) (s : Int × Bytes) (hs : s.1 < 0) :
    bs.foldl (fun s b => stepNode b.feats f s) s =
      match bs.find? (fun b => f.1 < b.feats.length) with
      | some b => (0, Spec.fit f.2 ((b.feats[f.1]?.join).getD []))
      | none => s := by
  induction bs with
  | nil => rfl
  | cons b bs ih =>
    rw [List.foldl_cons, List.find?_cons]
    by_cases hb : f.1 < b.feats.length
    · have hb' : b.feats[f.1]? = some b.feats[f.1] := List.getElem?_eq_getElem hb
      have h1 : stepNode b.feats f s = (0, Spec.fit f.2 (featBytes b.feats[f.1])) := by
        simp only [stepNode]
        rw [if_neg (by omega), hb']
      have h2 : ∀ (l : List Blk) v, l.foldl (fun s b => stepNode b.feats f s) ((0 : Int), v) = (0, v) := by
        intro l v
        induction l with
        | nil => rfl
        | cons a l ih => rw [List.foldl_cons]; simp only [stepNode] at ih ⊢; simpa using ih
      rw [h1, h2]
      simp only [hb, decide_true, hb', Option.join_some]
      cases b.feats[f.1] <;> rfl
    · have hb' : b.feats[f.1]? = none := List.getElem?_eq_none_iff.2 (by omega)
      have h1 : stepNode b.feats f s = s := by
        simp only [stepNode, hb', ite_self]
      rw [h1, ih]
      simp [hb]

/-- Features of the node records of `n`: those of the loaded blocks. -/
theorem GraphOk.nodeBlks_feats (h : GraphOk C m g items parts) (n : Int) (P : List (Option Bytes) → Bool)
    (hP : P [] = false) :
    ((nodeBlks items n).filter (fun b => P b.feats)).map (·.feats) =
      ((Spec.nodeRecords parts n).filter (fun r => P r.features)).map (·.features) := by
  have h1 : ((Spec.nodeRecords parts n).filter (fun r => P r.features)).map (·.features) =
      parts.flatMap fun p => ((nodeRecs p.flatten).filter (fun x => x.1 = n ∧ P x.2.2)).map (·.2.2) := by
    simp only [Spec.nodeRecords, Spec.allRecords, nodeRecs]
    clear h
    induction parts with
    | nil => rfl
    | cons p ps ih =>
      simp only [List.flatten_cons, List.flatten_append, List.filter_append, List.map_append,
        List.flatMap_cons, ih]
      congr 1
      rw [List.filter_map, List.map_map, List.filter_filter, List.filter_filter]
      simp only [Function.comp_def]
      congr 1
      apply List.filter_congr
      intro r _
      by_cases a : r.dst = -1 <;> by_cases b : r.src = n <;> simp [a, b]
  rw [h1]
  simp only [nodeBlks, List.filter_flatMap, List.map_flatMap]
  symm
  apply h.src.flatMap_eq
  intro p it _ _ hpi
  rw [← hpi.nodes, List.filter_map, List.map_map, List.filter_filter, List.filter_filter]
  simp only [Function.comp_def]
  congr 1
  apply List.filter_congr
  intro b hb
  by_cases ht : b.typ = -1
  · simp [ht, hpi.noFeats b hb ht, hP]
  · by_cases hid : b.id = n <;> simp [ht, hid]

theorem GraphOk.find_feature (h : GraphOk C m g items parts) (n : Int) (fid : Nat) :
    (match (nodeBlks items n).find? (fun b => fid < b.feats.length) with
      | some b => (b.feats[fid]?.join).getD []
      | none => []) = Spec.nodeFeature parts n fid := by
  have h1 := h.nodeBlks_feats n (fun l => decide (fid < l.length)) (by simp)
  simp only [Spec.nodeFeature]
  rw [← List.head?_filter, ← List.head?_filter]
  revert h1
  generalize (nodeBlks items n).filter (fun b => decide (fid < b.feats.length)) = A
  generalize (Spec.nodeRecords parts n).filter (fun r => decide (fid < r.features.length)) = B
  intro h1
  cases A with
  | nil => cases B with
    | nil => rfl
    | cons b B => simp at h1
  | cons a A => cases B with
    | nil => simp at h1
    | cons b B =>
      simp only [List.map_cons, List.cons.injEq] at h1
      simp [Spec.featureOf, h1.1]

/-- `Graph::GetNodeFeature` without timestamps for one node. -/
theorem GraphOk.nodeFeature1 (h : GraphOk C m g items parts)
    (hc : ∀ it ∈ items, it.files.nodeFeatureCount ≤ m.nodeFeatureCount)
    (feats : List (Nat × Nat)) (n : Int) (out : Bytes) (hout : out.length = (feats.map (·.2)).sum) :
    g.nodeFeature1 feats n none out =
      some (feats.flatMap fun f => Spec.fit f.2 (Spec.nodeFeature parts n f.1)) := by
  obtain ⟨es, h1, h3⟩ := h.foldEntries n
    (fun (ss : List (Int × Bytes)) (x : Partition × Nat) => x.1.nodeFeature x.2 none feats ss)
    (fun ss b => List.zipWith (stepNode b.feats) feats ss) (fun ss => feats.length = ss.length)
    (by intro ss b hs; simp [← hs]) (by
      intro it hit x hx _ ss hss
      by_cases hm : m.nodeFeatureCount = 0
      · obtain ⟨c, -, hsrc⟩ := item_of_src h.src hit
        rw [ItemOk.feats_nil (hc it hit) hsrc hx hm, zipWith_stepNode_nil _ _ hss,
          Partition.nodeFeature, if_pos ((h.ok it hit).loaded.noNodeFeatures hm)]
      · obtain ⟨lo, hi, e1, e2, ho⟩ := (h.ok it hit).owner hx hm
        rw [Partition.nodeFeature, if_neg, e1, e2]
        · exact stepAll_pure (fun f _ s => nodeFeatureStep_owner ho f s) _
        · rw [(h.ok it hit).loaded.nodeFeatureIndex hm]
          intro hh
          have := congrArg List.length hh
          simp at this)
  have hsp : feats.length = ((slices (feats.map (·.2)) out).map fun b => ((-1 : Int), b)).length := by simp
  have h4 := h3 _ hsp
  have hfind := h.find_feature n
  simp only [Graph.nodeFeature1]
  cases hm : g.nodeMap n with
  | none =>
    have hno := ((entries_items h.parts_eq h.inv n).2).1 hm
    have hnil : nodeBlks items n = [] := by
      simp only [nodeBlks, List.flatMap_eq_nil_iff, List.filter_eq_nil_iff]
      intro it hit b hb
      simpa using hno it hit b hb
    rw [hnil] at hfind
    simp only [List.find?_nil] at hfind
    simp only [← hfind, Spec.fit, Option.some.injEq]
    rw [hout]
    clear h3 h4 hsp hfind hout
    induction feats with
    | nil => rfl
    | cons f fs ih =>
      rw [List.map_cons, List.sum_cons, List.flatMap_cons, ← ih, ← List.replicate_append_replicate]
      simp
  | some k =>
    simp only [h1, Option.bind_some]
    rw [h4, Option.map_some, foldl_zipWith (fun b : Blk => stepNode b.feats) _ _ _ hsp]
    congr 1
    clear h4 hsp hout h3
    induction feats generalizing out with
    | nil => rfl
    | cons f fs ih =>
      simp only [List.map_cons, slices, List.zipWith_cons_cons, List.zip_cons_cons, List.flatMap_cons]
      rw [ih, foldl_stepNode _ _ _ (by simp)]
      congr 1
      rw [← hfind]
      split
      · rfl
      · simp [Spec.fit]

theorem zip_slices {α} (size : Nat) (l : List α) (out : Bytes) (hout : out.length = size * l.length) :
    ∀ x ∈ l.zip (slices (List.replicate l.length size) out), x.2.length = size := by
  induction l generalizing out with
  | nil => simp
  | cons a l ih =>
    intro x hx
    have hlen : out.length = size * l.length + size := by rw [hout]; rfl
    simp only [List.length_cons, List.replicate_succ, slices, List.zip_cons_cons, List.mem_cons] at hx
    rcases hx with rfl | hx
    · simp; omega
    · exact ih _ (by rw [List.length_drop]; omega) x hx

theorem mapM_zip_slices {α} (f : α → Bytes → Option Bytes) (r : α → Bytes) (l : List α) (size : Nat)
    (out : Bytes) (hout : out.length = size * l.length)
    (h : ∀ a ∈ l, ∀ b : Bytes, b.length = size → f a b = some (r a)) :
    ((l.zip (slices (List.replicate l.length size) out)).mapM fun x => f x.1 x.2) = some (l.map r) := by
  rw [mapM_some_map _ (fun x => r x.1)]
  · rw [show (fun x : α × Bytes => r x.1) = r ∘ Prod.fst from rfl, ← List.map_map,
      List.map_fst_zip (by simp)]
  · intro x hx
    exact h x.1 (List.of_mem_zip hx).1 x.2 (zip_slices size l out hout x hx)

end DeepGNN
