import Verif.Proofs.ServeFeatures
import Verif.Props.C25
import Verif.Props.C08
import Verif.Props.C10
import Verif.Proofs.ServeTemporal

/-
C24 Remote node features do not depend on reply order.
-/

namespace DeepGNN

open Spec

variable {C : WeightCodec} {wm : Option Nat} {m : Meta} {parts : List (List (List Rec))} {g : Graph}

theorem fits_length {feats : List (Nat × Nat)} {row : List (Int × Bytes)}
    (h : row.map (·.2.length) = feats.map (·.2)) : row.length = feats.length ∧
      (row.flatMap (·.2)).length = (feats.map (·.2)).sum := by
  refine ⟨by simpa using congrArg List.length h, ?_⟩
  rw [← h, List.length_flatMap]

/-- The cell of a feature in the reply it was taken from. -/
theorem read_cell {feats : List (Nat × Nat)} {as : List Answer} (hfit : ∀ a ∈ as, Answer.Fits feats a) {k f : Nat}
    {row : List (Int × Bytes)} (hk : as[k]?.join = some row) {y : Nat × Nat} (hy : feats[f]? = some y) :
    ∃ c v, row[f]? = some (c, v) ∧ v.length = y.2 ∧
      readAt (featReply 0 as).values (answered (as.take k) * (feats.map (·.2)).sum + ((feats.take f).map (·.2)).sum) y.2 =
        some v := by
  have hmem : some row ∈ as := by
    cases h1 : as[k]? with
    | none => rw [h1] at hk; simp at hk
    | some a =>
      rw [h1, Option.join_some] at hk
      subst hk
      exact List.mem_of_getElem? h1
  have hrow := hfit _ hmem row rfl
  obtain ⟨hl, hsum⟩ := fits_length hrow
  have hf : f < feats.length := (List.getElem?_eq_some_iff.1 hy).1
  have hf' : f < row.length := by omega
  have hlen : (row[f]).2.length = y.2 := by
    have := congrArg (·[f]?) hrow
    simpa [hy, hf'] using this
  obtain ⟨pre, post, h1, h2⟩ := featReply_values _ as (fun r hr => (fits_length (hfit _ hr r rfl)).2) 0 k row hk
  have hsplit : row.flatMap (·.2) = (row.take f).flatMap (·.2) ++ (row[f].2 ++ (row.drop (f + 1)).flatMap (·.2)) := by
    rw [← List.flatMap_cons (f := fun x : Int × Bytes => x.2), ← List.flatMap_append, List.getElem_cons_drop, List.take_append_drop]
  have hpre : ((row.take f).flatMap (·.2)).length = ((feats.take f).map (·.2)).sum := by
    rw [List.length_flatMap, List.map_take, List.map_take, hrow]
  refine ⟨row[f].1, row[f].2, by simp [hf'], hlen, ?_⟩
  rw [h1, hsplit]
  have e1 : pre ++ ((row.take f).flatMap (·.2) ++ (row[f].2 ++ (row.drop (f + 1)).flatMap (·.2))) ++ post =
      (pre ++ (row.take f).flatMap (·.2)) ++ row[f].2 ++ ((row.drop (f + 1)).flatMap (·.2) ++ post) := by simp
  rw [e1, ← h2, ← hpre, ← List.length_append, readAt_start _ _ _ _ (by omega), List.take_of_length_le (by omega)]

/-- For all answers of the servers and all orders in which replies and callbacks arrive, the client returns node
after node and feature after feature a value with the greatest timestamp among the servers that answered for the
node, and zeros if none has a value. -/
theorem C24_newest (n : Nat) (hpos : 0 < n) (feats : List (Nat × Nat)) (answers : List (List Answer))
    (hn : ∀ as ∈ answers, as.length = n) (hfit : ∀ as ∈ answers, ∀ a ∈ as, Answer.Fits feats a)
    (evs : List (Ev FeatReply)) (h : Schedule (answers.map (featReply 0)) evs) :
    ∃ val : Nat → Nat → Bytes,
      remoteNodeFeatures n feats evs answers.length =
        some ((List.range n).flatMap fun k => (List.range feats.length).flatMap fun f => val k f) ∧
      ∀ k < n, ∀ (f : Nat) y, feats[f]? = some y → Newest (valuesFor answers k f) y.2 (val k f) := by
  obtain ⟨order, hperm, hout, hrep⟩ := eachReply_eq (mergeStamps feats.length) ⟨[], [], []⟩
    (List.replicate (n * feats.length) ⟨-1, -1, -1⟩) (answers.map (featReply 0)) evs h
  rw [List.length_map] at hout hrep
  -- the answers in order of arrival
  let order' : List (List Answer × Nat) := order.map fun x => (answers.getD x.2 [], x.2)
  have hzip : ∀ x ∈ order, ∃ as, answers[x.2]? = some as ∧ x.1 = featReply 0 as := by
    intro x hx
    have := List.mem_zipIdx_iff_getElem?.1 (hperm.mem_iff.1 hx)
    rw [List.getElem?_map] at this
    obtain ⟨as, h1, h2⟩ := Option.map_eq_some_iff.1 this
    exact ⟨as, h1, h2.symm⟩
  have hmem' : ∀ x, x ∈ order' ↔ answers[x.2]? = some x.1 := by
    intro x
    simp only [order', List.mem_map]
    constructor
    · rintro ⟨y, hy, rfl⟩
      obtain ⟨as, h1, -⟩ := hzip y hy
      simp [h1]
    · intro hx
      refine ⟨(featReply 0 x.1, x.2), hperm.mem_iff.2 (List.mem_zipIdx_iff_getElem?.2 (by simp [hx])), by simp [hx]⟩
  have hfold : order.foldlM (fun a x => mergeStamps feats.length x.2 x.1 a)
      (List.replicate (n * feats.length) (⟨-1, -1, -1⟩ : Best)) =
      order'.foldlM (fun idx x => mergeStamps feats.length x.2 (featReply 0 x.1) idx)
      (List.replicate (n * feats.length) ⟨-1, -1, -1⟩) := by
    have : ∀ (l : List (FeatReply × Nat)) (init : List Best), (∀ x ∈ l, x ∈ order) →
        l.foldlM (fun a x => mergeStamps feats.length x.2 x.1 a) init =
        (l.map fun x => (answers.getD x.2 [], x.2)).foldlM
          (fun idx x => mergeStamps feats.length x.2 (featReply 0 x.1) idx) init := by
      intro l
      induction l with
      | nil => intro init _; rfl
      | cons x l ih =>
        intro init hx
        obtain ⟨as, h1, h2⟩ := hzip x (hx x (by simp))
        have h3 : answers.getD x.2 [] = as := by simp [h1]
        rw [List.foldlM_cons, List.map_cons, List.foldlM_cons]
        simp only [h3, ← h2]
        congr 1
        funext a
        exact ih a (fun y hy => hx y (by simp [hy]))
    exact this order _ (fun x hx => hx)
  obtain ⟨idx, h1, h2, h3⟩ := mergeAll_eq feats.length n order' (by
    intro x hx
    have h4 := List.mem_of_getElem? ((hmem' x).1 hx)
    exact ⟨hn _ h4, fun row hr => (fits_length (hfit _ h4 _ hr row rfl)).1⟩)
    (List.replicate (n * feats.length) ⟨-1, -1, -1⟩) (by simp)
  rw [hfold, h1] at hout
  -- every cell
  have hcell : ∀ k < n, ∀ (f : Nat) y, feats[f]? = some y → ∃ v,
      ((idx[k * feats.length + f]?).bind fun b => copyBest (answers.map (featReply 0)) (feats.map (·.2)).sum b
        (y.2, ((feats.take f).map (·.2)).sum)) = some v ∧ Newest (valuesFor answers k f) y.2 v := by
    intro k hk f y hy
    have hf : f < feats.length := (List.getElem?_eq_some_iff.1 hy).1
    have hpos : k * feats.length + f < n * feats.length := by
      have : (k + 1) * feats.length ≤ n * feats.length := Nat.mul_le_mul_right _ hk
      rw [Nat.add_mul] at this; omega
    rw [h3 k f hf, List.getElem?_replicate, if_pos hpos, Option.map_some, Option.bind_some]
    have hok := cellOk_fold order' [] k f ⟨-1, -1, -1⟩ ⟨by simp, by simp, Or.inl (by simp)⟩
    rw [List.nil_append] at hok
    revert hok
    generalize (order'.foldl (fun old x => cellStep x.2 (answered (x.1.take k)) (x.1[k]?.join) f old) (⟨-1, -1, -1⟩ : Best)) = b
    intro hok
    have hvals : ∀ y' ∈ valuesFor answers k f, y'.1 ≤ b.ts := by
      intro y' hy'
      obtain ⟨as, h4, h5⟩ := List.mem_filterMap.1 hy'
      obtain ⟨row, h6, h7⟩ := Option.bind_eq_some_iff.1 h5
      obtain ⟨s, h8⟩ := List.mem_iff_getElem?.1 h4
      have := hok.max (as, s) ((hmem' (as, s)).2 h8) row h6
      simpa [h7] using this
    by_cases hneg : b.ts < 0
    · refine ⟨List.replicate y.2 0, ?_, Or.inr ⟨rfl, fun y' hy' => ?_⟩⟩
      · rw [copyBest, if_neg (by omega)]
      · have := hvals y' hy'; omega
    · rcases hok.src with h4 | ⟨x, hx, row, h4, h5⟩
      · exact absurd h4 hneg
      · have hx' := (hmem' x).1 hx
        obtain ⟨c, v, h6, -, h8⟩ := read_cell (hfit _ (List.mem_of_getElem? hx')) h4 hy
        have hts : b.ts = c := by rw [h5]; simp [h6]
        refine ⟨v, ?_, Or.inl ⟨c, ?_, by omega, fun y' hy' => by rw [← hts]; exact hvals y' hy'⟩⟩
        · rw [copyBest, if_pos (by omega), h5]
          simp only [Int.toNat_natCast, List.getElem?_map, hx', Option.map_some, Option.bind_some]
          exact h8
        · exact List.mem_filterMap.2 ⟨x.1, List.mem_of_getElem? hx', by rw [h4, Option.bind_some, h6]⟩
  refine ⟨fun k f => ((idx[k * feats.length + f]?).bind fun b => copyBest (answers.map (featReply 0)) (feats.map (·.2)).sum b
        ((feats.getD f (0, 0)).2, ((feats.take f).map (·.2)).sum)).getD [], ?_, ?_⟩
  · rw [remoteNodeFeatures, if_neg (by omega)]
    simp only [hout, hrep, Option.bind_some]
    rw [assemble]
    rw [mapM_some_map _ (fun k => (List.range feats.length).flatMap fun f =>
      ((idx[k * feats.length + f]?).bind fun b => copyBest (answers.map (featReply 0)) (feats.map (·.2)).sum b
        ((feats.getD f (0, 0)).2, ((feats.take f).map (·.2)).sum)).getD [])]
    · rw [Option.map_some, List.flatMap_def]
    · intro k hk
      rw [List.mem_range] at hk
      have hz : ((feats.map (·.2)).zip (lenPrefix 0 feats)).zipIdx =
          (List.range feats.length).map fun f => (((feats.getD f (0, 0)).2, ((feats.take f).map (·.2)).sum), f) := by
        apply List.ext_getElem?
        intro j
        by_cases hj : j < feats.length
        · have hz' : ((feats.map (·.2)).zip (lenPrefix 0 feats))[j]? =
              some ((feats.getD j (0, 0)).2, ((feats.take j).map (·.2)).sum) :=
            List.getElem?_zip_eq_some.2 ⟨by simp [hj], by rw [lenPrefix_eq 0 feats j hj, Nat.zero_add]⟩
          rw [List.getElem?_zipIdx, hz']
          simp [hj]
        · rw [List.getElem?_eq_none_iff.2 (by simp [length_lenPrefix]; omega), List.getElem?_eq_none_iff.2 (by simp; omega)]
      rw [hz, List.mapM_map, mapM_some_map _ (fun f => ((idx[k * feats.length + f]?).bind fun b =>
        copyBest (answers.map (featReply 0)) (feats.map (·.2)).sum b
        ((feats.getD f (0, 0)).2, ((feats.take f).map (·.2)).sum)).getD [])]
      · rw [Option.map_some, List.flatMap_def]
      · intro f hf
        rw [List.mem_range] at hf
        obtain ⟨v, h4, -⟩ := hcell k hk f feats[f] (by simp [hf])
        simp only [Function.comp_apply, List.getD_eq_getElem?_getD, List.getElem?_eq_getElem hf, Option.getD_some]
        rw [h4]
        rfl
  · intro k hk f y hy
    obtain ⟨v, h4, h5⟩ := hcell k hk f y hy
    simp only [List.getD_eq_getElem?_getD, hy, Option.getD_some, h4]
    exact h5

/-- Values that do not compete: those with the greatest timestamp are equal. -/
def C24_Agree (vals : List (Int × Bytes)) : Prop :=
  ∀ x ∈ vals, ∀ y ∈ vals, x.1 = y.1 → 0 ≤ x.1 → (∀ z ∈ vals, z.1 ≤ x.1) → x.2 = y.2

theorem newest_unique {vals : List (Int × Bytes)} {size : Nat} {v w : Bytes} (ha : C24_Agree vals)
    (h1 : Newest vals size v) (h2 : Newest vals size w) : v = w := by
  rcases h1 with ⟨c, h3, h4, h5⟩ | ⟨h3, h4⟩
  · rcases h2 with ⟨d, h6, h7, h8⟩ | ⟨h6, h7⟩
    · have : c = d := Int.le_antisymm (h8 _ h3) (h5 _ h6)
      subst this
      exact ha _ h3 _ h6 rfl h4 h5
    · have := h7 _ h3; simp only [] at this; omega
  · rcases h2 with ⟨d, h6, h7, h8⟩ | ⟨h6, h7⟩
    · have := h4 _ h6; simp only [] at this; omega
    · rw [h3, h6]

/-- The full claim, "the same for all orders", holds when servers do not give different values with the same
greatest timestamp for a feature of a node.  Missing: without that hypothesis it is false (`C24_order_refuted`). -/
theorem C24_order_partial (n : Nat) (hpos : 0 < n) (feats : List (Nat × Nat)) (answers : List (List Answer))
    (hn : ∀ as ∈ answers, as.length = n) (hfit : ∀ as ∈ answers, ∀ a ∈ as, Answer.Fits feats a)
    (hagree : ∀ k < n, ∀ f < feats.length, C24_Agree (valuesFor answers k f))
    (evs evs' : List (Ev FeatReply)) (h : Schedule (answers.map (featReply 0)) evs)
    (h' : Schedule (answers.map (featReply 0)) evs') :
    remoteNodeFeatures n feats evs answers.length = remoteNodeFeatures n feats evs' answers.length := by
  obtain ⟨v, h1, h2⟩ := C24_newest n hpos feats answers hn hfit evs h
  obtain ⟨w, h3, h4⟩ := C24_newest n hpos feats answers hn hfit evs' h'
  rw [h1, h3]
  congr 1
  rw [List.flatMap_def, List.flatMap_def]
  congr 1
  apply List.map_congr_left
  intro k hk
  rw [List.flatMap_def, List.flatMap_def]
  congr 1
  apply List.map_congr_left
  intro f hf
  rw [List.mem_range] at hk hf
  exact newest_unique (hagree k hk f hf) (h2 k hk f feats[f] (by simp [hf])) (h4 k hk f feats[f] (by simp [hf]))

theorem nodeRecords_flatten (servers : List (List (List (List Rec)) × Graph)) (n : Int) (r : Rec) :
    r ∈ nodeRecords (servers.flatMap (·.1)) n ↔ ∃ s ∈ servers, r ∈ nodeRecords s.1 n := by
  simp only [nodeRecords, allRecords, List.mem_filter, List.mem_flatten, List.mem_flatMap]
  constructor
  · rintro ⟨⟨l, ⟨a, ⟨s, hs, ha⟩, hl⟩, hr⟩, hd⟩
    exact ⟨s, hs, ⟨l, ⟨a, ha, hl⟩, hr⟩, hd⟩
  · rintro ⟨s, hs, ⟨l, ⟨a, ha, hl⟩, hr⟩, hd⟩
    exact ⟨⟨l, ⟨a, ⟨s, hs, ha⟩, hl⟩, hr⟩, hd⟩

theorem nodeAnswer_fits (parts : List (List (List Rec))) (feats : List (Nat × Nat)) (n : Int) :
    Answer.Fits feats (nodeAnswer parts feats n) := by
  intro row hrow
  rw [nodeAnswer] at hrow
  split at hrow
  · simp only [Option.some.injEq] at hrow
    subst hrow
    rw [List.map_map]
    apply List.map_congr_left
    intro f _
    simp only [Function.comp_apply, nodeCell]
    split
    · simp [fit]; omega
    · simp
  · cases hrow

/-- Servers that hold the partitions of a graph, each partition on one server: if the node records of a node, usually
one, agree about its features, then the features fetched remotely are those fetched from the whole graph, for all
orders of replies. -/
theorem C24_distributed (h : Built C wm m parts g) (servers : List (List (List (List Rec)) × Graph))
    (hs : ∀ s ∈ servers, Built C wm m s.1 s.2) (hp : (servers.flatMap (·.1)).Perm parts) (nodes : List Int)
    (hne : nodes ≠ []) (feats : List (Nat × Nat))
    (hagree : ∀ n ∈ nodes, ∀ r ∈ nodeRecords parts n, ∀ r' ∈ nodeRecords parts n, r.features = r'.features)
    (replies : List FeatReply) (hreplies : servers.mapM (fun s => s.2.getNodeFeatures nodes none feats) = some replies)
    (evs : List (Ev FeatReply)) (hev : Schedule replies evs) (buffer : Bytes)
    (hb : buffer.length = (feats.map (·.2)).sum * nodes.length) :
    remoteNodeFeatures nodes.length feats evs servers.length = g.nodeFeature nodes none feats buffer := by
  have hrep : replies = (servers.map fun s => nodes.map (nodeAnswer s.1 feats)).map (featReply 0) := by
    rw [mapM_some_map _ (fun s => featReply 0 (nodes.map (nodeAnswer s.1 feats))) servers
      (fun s hsm => (hs s hsm).getNodeFeatures nodes feats)] at hreplies
    rw [List.map_map]
    exact (Option.some.inj hreplies).symm
  subst hrep
  obtain ⟨val, h1, h2⟩ := C24_newest nodes.length (by have := List.length_pos_iff.2 hne; omega) feats (servers.map fun s => nodes.map (nodeAnswer s.1 feats)) (by
      intro as has
      obtain ⟨s, -, rfl⟩ := List.mem_map.1 has
      simp) (by
      intro as has a ha
      obtain ⟨s, -, rfl⟩ := List.mem_map.1 has
      obtain ⟨n, -, rfl⟩ := List.mem_map.1 ha
      exact nodeAnswer_fits _ _ _) evs hev
  rw [List.length_map] at h1
  rw [h1, C08_node_features h nodes feats buffer hb]
  congr 1
  have hnode : nodes = (List.range nodes.length).map fun k => nodes.getD k 0 := by
    apply List.ext_getElem?
    intro j
    by_cases hj : j < nodes.length
    · simp [hj]
    · rw [List.getElem?_eq_none_iff.2 (by omega), List.getElem?_eq_none_iff.2 (by simp; omega)]
  have hfeat : feats = (List.range feats.length).map fun f => feats.getD f (0, 0) := by
    apply List.ext_getElem?
    intro j
    by_cases hj : j < feats.length
    · simp [hj]
    · rw [List.getElem?_eq_none_iff.2 (by omega), List.getElem?_eq_none_iff.2 (by simp; omega)]
  conv => rhs; rw [hnode]
  rw [List.flatMap_map, List.flatMap_def, List.flatMap_def]
  congr 1
  apply List.map_congr_left
  intro k hk
  rw [List.mem_range] at hk
  conv => rhs; rw [hfeat]
  rw [List.flatMap_map, List.flatMap_def, List.flatMap_def]
  congr 1
  apply List.map_congr_left
  intro f hf
  rw [List.mem_range] at hf
  have hn : nodes.getD k 0 = nodes[k] := by simp [hk]
  have hf' : feats.getD f (0, 0) = feats[f] := by simp [hf]
  rw [hn, hf']
  have hnew := h2 k hk f feats[f] (by simp [hf])
  -- what the servers know about the feature
  have hmem : ∀ r, r ∈ nodeRecords parts nodes[k] ↔ ∃ s ∈ servers, r ∈ nodeRecords s.1 nodes[k] := by
    intro r
    rw [← nodeRecords_flatten]
    simp only [nodeRecords, List.mem_filter, allRecords]
    rw [(hp.flatten.flatten).mem_iff]
  have hcells : ∀ y, y ∈ valuesFor (servers.map fun s => nodes.map (nodeAnswer s.1 feats)) k f →
      ∃ s ∈ servers, y = nodeCell s.1 nodes[k] feats[f] := by
    intro y hy
    obtain ⟨as, h4, h5⟩ := List.mem_filterMap.1 hy
    obtain ⟨s, h6, rfl⟩ := List.mem_map.1 h4
    refine ⟨s, h6, ?_⟩
    rw [List.getElem?_map, List.getElem?_eq_getElem hk, Option.map_some, Option.join_some, nodeAnswer] at h5
    split at h5
    · rw [Option.bind_some, List.getElem?_map, List.getElem?_eq_getElem hf, Option.map_some] at h5
      exact (Option.some.inj h5).symm
    · cases h5
  have hval : ∀ s ∈ servers, ∀ r, (nodeRecords s.1 nodes[k]).find? (fun r => feats[f].1 < r.features.length) = some r →
      featureOf r feats[f].1 = nodeFeature parts nodes[k] feats[f].1 := by
    intro s hsm r hr
    have hr1 := (hmem r).2 ⟨s, hsm, List.mem_of_find?_eq_some hr⟩
    have hr2 := List.find?_some hr
    rw [nodeFeature]
    cases hfind : (nodeRecords parts nodes[k]).find? (fun r => feats[f].1 < r.features.length) with
    | none => exact absurd hr2 (List.find?_eq_none.1 hfind r hr1)
    | some r' =>
      have := hagree _ (List.getElem_mem hk) r hr1 r' (List.mem_of_find?_eq_some hfind)
      simp only [featureOf, this]
  rcases hnew with ⟨c, h4, h5, -⟩ | ⟨h4, h5⟩
  · obtain ⟨s, hsm, h6⟩ := hcells _ h4
    rw [nodeCell] at h6
    split at h6
    · next r hr =>
      rw [← hval s hsm r hr]
      exact congrArg Prod.snd h6
    · simp only [Prod.mk.injEq] at h6
      omega
  · rw [h4]
    have hnone : (nodeRecords parts nodes[k]).find? (fun r => feats[f].1 < r.features.length) = none := by
      rw [List.find?_eq_none]
      intro r hr hlt
      obtain ⟨s, hsm, hrs⟩ := (hmem r).1 hr
      have hcell : ∃ r', (nodeRecords s.1 nodes[k]).find? (fun r => feats[f].1 < r.features.length) = some r' := by
        cases hfi : (nodeRecords s.1 nodes[k]).find? (fun r => feats[f].1 < r.features.length) with
        | none => exact absurd hlt (List.find?_eq_none.1 hfi r hrs)
        | some r' => exact ⟨r', rfl⟩
      obtain ⟨r', hr'⟩ := hcell
      have hc : nodeCell s.1 nodes[k] feats[f] = (0, fit feats[f].2 (featureOf r' feats[f].1)) := by
        rw [nodeCell, hr']
      have hin : nodeCell s.1 nodes[k] feats[f] ∈ valuesFor (servers.map fun s => nodes.map (nodeAnswer s.1 feats)) k f := by
        refine List.mem_filterMap.2 ⟨_, List.mem_map.2 ⟨s, hsm, rfl⟩, ?_⟩
        rw [List.getElem?_map, List.getElem?_eq_getElem hk, Option.map_some, Option.join_some, nodeAnswer, if_pos,
          Option.bind_some, List.getElem?_map, List.getElem?_eq_getElem hf, Option.map_some]
        rw [List.any_map, List.any_eq_true]
        exact ⟨feats[f], List.getElem_mem hf, by simp [hc]⟩
      have := h5 _ hin
      rw [hc] at this
      simp at this
    rw [nodeFeature, hnone]
    simp [fit]

/-- Partitions of two servers; nodes 1 and 2 have records on one of them each and edges on both. -/
def C24_a : List (List Rec) :=
  [[⟨1, -1, 0, 1, none, none, [some [1, 2], none]⟩, ⟨1, 2, 0, 1, none, none, []⟩], [⟨2, 1, 0, 1, none, none, []⟩]]
def C24_b : List (List Rec) := [[⟨2, -1, 0, 1, none, none, [some [3], some [4, 5]]⟩, ⟨1, 3, 1, 1, none, none, []⟩]]

/-- Non-vacuity of `C24_distributed`, with the replies arriving in reverse order. -/
example : ∃ g g1 g2 r1 r2, Built intCodec none ⟨2, 0, -1⟩ [C24_a, C24_b] g ∧ Built intCodec none ⟨2, 0, -1⟩ [C24_a] g1 ∧
    Built intCodec none ⟨2, 0, -1⟩ [C24_b] g2 ∧
    ([([C24_b], g2), ([C24_a], g1)].mapM fun s => s.2.getNodeFeatures [2, 1, 7] none [(0, 1), (1, 3)]) = some [r2, r1] ∧
    Schedule [r2, r1] [.recv 1 r1, .recv 0 r2, .run 1, .run 0] ∧
    (∀ n ∈ [(2 : Int), 1, 7], ∀ r ∈ nodeRecords [C24_a, C24_b] n, ∀ r' ∈ nodeRecords [C24_a, C24_b] n,
      r.features = r'.features) ∧
    remoteNodeFeatures 3 [(0, 1), (1, 3)] [.recv 1 r1, .recv 0 r2, .run 1, .run 0] 2 =
      some [3, 4, 5, 0, 1, 0, 0, 0, 0, 0, 0, 0] := by
  obtain ⟨g, -, hb⟩ := built_of_check (wm := none) (m := ⟨2, 0, -1⟩) (parts := [C24_a, C24_b]) (by decide +kernel)
  obtain ⟨g1, -, hb1⟩ := built_of_check (wm := none) (m := ⟨2, 0, -1⟩) (parts := [C24_a]) (by decide +kernel)
  obtain ⟨g2, -, hb2⟩ := built_of_check (wm := none) (m := ⟨2, 0, -1⟩) (parts := [C24_b]) (by decide +kernel)
  refine ⟨g, g1, g2, featReply 0 ([2, 1, 7].map (nodeAnswer [C24_a] [(0, 1), (1, 3)])),
    featReply 0 ([2, 1, 7].map (nodeAnswer [C24_b] [(0, 1), (1, 3)])), hb, hb1, hb2, ?_, ?_, ?_, ?_⟩
  · simp [hb1.getNodeFeatures, hb2.getNodeFeatures]
  · constructor <;> decide +kernel
  · decide +kernel
  · decide +kernel

/-- The claim that the values are the same for all reply orders is false: two servers with different node records of
the same node, both with timestamp 0 since the query has no timestamp; whichever reply is processed last wins. -/
theorem C24_order_refuted : ∃ p1 p2 g1 g2 r1 r2, Built intCodec none ⟨1, 0, -1⟩ p1 g1 ∧ Built intCodec none ⟨1, 0, -1⟩ p2 g2 ∧
    g1.getNodeFeatures [1] none [(0, 1)] = some r1 ∧ g2.getNodeFeatures [1] none [(0, 1)] = some r2 ∧
    ∃ evs evs', Schedule [r1, r2] evs ∧ Schedule [r1, r2] evs' ∧
      remoteNodeFeatures 1 [(0, 1)] evs 2 = some [2] ∧ remoteNodeFeatures 1 [(0, 1)] evs' 2 = some [1] := by
  obtain ⟨g1, -, hb1⟩ := built_of_check (wm := none) (m := ⟨1, 0, -1⟩)
    (parts := [[[⟨1, -1, 0, 1, none, none, [some [1]]⟩]]]) (by decide +kernel)
  obtain ⟨g2, -, hb2⟩ := built_of_check (wm := none) (m := ⟨1, 0, -1⟩)
    (parts := [[[⟨1, -1, 0, 1, none, none, [some [2]]⟩]]]) (by decide +kernel)
  refine ⟨_, _, g1, g2, ⟨[0], [0], [1]⟩, ⟨[0], [0], [2]⟩, hb1, hb2, ?_, ?_,
    [.recv 0 ⟨[0], [0], [1]⟩, .run 0, .recv 1 ⟨[0], [0], [2]⟩, .run 1],
    [.recv 0 ⟨[0], [0], [1]⟩, .recv 1 ⟨[0], [0], [2]⟩, .run 1, .run 0], ?_, ?_, ?_, ?_⟩
  · rw [hb1.getNodeFeatures]; decide +kernel
  · rw [hb2.getNodeFeatures]; decide +kernel
  · constructor <;> decide +kernel
  · constructor <;> decide +kernel
  · decide +kernel
  · decide +kernel

/-- The claim that a remote query answers like a local one is false for a query without nodes, which a graph answers
with no values: the client divides the size of the output by the number of nodes. -/
theorem C24_empty_refuted : ∃ p g r, Built intCodec none ⟨1, 0, -1⟩ p g ∧ g.getNodeFeatures [] none [(0, 1)] = some r ∧
    g.nodeFeature [] none [(0, 1)] [] = some [] ∧ ∃ evs, Schedule [r] evs ∧ remoteNodeFeatures 0 [(0, 1)] evs 1 = none := by
  obtain ⟨g, -, hb⟩ := built_of_check (wm := none) (m := ⟨1, 0, -1⟩)
    (parts := [[[⟨1, -1, 0, 1, none, none, [some [1]]⟩]]]) (by decide +kernel)
  exact ⟨_, g, ⟨[], [], []⟩, hb, rfl, rfl, [.recv 0 ⟨[], [], []⟩, .run 0], ⟨by decide +kernel, by decide +kernel⟩,
    by decide +kernel⟩

/-- Non-vacuity of `C24_newest` and `C24_order_partial`: a temporal query, where the two servers know values of
different age and one has no value of the second feature. -/
example : let answers : List (List Answer) :=
      [[some [(3, [1]), (-1, [0, 0])], none], [some [(7, [2]), (4, [5, 6])], some [(-1, [0]), (1, [8, 9])]]]
    (∀ as ∈ answers, as.length = 2) ∧ (∀ as ∈ answers, ∀ a ∈ as, Answer.Fits [(4, 1), (5, 2)] a) ∧
    (∀ k < 2, ∀ f < 2, C24_Agree (valuesFor answers k f)) ∧
    Schedule (answers.map (featReply 0)) [.recv 1 ⟨[0, 1], [7, 4, -1, 1], [2, 5, 6, 0, 8, 9]⟩, .run 1,
      .recv 0 ⟨[0], [3, -1], [1, 0, 0]⟩, .run 0] ∧
    remoteNodeFeatures 2 [(4, 1), (5, 2)] [.recv 1 ⟨[0, 1], [7, 4, -1, 1], [2, 5, 6, 0, 8, 9]⟩, .run 1,
      .recv 0 ⟨[0], [3, -1], [1, 0, 0]⟩, .run 0] 2 = some [2, 5, 6, 0, 8, 9] := by
  refine ⟨by decide, ?_, ?_, ⟨by decide +kernel, by decide +kernel⟩, by decide +kernel⟩
  · intro as has a ha row hrow
    simp only [List.mem_cons, List.not_mem_nil, or_false] at has
    rcases has with rfl | rfl <;> simp only [List.mem_cons, List.not_mem_nil, or_false] at ha <;>
      rcases ha with rfl | rfl <;> simp at hrow <;> subst hrow <;> decide
  · intro k hk f hf x hx y hy h1 h2 _
    have : ∀ k < 2, ∀ f < 2, ∀ x ∈ valuesFor [[some [(3, [1]), (-1, [0, 0])], none],
        [some [(7, [2]), (4, [5, 6])], some [(-1, [0]), (1, [8, 9])]]] k f,
      ∀ y ∈ valuesFor [[some [(3, [1]), (-1, [0, 0])], none],
        [some [(7, [2]), (4, [5, 6])], some [(-1, [0]), (1, [8, 9])]]] k f, x.1 = y.1 → x.2 = y.2 := by decide +kernel
    exact this k hk f hf x hx y hy h1

/-- Timestamps: servers that hold the partitions of a graph answer a query at the given times, when the requested
features of each requested node are histories in all its records (or absent).  For all orders of replies the client
returns for each node and feature the latest value not after the node's timestamp in the records on all servers, which is
what the graph that has all partitions returns (`C10_node_features`). -/
theorem C24_temporal (servers : List (List (List (List Rec)) × Graph))
    (hs : ∀ s ∈ servers, Built C wm m s.1 s.2) (hp : (servers.flatMap (·.1)).Perm parts) (nodes ts : List Int)
    (hne : nodes ≠ []) (hts : ts.length = nodes.length) (feats : List (Nat × Nat))
    (H : Nat → List (Option Bytes) → List (Int × Bytes))
    (hH : ∀ n ∈ nodes, ∀ f ∈ feats, ∀ r ∈ nodeRecords parts n, HasHist r.features f.1 (H f.1 r.features)) :
    ∃ replies, servers.mapM (fun s => s.2.getNodeFeatures nodes (some ts) feats) = some replies ∧
      ∀ evs, Schedule replies evs → ∃ rows, remoteNodeFeatures nodes.length feats evs servers.length = some rows.flatten ∧
        rows.length = nodes.length ∧ ∀ x ∈ (nodes.zip ts).zip rows, Row feats (fun fid v =>
          LatestValue ((nodeRecords parts x.1.1).flatMap fun r => H fid r.features) x.1.2 v) x.2 := by
  have hrec : ∀ n r, r ∈ nodeRecords parts n ↔ ∃ s ∈ servers, r ∈ nodeRecords s.1 n := by
    intro n r
    rw [← nodeRecords_flatten]
    simp only [nodeRecords, List.mem_filter, allRecords]
    rw [(hp.flatten.flatten).mem_iff]
  -- the answers of the servers
  obtain ⟨answers, h1, h2, h3⟩ := mapM_exists (β := List Answer)
    (fun s : List (List (List Rec)) × Graph => some (Classical.epsilon fun as =>
      s.2.getNodeFeatures nodes (some ts) feats = some (featReply 0 as) ∧ as.length = nodes.length ∧
      ∀ x ∈ (nodes.zip ts).zip as,
        AnswerAt feats (fun fid => (nodeRecords s.1 x.1.1).flatMap fun r => H fid r.features) x.1.2 x.2))
    (fun s as => s.2.getNodeFeatures nodes (some ts) feats = some (featReply 0 as) ∧ as.length = nodes.length ∧
      ∀ x ∈ (nodes.zip ts).zip as,
        AnswerAt feats (fun fid => (nodeRecords s.1 x.1.1).flatMap fun r => H fid r.features) x.1.2 x.2)
    servers (by
      intro s hsm
      refine ⟨_, rfl, ?_⟩
      exact Classical.epsilon_spec ((hs s hsm).getNodeFeaturesAt nodes ts hts feats H
        (fun n hn f hf r hr => hH n hn f hf r ((hrec n r).2 ⟨s, hsm, hr⟩))))
  clear h1
  have hat : ∀ i (hi : i < servers.length), ∃ as, answers[i]? = some as ∧
      servers[i].2.getNodeFeatures nodes (some ts) feats = some (featReply 0 as) ∧ as.length = nodes.length ∧
      ∀ x ∈ (nodes.zip ts).zip as,
        AnswerAt feats (fun fid => (nodeRecords servers[i].1 x.1.1).flatMap fun r => H fid r.features) x.1.2 x.2 := by
    intro i hi
    have hi' : i < answers.length := by omega
    exact ⟨answers[i], by simp [hi'], h3 (servers[i], answers[i]) (List.mem_iff_getElem.2 ⟨i, by simp; omega, by simp⟩)⟩
  refine ⟨answers.map (featReply 0), ?_, ?_⟩
  · clear hat hp hrec hs
    induction servers generalizing answers with
    | nil => cases answers with
      | nil => rfl
      | cons a as => simp at h2
    | cons s servers ih => cases answers with
      | nil => simp at h2
      | cons a as =>
        simp only [List.zip_cons_cons, List.mem_cons, forall_eq_or_imp] at h3
        rw [List.mapM_cons, h3.1.1, ih as (by simpa using h2) h3.2]
        rfl
  · intro evs hev
    have hmem : ∀ as ∈ answers, ∃ s ∈ servers, as.length = nodes.length ∧ ∀ x ∈ (nodes.zip ts).zip as,
        AnswerAt feats (fun fid => (nodeRecords s.1 x.1.1).flatMap fun r => H fid r.features) x.1.2 x.2 := by
      intro as has
      obtain ⟨i, hi, rfl⟩ := List.mem_iff_getElem.1 has
      obtain ⟨as, h4, -, h5, h6⟩ := hat i (by omega)
      rw [List.getElem?_eq_getElem hi] at h4
      cases h4
      exact ⟨servers[i], List.getElem_mem _, h5, h6⟩
    obtain ⟨val, h4, h5⟩ := C24_newest nodes.length (List.length_pos_iff.2 hne) feats answers
      (fun as has => (hmem as has).elim fun s h => h.2.1) (by
        intro as has a ha
        obtain ⟨s, -, h6, h7⟩ := hmem as has
        obtain ⟨k, hk, rfl⟩ := List.mem_iff_getElem.1 ha
        exact (h7 ((nodes[k], ts[k]), as[k]) (List.mem_iff_getElem.2 ⟨k, by simp; omega, by simp⟩)).fits) evs hev
    -- one value
    have hval : ∀ k (hk : k < nodes.length) f (hf : f < feats.length), ∃ v, val k f = fit feats[f].2 v ∧
        LatestValue ((nodeRecords parts nodes[k]).flatMap fun r => H feats[f].1 r.features) (ts[k]'(by omega)) v := by
      intro k hk f hf
      have hkt : k < ts.length := by omega
      -- a value in a history is on some server
      have hhist : ∀ y, y ∈ ((nodeRecords parts nodes[k]).flatMap fun r => H feats[f].1 r.features) ↔
          ∃ s ∈ servers, y ∈ ((nodeRecords s.1 nodes[k]).flatMap fun r => H feats[f].1 r.features) := by
        intro y
        simp only [List.mem_flatMap]
        constructor
        · rintro ⟨r, hr, hy⟩
          obtain ⟨s, hsm, hr'⟩ := (hrec _ r).1 hr
          exact ⟨s, hsm, r, hr', hy⟩
        · rintro ⟨s, hsm, r, hr, hy⟩
          exact ⟨r, (hrec _ r).2 ⟨s, hsm, hr⟩, hy⟩
      have hans : ∀ s ∈ servers, ∃ as ∈ answers, ∃ a, as[k]? = some a ∧
          AnswerAt feats (fun fid => (nodeRecords s.1 nodes[k]).flatMap fun r => H fid r.features) ts[k] a := by
        intro s hsm
        obtain ⟨i, hi, rfl⟩ := List.mem_iff_getElem.1 hsm
        obtain ⟨as, h6, -, h7, h8⟩ := hat i hi
        have hka : k < as.length := by omega
        exact ⟨as, List.mem_of_getElem? h6, as[k], by simp [hka],
          h8 ((nodes[k], ts[k]), as[k]) (List.mem_iff_getElem.2 ⟨k, by simp; omega, by simp⟩)⟩
      have hold : ∀ y ∈ ((nodeRecords parts nodes[k]).flatMap fun r => H feats[f].1 r.features), y.1 ≤ ts[k] →
            ∃ z ∈ valuesFor answers k f, y.1 ≤ z.1 ∧ 0 ≤ z.1 := by
        intro y hy hyt
        obtain ⟨s, hsm, hy⟩ := (hhist y).1 hy
        obtain ⟨as, has, a, h6, h7⟩ := hans s hsm
        cases a with
        | none =>
          have := h7 feats[f] (List.getElem_mem hf) y hy
          omega
        | some row =>
          obtain ⟨h8, h9⟩ := h7
          have hfr : f < row.length := by omega
          have hz := (h9 (feats[f], row[f]) (List.mem_iff_getElem.2 ⟨f, by simp; omega, by simp⟩)).1
          rcases hz with ⟨-, hlt⟩ | ⟨x, hx, hx1, hx2, -⟩
          · have := hlt y hy; omega
          · refine ⟨row[f], List.mem_filterMap.2 ⟨as, has, by simp [h6, hfr]⟩, ?_, ?_⟩
            · have := hx.2.2 y hy hyt
              simp only at hx1
              omega
            · simp only at hx1
              omega
      rcases h5 k hk f feats[f] (by simp [hf]) with ⟨c, h6, h7, h8⟩ | ⟨h6, h7⟩
      · obtain ⟨as, has, h9⟩ := List.mem_filterMap.1 h6
        obtain ⟨row, h10, h11⟩ := Option.bind_eq_some_iff.1 h9
        obtain ⟨s, hsm, h12, h13⟩ := hmem as has
        have hka : k < as.length := by omega
        rw [List.getElem?_eq_getElem hka, Option.join_some] at h10
        have h14 := h13 ((nodes[k], ts[k]), as[k]) (List.mem_iff_getElem.2 ⟨k, by simp; omega, by simp⟩)
        rw [h10] at h14
        obtain ⟨h15, h16⟩ := h14
        have hz := (h16 (feats[f], (c, val k f)) (List.mem_iff_getElem?.2 ⟨f, List.getElem?_zip_eq_some.2
          ⟨by simp [hf], h11⟩⟩)).1
        rcases hz with ⟨hneg, -⟩ | ⟨x, hx, hx1, hx2, hx3⟩
        · simp only at hneg; omega
        · simp only at hx1 hx3
          refine ⟨x.2, hx3, Or.inl ⟨x.1, (hhist x).2 ⟨s, hsm, hx.1⟩, hx.2.1, ?_⟩⟩
          intro y hy hyt
          obtain ⟨z, hz, h17, -⟩ := hold y hy hyt
          have := h8 z hz
          omega
      · refine ⟨[], by rw [h6]; simp [fit], Or.inr ⟨rfl, ?_⟩⟩
        intro y hy
        by_cases hlt : ts[k] < y.1
        · exact hlt
        · obtain ⟨z, hz, -, h17⟩ := hold y hy (by omega)
          have := h7 z hz
          omega
    refine ⟨(List.range nodes.length).map fun k => (List.range feats.length).flatMap fun f => val k f, ?_, by simp, ?_⟩
    · rw [← h2, h4, List.flatMap_def]
    · rintro ⟨⟨n, t⟩, row⟩ hx
      obtain ⟨k, hk, hxk⟩ := List.mem_iff_getElem.1 hx
      simp only [List.length_zip, List.length_map, List.length_range] at hk
      simp only [List.getElem_zip, Prod.mk.injEq, List.getElem_map, List.getElem_range] at hxk
      obtain ⟨⟨rfl, rfl⟩, rfl⟩ := hxk
      have hkn : k < nodes.length := by omega
      refine ⟨(List.range feats.length).map fun f => if hf : f < feats.length then
        Classical.choose (hval k hkn f hf) else [], by simp, ?_, ?_⟩
      · show List.flatMap _ _ = _
        rw [List.flatMap_def]
        refine congrArg List.flatten ?_
        apply List.ext_getElem (by simp)
        intro f h6 h7
        simp only [List.length_map, List.length_range] at h6
        simp only [List.getElem_map, List.getElem_range, List.getElem_zipWith, dif_pos h6]
        exact (Classical.choose_spec (hval k hkn f h6)).1
      · intro y hy
        obtain ⟨f, hf, hyf⟩ := List.mem_iff_getElem.1 hy
        simp only [List.length_zip, List.length_map, List.length_range] at hf
        have hf' : f < feats.length := by omega
        simp only [List.getElem_zip, List.getElem_map, List.getElem_range, dif_pos hf'] at hyf
        rw [← hyf]
        exact (Classical.choose_spec (hval k hkn f hf')).2

/-- Non-vacuity of `C24_temporal`: the records of node 1 are on two servers, whose replies arrive in reverse order. -/
example : ∃ g1 g2 r1 r2, Built intCodec (some 30) ⟨1, 1, 30⟩ (C10_example.take 1) g1 ∧
    Built intCodec (some 30) ⟨1, 1, 30⟩ (C10_example.drop 1) g2 ∧
    (∀ n ∈ [(1 : Int), 1, 2, 1], ∀ f ∈ [(0, 2)], ∀ r ∈ nodeRecords C10_example n,
      HasHist r.features f.1 (C10_hist f.1 r.features)) ∧
    ([(C10_example.take 1, g1), (C10_example.drop 1, g2)].mapM fun s =>
      s.2.getNodeFeatures [1, 1, 2, 1] (some [14, 17, 30, 25]) [(0, 2)]) = some [r1, r2] ∧
    Schedule [r1, r2] [.recv 1 r2, .recv 0 r1, .run 1, .run 0] ∧
    remoteNodeFeatures 4 [(0, 2)] [.recv 1 r2, .recv 0 r1, .run 1, .run 0] 2 = some [1, 0, 3, 0, 0, 0, 2, 2] := by
  obtain ⟨g1, hg1, hb1⟩ := built_of_check (wm := some 30) (m := ⟨1, 1, 30⟩) (parts := C10_example.take 1) (by decide +kernel)
  obtain ⟨g2, hg2, hb2⟩ := built_of_check (wm := some 30) (m := ⟨1, 1, 30⟩) (parts := C10_example.drop 1) (by decide +kernel)
  have e1 : (graphOf intCodec (some 30) ⟨1, 1, 30⟩ (C10_example.take 1)).bind (fun g =>
      g.getNodeFeatures [1, 1, 2, 1] (some [14, 17, 30, 25]) [(0, 2)]) = some ⟨[0, 1, 3], [10, 10, 20], [1, 0, 1, 0, 2, 2]⟩ := by
    decide +kernel
  have e2 : (graphOf intCodec (some 30) ⟨1, 1, 30⟩ (C10_example.drop 1)).bind (fun g =>
      g.getNodeFeatures [1, 1, 2, 1] (some [14, 17, 30, 25]) [(0, 2)]) = some ⟨[1, 3], [15, 15], [3, 0, 3, 0]⟩ := by
    decide +kernel
  rw [hg1, Option.bind_some] at e1
  rw [hg2, Option.bind_some] at e2
  have h1 : nodeRecords C10_example 1 =
      [⟨1, -1, 0, 1, none, none, [some (serializeTemporal [(20, [2, 2]), (10, [1])])]⟩,
       ⟨1, -1, 0, 1, none, none, [some (serializeTemporal [(15, [3])])]⟩] := by decide +kernel
  have h2 : nodeRecords C10_example 2 = [] := by decide +kernel
  have h3 : C10_hist 0 [some (serializeTemporal [(20, [2, 2]), (10, [1])])] = [(20, [2, 2]), (10, [1])] := by
    decide +kernel
  have h4 : C10_hist 0 [some (serializeTemporal [(15, [3])])] = [(15, [3])] := by decide +kernel
  refine ⟨g1, g2, _, _, hb1, hb2, ?_, by simp [e1, e2]; exact ⟨rfl, rfl⟩, by constructor <;> decide +kernel, by decide +kernel⟩
  intro n hn f hf r hr
  rw [List.mem_singleton.1 hf]
  have hn : n = 1 ∨ n = 2 := by simp at hn; omega
  rcases hn with rfl | rfl
  · rw [h1] at hr
    rcases List.mem_cons.1 hr with rfl | hr
    · exact Or.inr ⟨by rw [h3]; rfl, by rw [h3]; exact ⟨by decide, by decide, by decide⟩⟩
    · rw [List.mem_singleton.1 hr]
      exact Or.inr ⟨by rw [h4]; rfl, by rw [h4]; exact ⟨by decide, by decide, by decide⟩⟩
  · rw [h2] at hr
    simp at hr

end DeepGNN
