import Verif.Proofs.WriterInv

namespace DeepGNN

/-- The edge a record describes, given the node timestamps in force (writers.py:149-150). -/
def effEdge (nc nr : Int) (r : Rec) : GEdge :=
  { dst := r.dst, typ := r.typ, weight := r.weight, feats := r.features,
    created := pyOr r.created nc, removed := pyOr r.removed nr }

/-- Edges written for the records of one `add` call. -/
def effEdges (nc nr : Int) : List Rec → List (Int × GEdge)
  | [] => []
  | r :: rs =>
    if r.dst = -1 then effEdges (pyOr r.created 0) (pyOr r.removed (-1)) rs
    else (r.src, effEdge nc nr r) :: effEdges nc nr rs

/-- Node records of a stream: id, type, features. -/
def nodeRecs (rs : List Rec) : List (Int × Int × List (Option Bytes)) :=
  (rs.filter (fun r => r.dst = -1)).map fun r => (r.src, r.typ, r.features)

/-- The blocks started by the records of a stream: one for every node record and one for every edge record of another node
than the record before. -/
def blockIds : Option Int → List Rec → List Int
  | _, [] => []
  | last, r :: rs =>
    if r.dst = -1 then r.src :: blockIds (some r.src) rs
    else if last = some r.src then blockIds last rs
    else r.src :: blockIds (some r.src) rs

theorem blockIds_append (I : List Int) (rs qs : List Rec) :
    blockIds I.getLast? (rs ++ qs) =
      blockIds I.getLast? rs ++ blockIds (I ++ blockIds I.getLast? rs).getLast? qs := by
  induction rs generalizing I with
  | nil => simp [blockIds]
  | cons r rs ih =>
    have h1 : (I ++ [r.src]).getLast? = some r.src := by simp
    have := ih (I ++ [r.src])
    rw [h1] at this
    simp only [List.cons_append, blockIds]
    split
    · rw [this]; simp
    · split
      · exact ih I
      · rw [this]; simp

/-- The blocks written contain exactly the edges `S` and the node records `N`, for the nodes `I`. -/
structure SInv (bs : List Blk) (S : List (Int × GEdge)) (N : List (Int × Int × List (Option Bytes)))
    (I : List Int) : Prop where
  ids : bs.map (·.id) = I
  edges : bs.flatMap (fun b => b.edges.map (fun e => (b.id, e))) = S
  nodes : (bs.filter (fun b => b.typ ≠ -1)).map (fun b => (b.id, b.typ, b.feats)) = N
  noFeats : ∀ b ∈ bs, b.typ = -1 → b.feats = []
  typ0 : ∀ b ∈ bs, -1 ≤ b.typ

def WS (C : WeightCodec) (w : BinaryWriter) (bs : List Blk) (S : List (Int × GEdge))
    (N : List (Int × Int × List (Option Bytes))) (I : List Int) : Prop :=
  WInv C w.node w.edge w.prevNode w.prevEdgeType bs ∧ SInv bs S N I ∧
    ∀ b ∈ bs, b.typ = -1 → b.edges ≠ []

theorem addRec_ws {C : WeightCodec} {w w' : BinaryWriter} {bs S N I} (h : WS C w bs S N I) {r : Rec}
    (hr : w.addRec C r = some w') :
    w'.edge.watermark = w.edge.watermark ∧
    w'.nodeCreated = (if r.dst = -1 then pyOr r.created 0 else w.nodeCreated) ∧
    w'.nodeRemoved = (if r.dst = -1 then pyOr r.removed (-1) else w.nodeRemoved) ∧
    ∃ bs', WS C w' bs'
      (S ++ if r.dst = -1 then [] else [(r.src, effEdge w.nodeCreated w.nodeRemoved r)])
      (N ++ if r.dst = -1 then [(r.src, r.typ, r.features)] else [])
      (I ++ if r.dst = -1 ∨ I.getLast? ≠ some r.src then [r.src] else []) := by
  obtain ⟨hw, hs, hne⟩ := h
  simp only [BinaryWriter.addRec] at hr
  by_cases ht : r.typ < 0
  · simp [ht] at hr
  simp only [ht, if_false] at hr
  by_cases hd : r.dst = -1
  · simp only [hd, if_true, BinaryWriter.addNodeRec, Option.map_eq_some_iff] at hr
    obtain ⟨node, hnode, rfl⟩ := hr
    have := hw.newBlock hnode
    refine ⟨rfl, by simp [hd], by simp [hd], bs ++ [⟨r.src, r.typ, r.features, []⟩], this, ?_, ?_⟩
    case refine_2 =>
      intro b hb
      rcases List.mem_append.1 hb with hb | hb
      · exact hne b hb
      · simp only [List.mem_singleton] at hb; subst hb; intro h; simp only at h; omega
    have hne : r.typ ≠ -1 := by omega
    constructor
    · simp [hd, hs.ids]
    · simp [hd, hs.edges]
    · simp only [hd, if_true, List.filter_append, List.map_append, hs.nodes]
      simp [hne]
    · intro b hb
      rcases List.mem_append.1 hb with hb | hb
      · exact hs.noFeats b hb
      · simp only [List.mem_singleton] at hb; subst hb; intro h; simp only at h; omega
    · intro b hb
      rcases List.mem_append.1 hb with hb | hb
      · exact hs.typ0 b hb
      · simp only [List.mem_singleton] at hb; subst hb; simp only; omega
  · simp only [hd, if_false, Option.bind_eq_some_iff] at hr
    obtain ⟨w1, hw1, hr⟩ := hr
    -- after the optional new block, the last block belongs to `src`
    have hblock : ∃ bs1 b, WInv C w1.node w1.edge w1.prevNode w1.prevEdgeType (bs1 ++ [b]) ∧
        b.id = r.src ∧ SInv (bs1 ++ [b]) S N (I ++ if r.dst = -1 ∨ I.getLast? ≠ some r.src then [r.src] else []) ∧ w1.edge.watermark = w.edge.watermark ∧
        w1.nodeCreated = w.nodeCreated ∧ w1.nodeRemoved = w.nodeRemoved ∧
        (∀ b ∈ bs1, b.typ = -1 → b.edges ≠ []) := by
      simp only [BinaryWriter.startNode] at hw1
      by_cases hp : w.prevNode = some r.src
      · simp only [hp, if_true, Option.some.injEq] at hw1
        subst hw1
        have hpn := hw.prevN
        rw [hp] at hpn
        rcases List.eq_nil_or_concat bs with h0 | ⟨bs1, b, h1⟩
        · rw [h0] at hpn; simp at hpn
        · rw [List.concat_eq_append] at h1
          subst h1
          have hb : b.id = r.src := by simpa using hpn.symm
          have hI : I.getLast? = some r.src := by rw [← hs.ids]; simp [hb]
          refine ⟨bs1, b, hw, hb, ?_, rfl, rfl, rfl, fun b hb => hne b (by simp [hb])⟩
          rw [if_neg (by simp [hd, hI]), List.append_nil]
          exact hs
      · simp only [hp, if_false, Option.map_eq_some_iff] at hw1
        obtain ⟨node, hnode, rfl⟩ := hw1
        refine ⟨bs, ⟨r.src, -1, [], []⟩, hw.newBlock hnode, rfl, ?_, rfl, rfl, rfl, hne⟩
        have hI : I.getLast? ≠ some r.src := by
          intro h
          apply hp
          rw [hw.prevN, ← h, ← hs.ids, List.getLast?_map]
        rw [if_pos (Or.inr hI)]
        constructor
        · simp [hs.ids]
        · simp [hs.edges]
        · simp [List.filter_append, ← hs.nodes]
        · intro b hb
          rcases List.mem_append.1 hb with hb | hb
          · exact hs.noFeats b hb
          · simp only [List.mem_singleton] at hb; subst hb; simp
        · intro b hb
          rcases List.mem_append.1 hb with hb | hb
          · exact hs.typ0 b hb
          · simp only [List.mem_singleton] at hb; subst hb; simp
    obtain ⟨bs1, b, hw1', hbid, hs1, hwm, hnc, hnr, hne1⟩ := hblock
    simp only [BinaryWriter.addEdgeRec] at hr
    by_cases hok : w1.edgeOk r = true
    case neg => simp [hok] at hr
    simp only [hok, if_true, Option.map_eq_some_iff] at hr
    obtain ⟨edge, hedge, rfl⟩ := hr
    have hadd := hw1'.addEdge (effEdge w.nodeCreated w.nodeRemoved r)
      (by simp only [effEdge]; rw [← hnc, ← hnr]; exact hedge) (by simp [effEdge]; omega) (by
        intro t htp
        simp only [BinaryWriter.edgeOk, htp, Bool.and_eq_true, decide_eq_true_eq] at hok
        simpa [effEdge] using hok.1.1)
    obtain ⟨hadd1, hadd2⟩ := hadd
    refine ⟨by simp only [hadd2, hwm], by simp [hd, hnc], by simp [hd, hnr], _, hadd1, ?_, ?_⟩
    case refine_2 =>
      intro x hx
      rcases List.mem_append.1 hx with hx | hx
      · exact hne1 x hx
      · simp only [List.mem_singleton] at hx; subst hx; simp
    constructor
    · rw [← hs1.ids]; simp
    · rw [← hs1.edges]; simp [hd, hbid]
    · rw [← hs1.nodes]; simp [hd, List.filter_append, List.filter_cons]; split <;> simp
    · intro x hx
      rcases List.mem_append.1 hx with hx | hx
      · exact hs1.noFeats x (by simp [hx])
      · simp only [List.mem_singleton] at hx; subst hx; exact hs1.noFeats b (by simp)
    · intro x hx
      rcases List.mem_append.1 hx with hx | hx
      · exact hs1.typ0 x (by simp [hx])
      · simp only [List.mem_singleton] at hx; subst hx; exact hs1.typ0 b (by simp)

theorem addRecs_ws {C : WeightCodec} (rs : List Rec) {w w' : BinaryWriter} {bs S N I}
    (h : WS C w bs S N I) (hr : rs.foldlM (BinaryWriter.addRec C) w = some w') :
    w'.edge.watermark = w.edge.watermark ∧
    ∃ bs', WS C w' bs' (S ++ effEdges w.nodeCreated w.nodeRemoved rs) (N ++ nodeRecs rs)
      (I ++ blockIds I.getLast? rs) := by
  induction rs generalizing w bs S N I with
  | nil =>
    simp only [List.foldlM_nil, Option.pure_def, Option.some.injEq] at hr
    subst hr
    exact ⟨rfl, bs, by simpa [effEdges, nodeRecs, blockIds] using h⟩
  | cons r rs ih =>
    simp only [List.foldlM_cons, Option.bind_eq_bind, Option.bind_eq_some_iff] at hr
    obtain ⟨w1, hw1, hr⟩ := hr
    obtain ⟨h1, h2, h3, bs1, h4⟩ := addRec_ws h hw1
    obtain ⟨h5, bs2, h6⟩ := ih h4 hr
    refine ⟨h5.trans h1, bs2, ?_⟩
    by_cases hd : r.dst = -1
    · simp only [hd, if_true] at h2 h3
      simpa [effEdges, nodeRecs, blockIds, hd, h2, h3] using h6
    · simp only [hd, if_false] at h2 h3
      by_cases hl : I.getLast? = some r.src
      · simpa [effEdges, nodeRecs, blockIds, hd, h2, h3, hl] using h6
      · simpa [effEdges, nodeRecs, blockIds, hd, h2, h3, hl] using h6

/-- What has been written after any sequence of `add` calls. -/
theorem writeCalls_ws {C : WeightCodec} {wm : Option Nat} (calls : List (List Rec)) {w : BinaryWriter}
    (hr : writeCalls C wm calls = some w) :
    w.edge.watermark = wm ∧
    ∃ bs, WS C w bs (calls.flatMap (effEdges 0 (-1))) (nodeRecs calls.flatten) (blockIds none calls.flatten) := by
  suffices H : ∀ (calls : List (List Rec)) (w0 w : BinaryWriter) bs S N I, WS C w0 bs S N I →
      calls.foldlM (BinaryWriter.add C) w0 = some w →
      w.edge.watermark = w0.edge.watermark ∧
      ∃ bs, WS C w bs (S ++ calls.flatMap (effEdges 0 (-1))) (N ++ nodeRecs calls.flatten)
        (I ++ blockIds I.getLast? calls.flatten) by
    have := H calls (BinaryWriter.init wm) w [] [] [] [] ⟨WInv.init C wm, by constructor <;> simp, by simp⟩ hr
    obtain ⟨h1, bs, h2⟩ := this
    refine ⟨?_, bs, by simpa using h2⟩
    rw [h1]; cases wm <;> rfl
  intro calls
  induction calls with
  | nil =>
    intro w0 w bs S N I h hr
    simp only [List.foldlM_nil, Option.pure_def, Option.some.injEq] at hr
    subst hr
    exact ⟨rfl, bs, by simpa [nodeRecs, blockIds] using h⟩
  | cons c cs ih =>
    intro w0 w bs S N I h hr
    simp only [List.foldlM_cons, Option.bind_eq_bind, Option.bind_eq_some_iff] at hr
    obtain ⟨w1, hw1, hr⟩ := hr
    simp only [BinaryWriter.add] at hw1
    have h' : WS C { w0 with nodeCreated := 0, nodeRemoved := -1 } bs S N I := h
    obtain ⟨h1, bs1, h2⟩ := addRecs_ws c h' hw1
    obtain ⟨h3, bs2, h4⟩ := ih w1 w bs1 _ _ _ h2 hr
    refine ⟨h3.trans h1, bs2, ?_⟩
    rw [List.flatten_cons, blockIds_append, ← List.append_assoc]
    simpa [nodeRecs] using h4

end DeepGNN
