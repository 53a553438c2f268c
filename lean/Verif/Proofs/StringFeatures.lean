import Verif.Proofs.TemporalFeature

namespace DeepGNN
open Spec (IsLatest LatestValue HistOk HasHist)

/-! One record -/

/-- What a string query may return for feature `fid` of a record with the features `fl`; `K` is the
history of the feature (used at a timestamp only). -/
def StrOk (fl : List (Option Bytes)) (ts : Option Int) (K : List (Int × Bytes)) (fid : Nat) (v : Bytes) : Prop :=
  match ts with
  | none => v = (fl[fid]?.join).getD []
  | some t => LatestValue K t v

/-- Stored features a string query can read: anything without a timestamp, histories (or nothing) with
one. -/
def StrReadable (fl : List (Option Bytes)) (ts : Option Int) (K : List (Int × Bytes)) (fid : Nat) : Prop :=
  ts = none ∨ HasHist fl fid K ∨ (fl[fid]? = some none ∧ K = [])

theorem serializeTemporal_ne {K : List (Int × Bytes)} : (serializeTemporal K).length ≠ 0 := by
  simp only [serializeTemporal, serializeSorted, List.length_append, length_leBytes]
  omega

theorem StrReadable.nil {fl t K f} (h : StrReadable fl (some t) K f) (hf : fl[f]? = none) : K = [] := by
  rcases h with h | h | h
  · cases h
  · rcases h with h | h
    · exact h.2
    · rw [hf] at h; simp at h
  · exact h.2

theorem stringStep_nil {edge index data lo hi} (h : Owner index data lo hi []) (ts : Option Int) (f : Nat)
    (s : Int × Nat) (out : Bytes) : stringStep edge index data lo hi ts f s out = some (s, out) := by
  simp only [stringStep]
  split
  · rfl
  · rw [h.range_none (by simp)]
    rfl

theorem readAt_exact (pre v post : Bytes) : readAt (pre ++ v ++ post) pre.length v.length = some v := by
  rw [readAt_start _ _ _ _ (Nat.le_refl _), List.take_length]

/-- From any state the step succeeds; from a fresh state it appends the right value. -/
theorem stringStep_owner {edge index data lo hi fl} (h : Owner index data lo hi fl) (ts : Option Int) (f : Nat)
    {K : List (Int × Bytes)} (hK : StrReadable fl ts K f) (s : Int × Nat) (out : Bytes) :
    ∃ s' out', stringStep edge index data lo hi ts f s out = some (s', out') ∧
      (s = (-1, 0) → ∃ v, s'.2 = v.length ∧ out' = out ++ v ∧ StrOk fl ts K f v) := by
  simp only [stringStep]
  by_cases hset : settled ts s.1 = true
  · rw [if_pos hset]
    refine ⟨s, out, rfl, ?_⟩
    rintro rfl
    refine ⟨[], rfl, by simp, ?_⟩
    cases ts with
    | none => simp [settled] at hset
    | some t =>
      have ht : t = -1 := by have := of_decide_eq_true hset; simp only at this; omega
      have hnn : ∀ y ∈ K, 0 ≤ y.1 := by
        rcases hK with hK | hK | ⟨-, rfl⟩
        · cases hK
        · exact hist_nonneg hK
        · simp
      exact Or.inr ⟨rfl, fun y hy => by have := hnn y hy; omega⟩
  · rw [if_neg hset]
    cases hf : fl[f]? with
    | none =>
      rw [h.range_none hf]
      refine ⟨s, out, rfl, ?_⟩
      rintro rfl
      refine ⟨[], rfl, by simp, ?_⟩
      cases ts with
      | none => simp [StrOk, hf]
      | some t =>
        have : K = [] := hK.nil hf
        subst this
        exact latest_nil
    | some v =>
      obtain ⟨pre, post, h1, h2⟩ := h.range_some hf
      rw [h2]
      simp only [Option.bind_some]
      by_cases hz : (featBytes v).length = 0
      · rw [if_pos hz]
        refine ⟨s, out, rfl, ?_⟩
        rintro rfl
        refine ⟨[], rfl, by simp, ?_⟩
        cases ts with
        | none =>
          cases v with
          | none => simp [StrOk, hf]
          | some b =>
            have : b = [] := List.eq_nil_of_length_eq_zero hz
            simp [StrOk, hf, this]
        | some t =>
          have : K = [] := by
            rcases hK with hK | hK | ⟨-, hK⟩
            · cases hK
            · rcases hK with ⟨hK, -⟩ | ⟨hK, -⟩
              · rw [hf] at hK; cases hK
              · rw [hf, Option.some.injEq] at hK
                subst hK
                exact absurd hz serializeTemporal_ne
            · exact hK
          subst this
          exact latest_nil
      · rw [if_neg hz]
        cases ts with
        | none =>
          simp only [featValue, Option.bind_some, h1, readAt_exact]
          have hs : ¬ s.1 ≥ 0 := by simpa [settled] using hset
          rw [if_neg (by rintro ⟨-, h⟩; omega), if_neg (by rintro ⟨-, h⟩; omega)]
          refine ⟨_, _, rfl, ?_⟩
          rintro rfl
          refine ⟨featBytes v, rfl, rfl, ?_⟩
          cases v <;> simp [StrOk, hf, featBytes]
        | some t =>
          have hh : fl[f]? = some (some (serializeTemporal K)) ∧ HistOk K := by
            rcases hK with hK | hK | ⟨hK, -⟩
            · cases hK
            · rcases hK with ⟨hK, -⟩ | hK
              · rw [hf] at hK; cases hK
              · exact hK
            · rw [hf, Option.some.injEq] at hK
              subst hK
              exact absurd rfl hz
          obtain ⟨hv, hok⟩ := hh
          rw [hf, Option.some.injEq] at hv
          subst hv
          simp only [featValue, h1, featBytes]
          rcases deserialize_serialize hok pre post t with ⟨h4, h5⟩ | ⟨x, off, h4, h5, pre', post', h6, h7⟩
          · rw [h4]
            simp only [Option.bind_some]
            by_cases hc : edge = false ∧ s.1 ≥ -1
            · rw [if_pos hc]
              refine ⟨s, out, rfl, ?_⟩
              rintro rfl
              exact ⟨[], rfl, by simp, Or.inr ⟨rfl, h5⟩⟩
            · rw [if_neg hc]
              have h6 : readAt (pre ++ serializeTemporal K ++ post) pre.length 0 = some [] := by
                have := readAt_exact pre [] (serializeTemporal K ++ post)
                simpa using this
              rw [h6]
              refine ⟨_, _, rfl, ?_⟩
              rintro rfl
              exact ⟨[], rfl, by simp, Or.inr ⟨rfl, h5⟩⟩
          · rw [h5]
            simp only [Option.bind_some]
            by_cases hc : edge = false ∧ s.1 ≥ x.1
            · rw [if_pos hc]
              refine ⟨s, out, rfl, ?_⟩
              rintro rfl
              have := (hok.times x h4.1).1
              have := hc.2
              simp only at this
              omega
            · rw [if_neg hc, h6, ← h7, readAt_exact]
              refine ⟨_, _, rfl, ?_⟩
              rintro rfl
              refine ⟨x.2, rfl, ?_, Or.inl ⟨x.1, h4⟩⟩
              rw [if_neg (by rintro ⟨-, h⟩; simp at h)]

theorem stringLoop_id {step : Nat → Int × Nat → Bytes → Option ((Int × Nat) × Bytes)}
    (h : ∀ f s out, step f s out = some (s, out)) (fs : List Nat) (ss : List (Int × Nat)) (out : Bytes) :
    stringLoop step fs ss out = some (ss, out) := by
  induction fs generalizing ss out with
  | nil => simp [stringLoop]
  | cons f fs ih =>
    cases ss with
    | nil => simp [stringLoop]
    | cons s ss => simp [stringLoop, h, ih]

theorem stringLoop_total {step : Nat → Int × Nat → Bytes → Option ((Int × Nat) × Bytes)} {fs : List Nat}
    (h : ∀ f ∈ fs, ∀ s out, ∃ s' out', step f s out = some (s', out')) (ss : List (Int × Nat)) (out : Bytes) :
    ∃ ss' out', stringLoop step fs ss out = some (ss', out') := by
  induction fs generalizing ss out with
  | nil => exact ⟨ss, out, by simp [stringLoop]⟩
  | cons f fs ih =>
    cases ss with
    | nil => exact ⟨[], out, by simp [stringLoop]⟩
    | cons s ss =>
      obtain ⟨s', o', h1⟩ := h f (by simp) s out
      obtain ⟨ss', o'', h2⟩ := ih (fun f hf => h f (by simp [hf])) ss o'
      exact ⟨s' :: ss', o'', by simp [stringLoop, h1, h2]⟩

theorem stringLoop_fresh {step : Nat → Int × Nat → Bytes → Option ((Int × Nat) × Bytes)} {fs : List Nat}
    {P : Nat → Bytes → Prop}
    (h : ∀ f ∈ fs, ∀ out, ∃ s' v, step f (-1, 0) out = some (s', out ++ v) ∧ s'.2 = v.length ∧ P f v) (out : Bytes) :
    ∃ ss' vs, stringLoop step fs (List.replicate fs.length (-1, 0)) out = some (ss', out ++ vs.flatten) ∧
      ss'.map (·.2) = vs.map List.length ∧ vs.length = fs.length ∧ ∀ x ∈ fs.zip vs, P x.1 x.2 := by
  induction fs generalizing out with
  | nil => exact ⟨[], [], by simp [stringLoop], rfl, rfl, by simp⟩
  | cons f fs ih =>
    obtain ⟨s', v, h1, h2, h3⟩ := h f (by simp) out
    obtain ⟨ss', vs, h4, h5, h6, h7⟩ := ih (fun f hf => h f (by simp [hf])) (out ++ v)
    refine ⟨s' :: ss', v :: vs, ?_, by simp [h2, h5], by simp [h6], ?_⟩
    · simp [List.replicate_succ, stringLoop, h1, h4]
    · simp only [List.zip_cons_cons, List.mem_cons, forall_eq_or_imp]
      exact ⟨h3, h7⟩

/-! All blocks of a node; `own b` are the features block `b` contributes. -/

/-- The reply for one node or edge: `out` extended by one value per feature, and their lengths. -/
def StrReply (fs : List Nat) (P : Nat → Bytes → Prop) (out : Bytes) (s : StrState) : Prop :=
  ∃ vs, vs.length = fs.length ∧ s.flags.map (·.2) = vs.map List.length ∧ s.out = out ++ vs.flatten ∧
    ∀ x ∈ fs.zip vs, P x.1 x.2

/-- State after the blocks contributing the records `os`. -/
def StrInv (fs : List Nat) (P : List (Option Bytes) → Nat → Bytes → Prop) (out : Bytes) :
    List (List (Option Bytes)) → StrState → Prop
  | [], s => s = ⟨List.replicate fs.length (-1, 0), out⟩
  | [fl], s => StrReply fs (P fl) out s
  | _, _ => True

theorem StrInv.step {fs P out os s} (h : StrInv fs P out os s) {step : StrState → Option StrState}
    {fl : List (Option Bytes)}
    (htot : ∃ s', step s = some s')
    (hfresh : s = ⟨List.replicate fs.length (-1, 0), out⟩ → ∃ s', step s = some s' ∧ StrReply fs (P fl) out s') :
    ∃ s', step s = some s' ∧ StrInv fs P out (os ++ [fl]) s' := by
  match os, h with
  | [], h => exact hfresh h
  | [a], _ =>
    obtain ⟨s', hs⟩ := htot
    exact ⟨s', hs, trivial⟩
  | a :: b :: os, _ =>
    obtain ⟨s', hs⟩ := htot
    refine ⟨s', hs, ?_⟩
    simp [StrInv]

variable {C : WeightCodec} {m : Meta} {g : Graph} {items : List Item} {parts : List (List (List Rec))}

/-- The features a block contributes to a node query. -/
def ownNode (b : Blk) : Option (List (Option Bytes)) := if b.feats = [] then none else some b.feats

theorem GraphOk.ownNode_records (h : GraphOk C m g items parts) (n : Int) :
    (nodeBlks items n).filterMap ownNode =
      ((Spec.nodeRecords parts n).filter (fun r => decide (r.features ≠ []))).map (·.features) := by
  rw [← h.nodeBlks_feats n (fun l => decide (l ≠ [])) (by simp)]
  generalize nodeBlks items n = bs
  induction bs with
  | nil => rfl
  | cons b bs ih =>
    by_cases hb : b.feats = []
    · simp [ownNode, hb, List.filterMap_cons, List.filter_cons, ih]
    · simp [ownNode, hb, List.filterMap_cons, List.filter_cons, ih]

theorem owner_nil_or (b : Blk) : (ownNode b = none ∧ b.feats = []) ∨ (ownNode b = some b.feats ∧ b.feats ≠ []) := by
  by_cases hb : b.feats = []
  · left; simp [ownNode, hb]
  · right; simp [ownNode, hb]

theorem GraphOk.nodeString1 (h : GraphOk C m g items parts)
    (hc : ∀ it ∈ items, it.files.nodeFeatureCount ≤ m.nodeFeatureCount) (feats : List Nat) (n : Int)
    (ts : Option Int) (H : Nat → List (Option Bytes) → List (Int × Bytes))
    (hH : ∀ f ∈ feats, ∀ r ∈ Spec.nodeRecords parts n, StrReadable r.features ts (H f r.features) f)
    (out : Bytes) :
    ∃ s : StrState, g.nodeString1 feats n ts out = some (s.flags.map (·.2), s.out) ∧
      StrInv feats (fun fl f v => StrOk fl ts (H f fl) f v) out
        (((Spec.nodeRecords parts n).filter (fun r => decide (r.features ≠ []))).map (·.features)) s := by
  obtain ⟨es, h1, h2⟩ := h.foldEntries_inv (σ := StrState) n
    (fun (s : StrState) (x : Partition × Nat) => x.1.nodeString x.2 ts feats s)
    (fun (bs : List Blk) (s : StrState) => StrInv feats (fun fl f v => StrOk fl ts (H f fl) f v) out
      (bs.filterMap ownNode) s) (by
      intro it hit x hx hid bs s hs
      have hb : x.1 ∈ nodeBlks items n := by
        rw [List.mem_zipIdx_iff_getElem?] at hx
        exact List.mem_flatMap.2 ⟨it, hit, List.mem_filter.2 ⟨List.mem_of_getElem? hx, by simpa using hid⟩⟩
      rw [List.filterMap_append]
      by_cases hm : m.nodeFeatureCount = 0
      · obtain ⟨c, -, hsrc⟩ := item_of_src h.src hit
        have hnil := ItemOk.feats_nil (hc it hit) hsrc hx hm
        refine ⟨s, ?_, ?_⟩
        · rw [Partition.nodeString, if_pos ((h.ok it hit).loaded.noNodeFeatures hm)]
        · simpa [ownNode, hnil] using hs
      · obtain ⟨lo, hi, e1, e2, ho⟩ := (h.ok it hit).owner hx hm
        rw [Partition.nodeString, if_neg (by
          rw [(h.ok it hit).loaded.nodeFeatureIndex hm]; exact offsFrom_ne_nil _ _), e1, e2]
        simp only [Option.bind_some]
        rcases owner_nil_or x.1 with ⟨o1, o2⟩ | ⟨o1, o2⟩
        · rw [o2] at ho
          rw [stringLoop_id (fun f s out => stringStep_nil ho ts f s out)]
          exact ⟨s, rfl, by simpa [o1] using hs⟩
        · obtain ⟨r, hr, hrf⟩ := Blk.rec_of_feats h hb o2
          have hread : ∀ f ∈ feats, StrReadable x.1.feats ts (H f x.1.feats) f := by
            intro f hf; rw [← hrf]; exact hH f hf r hr
          have hf1 : [x.1].filterMap ownNode = [x.1.feats] := by simp [List.filterMap_cons, o1]
          rw [hf1]
          refine hs.step (step := fun s => (stringLoop (stringStep false it.part.nodeFeatureIndex
            it.part.nodeFeatures lo hi ts) feats s.flags s.out).map fun y => ⟨y.1, y.2⟩) ?_ ?_
          · obtain ⟨ss', o', h3⟩ := stringLoop_total (fs := feats)
              (step := stringStep false it.part.nodeFeatureIndex it.part.nodeFeatures lo hi ts) (by
                intro f hf s out
                obtain ⟨s', o', h3, -⟩ := stringStep_owner ho ts f (hread f hf) s out (edge := false)
                exact ⟨s', o', h3⟩) s.flags s.out
            exact ⟨⟨ss', o'⟩, by simp [h3]⟩
          · rintro rfl
            obtain ⟨ss', vs, h3, h4, h5, h6⟩ := stringLoop_fresh (fs := feats)
              (step := stringStep false it.part.nodeFeatureIndex it.part.nodeFeatures lo hi ts)
              (P := fun f v => StrOk x.1.feats ts (H f x.1.feats) f v) (by
                intro f hf out
                obtain ⟨s', o', h3, h4⟩ := stringStep_owner ho ts f (hread f hf) (-1, 0) out (edge := false)
                obtain ⟨v, h5, h6, h7⟩ := h4 rfl
                exact ⟨s', v, by rw [h3, h6], h5, h7⟩) out
            exact ⟨⟨ss', out ++ vs.flatten⟩, by simp [h3], vs, h5, h4, rfl, h6⟩)
  obtain ⟨s, h3, h4⟩ := h2 [] ⟨List.replicate feats.length (-1, 0), out⟩ rfl
  rw [List.nil_append, h.ownNode_records n] at h4
  refine ⟨s, ?_, h4⟩
  rw [Graph.nodeString1, h1, Option.bind_some, h3]
  rfl

/-- A node with at most one record. -/
theorem GraphOk.nodeString1_single (h : GraphOk C m g items parts)
    (hc : ∀ it ∈ items, it.files.nodeFeatureCount ≤ m.nodeFeatureCount) (feats : List Nat) (n : Int)
    (ts : Option Int) (H : Nat → List (Option Bytes) → List (Int × Bytes))
    (hH : ∀ f ∈ feats, ∀ r ∈ Spec.nodeRecords parts n, StrReadable r.features ts (H f r.features) f)
    (hone : (Spec.nodeRecords parts n).length ≤ 1) (out : Bytes) :
    ∃ vs : List Bytes, g.nodeString1 feats n ts out = some (vs.map List.length, out ++ vs.flatten) ∧
      vs.length = feats.length ∧ ∀ x ∈ feats.zip vs,
        (Spec.nodeRecords parts n = [] ∧ x.2 = []) ∨
        ∃ r ∈ Spec.nodeRecords parts n, StrOk r.features ts (H x.1 r.features) x.1 x.2 := by
  obtain ⟨s, h1, h2⟩ := h.nodeString1 hc feats n ts H hH out
  have hfill : ∀ x ∈ feats.zip (List.replicate feats.length ([] : Bytes)), x.1 ∈ feats ∧ x.2 = [] := by
    intro x hx
    have h3 := List.of_mem_zip hx
    exact ⟨h3.1, (List.mem_replicate.1 h3.2).2⟩
  have hempty : s = ⟨List.replicate feats.length (-1, 0), out⟩ →
      g.nodeString1 feats n ts out = some ((List.replicate feats.length ([] : Bytes)).map List.length,
        out ++ (List.replicate feats.length ([] : Bytes)).flatten) := by
    intro hs
    rw [h1, hs]
    simp
  match hr : Spec.nodeRecords parts n, hone with
  | [], _ =>
    rw [hr] at h2
    refine ⟨List.replicate feats.length [], hempty h2, by simp, ?_⟩
    intro x hx
    exact Or.inl ⟨rfl, (hfill x hx).2⟩
  | [r], _ =>
    rw [hr] at h2
    by_cases hf : r.features = []
    · simp only [List.filter_cons, hf, ne_eq, not_true_eq_false, decide_false, Bool.false_eq_true, if_false,
        List.filter_nil, List.map_nil] at h2
      refine ⟨List.replicate feats.length [], hempty h2, by simp, ?_⟩
      intro x hx
      obtain ⟨h3, h4⟩ := hfill x hx
      refine Or.inr ⟨r, by simp, ?_⟩
      rw [h4]
      have hread := hH x.1 h3 r (by rw [hr]; simp)
      cases ts with
      | none => simp [StrOk, hf]
      | some t =>
        have : H x.1 r.features = [] := hread.nil (by simp [hf])
        rw [this]
        exact latest_nil
    · have hfl : ([r].filter (fun r => decide (r.features ≠ []))).map (·.features) = [r.features] := by
        simp [List.filter_cons, hf]
      rw [hfl] at h2
      obtain ⟨vs, h3, h4, h5, h6⟩ := h2
      refine ⟨vs, by rw [h1, h4, h5], h3, ?_⟩
      intro x hx
      exact Or.inr ⟨r, by simp, h6 x hx⟩
  | a :: b :: l, hone => simp at hone


/-! Edges -/

/-- The features a block contributes to an edge query. -/
def ownEdge (dst typ : Int) (b : Blk) : Option (List (Option Bytes)) :=
  (pickEdge b.edges dst typ).map (·.feats)

theorem effEdges_count (nc nr : Int) (rs : List Rec) (n dst typ : Int) :
    ((effEdges nc nr rs).filter (fun x => decide (x.1 = n) && decide (x.2.dst = dst ∧ x.2.typ = typ))).length =
      ((rs.filter (fun r => r.dst ≠ -1)).filter (fun r => r.src = n ∧ r.dst = dst ∧ r.typ = typ)).length := by
  induction rs generalizing nc nr with
  | nil => rfl
  | cons r rs ih =>
    simp only [effEdges]
    by_cases hd : r.dst = -1
    · rw [if_pos hd, ih]
      simp [List.filter_cons, hd]
    · rw [if_neg hd, List.filter_cons, List.filter_cons]
      simp only [ne_eq, hd, not_false_eq_true, decide_true, if_true, List.filter_cons]
      have h1 : (effEdge nc nr r).dst = r.dst ∧ (effEdge nc nr r).typ = r.typ := ⟨rfl, rfl⟩
      rw [h1.1, h1.2]
      by_cases hh : r.src = n ∧ r.dst = dst ∧ r.typ = typ
      · have : (decide (r.src = n) && decide (r.dst = dst ∧ r.typ = typ)) = true := by simp [hh]
        simp only [this, hh, and_self, decide_true, if_true, List.length_cons]
        have := ih nc nr
        simpa using this
      · have : (decide (r.src = n) && decide (r.dst = dst ∧ r.typ = typ)) = false := by
          simp only [Bool.and_eq_false_iff, decide_eq_false_iff_not]
          by_cases h2 : r.src = n
          · right; intro h3; exact hh ⟨h2, h3⟩
          · left; exact h2
        simp only [this, hh, decide_false, Bool.false_eq_true, if_false]
        have := ih nc nr
        simpa using this

theorem GraphOk.picks_le (h : GraphOk C m g items parts) (n dst typ : Int) :
    ((nodeBlks items n).filterMap (ownEdge dst typ)).length ≤ (Spec.edgesBetween parts n dst typ).length := by
  have hall := h.all_edges n (fun e => decide (e.dst = dst ∧ e.typ = typ))
  have h1 : (Spec.edgesBetween parts n dst typ).length =
      ((nodeBlks items n).flatMap fun b => b.edges.filter (fun e => decide (e.dst = dst ∧ e.typ = typ))).length := by
    have h2 : ((nodeBlks items n).flatMap fun b => b.edges.filter (fun e => decide (e.dst = dst ∧ e.typ = typ))) =
        (items.flatMap fun it => (it.blks.filter (fun b => b.id = n)).flatMap fun b =>
          b.edges.filter (fun e => decide (e.dst = dst ∧ e.typ = typ))) := by
      rw [nodeBlks, List.flatMap_assoc]
    rw [h2, hall, List.length_map]
    simp only [Spec.edgesBetween, Spec.edgeRecords, Spec.allRecords]
    generalize parts.flatten = calls
    clear hall h2
    induction calls with
    | nil => rfl
    | cons c cs ih =>
      rw [List.flatMap_cons, List.filter_append, List.length_append, effEdges_count, List.flatten_cons,
        List.filter_append, List.filter_append, List.length_append, ih]
  rw [h1]
  clear h1 hall
  induction nodeBlks items n with
  | nil => simp
  | cons b bs ih =>
    rw [List.filterMap_cons, List.flatMap_cons, List.length_append]
    cases hp : pickEdge b.edges dst typ with
    | none => simp only [ownEdge, hp, Option.map_none]; exact Nat.le_trans ih (Nat.le_add_left _ _)
    | some e =>
      obtain ⟨h2, h3, h4⟩ := pickEdge_some hp
      have : 0 < (b.edges.filter (fun e => decide (e.dst = dst ∧ e.typ = typ))).length :=
        List.length_pos_of_mem (List.mem_filter.2 ⟨h2, by simp [h3, h4]⟩)
      have h5 : ownEdge dst typ b = some e.feats := by simp [ownEdge, hp]
      rw [h5]
      simp only [List.length_cons]
      omega

theorem GraphOk.edgeString1 (h : GraphOk C m g items parts) (hm : m.edgeFeatureCount ≠ 0)
    (hc : ∀ it ∈ items, it.files.edgeFeatureCount ≤ m.edgeFeatureCount) (feats : List Nat) (e : EdgeId)
    (ts : Option Int) (H : Nat → List (Option Bytes) → List (Int × Bytes))
    (hH : ∀ f ∈ feats, ∀ r ∈ Spec.edgesBetween parts e.src e.dst e.typ, StrReadable r.features ts (H f r.features) f)
    (out : Bytes) :
    ∃ s : StrState, g.edgeString1 feats e ts out = some (s.flags.map (·.2), s.out) ∧
      StrInv feats (fun fl f v => StrOk fl ts (H f fl) f v) out
        ((nodeBlks items e.src).filterMap (ownEdge e.dst e.typ)) s := by
  obtain ⟨es, h1, h2⟩ := h.foldEntries_inv (σ := StrState) e.src
    (fun (s : StrState) (x : Partition × Nat) => x.1.edgeString x.2 e.dst e.typ ts feats s)
    (fun (bs : List Blk) (s : StrState) => StrInv feats (fun fl f v => StrOk fl ts (H f fl) f v) out
      (bs.filterMap (ownEdge e.dst e.typ)) s) (by
      intro it hit x hx hid bs s hs
      have hb : x.1 ∈ nodeBlks items e.src := by
        rw [List.mem_zipIdx_iff_getElem?] at hx
        exact List.mem_flatMap.2 ⟨it, hit, List.mem_filter.2 ⟨List.mem_of_getElem? hx, by simpa using hid⟩⟩
      rw [List.filterMap_append]
      simp only [Partition.edgeString]
      rcases h.edgeBlocks hc hit hx e.dst e.typ with ⟨e1, e2⟩ | ⟨y, o, e1, e2, ⟨hm', -⟩ | ⟨e3, lo, hi, e4, e5, ho⟩⟩
      · rw [e2]
        exact ⟨s, rfl, by simpa [ownEdge, e1] using hs⟩
      · exact absurd hm' hm
      · rw [e2]
        simp only [Option.bind_some, e4, e5]
        obtain ⟨y1, y2, y3⟩ := pickEdge_some e1
        obtain ⟨r, hr, hrf⟩ := h.edge_record hb y1
        rw [y2, y3] at hr
        have hread : ∀ f ∈ feats, StrReadable y.feats ts (H f y.feats) f := by
          intro f hf; rw [← hrf]; exact hH f hf r hr
        have hf1 : [x.1].filterMap (ownEdge e.dst e.typ) = [y.feats] := by
          simp [List.filterMap_cons, ownEdge, e1]
        rw [hf1]
        refine hs.step (step := fun s => (stringLoop (stringStep true it.part.edgeFeatureIndex
          it.part.edgeFeatures lo hi ts) feats s.flags s.out).map fun y => ⟨y.1, y.2⟩) ?_ ?_
        · obtain ⟨ss', o', h3⟩ := stringLoop_total (fs := feats)
            (step := stringStep true it.part.edgeFeatureIndex it.part.edgeFeatures lo hi ts) (by
              intro f hf s out
              obtain ⟨s', o', h3, -⟩ := stringStep_owner ho ts f (hread f hf) s out (edge := true)
              exact ⟨s', o', h3⟩) s.flags s.out
          exact ⟨⟨ss', o'⟩, by simp [h3]⟩
        · rintro rfl
          obtain ⟨ss', vs, h3, h4, h5, h6⟩ := stringLoop_fresh (fs := feats)
            (step := stringStep true it.part.edgeFeatureIndex it.part.edgeFeatures lo hi ts)
            (P := fun f v => StrOk y.feats ts (H f y.feats) f v) (by
              intro f hf out
              obtain ⟨s', o', h3, h4⟩ := stringStep_owner ho ts f (hread f hf) (-1, 0) out (edge := true)
              obtain ⟨v, h5, h6, h7⟩ := h4 rfl
              exact ⟨s', v, by rw [h3, h6], h5, h7⟩) out
          exact ⟨⟨ss', out ++ vs.flatten⟩, by simp [h3], vs, h5, h4, rfl, h6⟩)
  obtain ⟨s, h3, h4⟩ := h2 [] ⟨List.replicate feats.length (-1, 0), out⟩ rfl
  rw [List.nil_append] at h4
  refine ⟨s, ?_, h4⟩
  rw [Graph.edgeString1, h1, Option.bind_some, h3]
  rfl

/-- An edge with at most one record. -/
theorem GraphOk.edgeString1_single (h : GraphOk C m g items parts) (hm : m.edgeFeatureCount ≠ 0)
    (hc : ∀ it ∈ items, it.files.edgeFeatureCount ≤ m.edgeFeatureCount) (feats : List Nat) (e : EdgeId)
    (ts : Option Int) (H : Nat → List (Option Bytes) → List (Int × Bytes))
    (hH : ∀ f ∈ feats, ∀ r ∈ Spec.edgesBetween parts e.src e.dst e.typ, StrReadable r.features ts (H f r.features) f)
    (hone : (Spec.edgesBetween parts e.src e.dst e.typ).length ≤ 1) (out : Bytes) :
    ∃ vs : List Bytes, g.edgeString1 feats e ts out = some (vs.map List.length, out ++ vs.flatten) ∧
      vs.length = feats.length ∧ ∀ x ∈ feats.zip vs,
        (Spec.edgesBetween parts e.src e.dst e.typ = [] ∧ x.2 = []) ∨
        ∃ r ∈ Spec.edgesBetween parts e.src e.dst e.typ, StrOk r.features ts (H x.1 r.features) x.1 x.2 := by
  obtain ⟨s, h1, h2⟩ := h.edgeString1 hm hc feats e ts H hH out
  have hle := h.picks_le e.src e.dst e.typ
  have hmem : ∀ fl ∈ (nodeBlks items e.src).filterMap (ownEdge e.dst e.typ),
      ∃ r ∈ Spec.edgesBetween parts e.src e.dst e.typ, r.features = fl := by
    intro fl hfl
    obtain ⟨b, hb, hp⟩ := List.mem_filterMap.1 hfl
    simp only [ownEdge, Option.map_eq_some_iff] at hp
    obtain ⟨y, hy, rfl⟩ := hp
    obtain ⟨y1, y2, y3⟩ := pickEdge_some hy
    obtain ⟨r, hr, hrf⟩ := h.edge_record hb y1
    rw [y2, y3] at hr
    exact ⟨r, hr, hrf⟩
  match ho : (nodeBlks items e.src).filterMap (ownEdge e.dst e.typ) with
  | [] =>
    rw [ho] at h2
    have hnone : Spec.edgesBetween parts e.src e.dst e.typ = [] := by
      rw [List.eq_nil_iff_forall_not_mem]
      intro r hr
      obtain ⟨b, hb, y, hy, h3, h4⟩ := h.record_edge hr
      rw [List.filterMap_eq_nil_iff] at ho
      have := ho b hb
      simp only [ownEdge, Option.map_eq_none_iff] at this
      exact pickEdge_none this y hy ⟨h3, h4⟩
    refine ⟨List.replicate feats.length [], ?_, by simp, ?_⟩
    · have h2 : s = ⟨List.replicate feats.length (-1, 0), out⟩ := h2
      rw [h1, h2]; simp
    · intro x hx
      exact Or.inl ⟨hnone, (List.mem_replicate.1 (List.of_mem_zip hx).2).2⟩
  | [fl] =>
    rw [ho] at h2
    obtain ⟨vs, h3, h4, h5, h6⟩ := h2
    obtain ⟨r, hr, rfl⟩ := hmem fl (by rw [ho]; simp)
    exact ⟨vs, by rw [h1, h4, h5], h3, fun x hx => Or.inr ⟨r, hr, h6 x hx⟩⟩
  | a :: b :: l =>
    rw [ho] at hle
    simp at hle
    omega

end DeepGNN
