import Verif.Model.RemoteStrings
import Verif.Proofs.RemoteLookups
import Verif.Proofs.StringFeatures

/-
String features from several servers.
-/

namespace DeepGNN

open Spec

variable {C : WeightCodec} {wm : Option Nat} {m : Meta} {parts : List (List (List Rec))} {g : Graph}

/-- Flag and length of a feature: there is no value before its time is set. -/
def PlainFlag (s : Int × Nat) : Prop := (s.1 = -1 ∧ s.2 = 0) ∨ 0 ≤ s.1

theorem stringStep_plain {edge index data lo hi ts f s out x} (ht : ts = none ∨ edge = false)
    (h : stringStep edge index data lo hi ts f s out = some x) (hs : PlainFlag s) : PlainFlag x.1 := by
  unfold stringStep at h
  split at h
  · rw [Option.some.injEq] at h; subst h; exact hs
  · simp only [Option.bind_eq_some_iff] at h
    obtain ⟨r, -, h⟩ := h
    cases r with
    | none => simp only [Option.some.injEq] at h; subst h; exact hs
    | some r =>
      simp only [] at h
      split at h
      · rw [Option.some.injEq] at h; subst h; exact hs
      · obtain ⟨v, hv, h⟩ := Option.bind_eq_some_iff.1 h
        split at h
        · rw [Option.some.injEq] at h; subst h; exact hs
        · next hno =>
          simp only [Option.map_eq_some_iff] at h
          obtain ⟨b, -, rfl⟩ := h
          right
          rcases ht with rfl | rfl
          · simp only [featValue, Option.some.injEq] at hv
            subst hv
            exact Int.le_refl _
          · have h1 : ¬ s.1 ≥ v.2.2 := fun h => hno ⟨rfl, h⟩
            show 0 ≤ v.2.2
            rcases hs with ⟨hs, -⟩ | hs <;> omega

theorem stringLoop_plain {edge index data lo hi ts} (ht : ts = none ∨ edge = false) : ∀ {fs : List Nat} {ss : List (Int × Nat)} {out : Bytes} {y},
    stringLoop (stringStep edge index data lo hi ts) fs ss out = some y → (∀ s ∈ ss, PlainFlag s) →
    y.1.length = ss.length ∧ ∀ s ∈ y.1, PlainFlag s
  | f :: fs, s :: ss, out, y, h, hs => by
    simp only [stringLoop, Option.bind_eq_some_iff, Option.map_eq_some_iff] at h
    obtain ⟨x, h1, z, h2, rfl⟩ := h
    have h3 := stringLoop_plain ht h2 fun s hs' => hs s (by simp [hs'])
    refine ⟨by simp [h3.1], ?_⟩
    simp only [List.mem_cons, forall_eq_or_imp]
    exact ⟨stringStep_plain ht h1 (hs s (by simp)), h3.2⟩
  | [], ss, out, y, h, hs => by
    simp only [stringLoop, Option.some.injEq] at h; subst h; exact ⟨rfl, hs⟩
  | _ :: _, [], out, y, h, hs => by
    simp only [stringLoop, Option.some.injEq] at h; subst h; exact ⟨rfl, hs⟩

theorem foldlM_plain {step : StrState → Partition × Nat → Option StrState} {F : Nat}
    (hstep : ∀ s x s', step s x = some s' → s.flags.length = F ∧ (∀ f ∈ s.flags, PlainFlag f) →
      s'.flags.length = F ∧ ∀ f ∈ s'.flags, PlainFlag f) :
    ∀ (es : List (Partition × Nat)) (s s' : StrState), es.foldlM step s = some s' →
      (s.flags.length = F ∧ ∀ f ∈ s.flags, PlainFlag f) → s'.flags.length = F ∧ ∀ f ∈ s'.flags, PlainFlag f
  | [], s, s', h, hs => by
    simp only [List.foldlM_nil] at h
    cases h; exact hs
  | e :: es, s, s', h, hs => by
    rw [List.foldlM_cons] at h
    obtain ⟨s1, h1, h2⟩ := Option.bind_eq_some_iff.1 h
    exact foldlM_plain hstep es s1 s' h2 (hstep _ _ _ h1 hs)

theorem replicate_plain (F : Nat) : (List.replicate F ((-1, 0) : Int × Nat)).length = F ∧
    ∀ f ∈ List.replicate F ((-1, 0) : Int × Nat), PlainFlag f :=
  ⟨by simp, fun f hf => by rw [(List.mem_replicate.1 hf).2]; exact Or.inl ⟨rfl, rfl⟩⟩

theorem nodeTextState_plain {feats : List Nat} {n : Int} {ts : Option Int} {out : Bytes} {s : StrState}
    (h : g.nodeTextState feats (n, ts) out = some s) : s.flags.length = feats.length ∧ ∀ f ∈ s.flags, PlainFlag f := by
  unfold Graph.nodeTextState at h
  obtain ⟨es, -, h⟩ := Option.bind_eq_some_iff.1 h
  refine foldlM_plain ?_ es _ s h (replicate_plain _)
  intro s x s' hs hok
  unfold Partition.nodeString at hs
  split at hs
  · cases hs; exact hok
  · simp only [Option.bind_eq_some_iff, Option.map_eq_some_iff] at hs
    obtain ⟨lo, -, hi, -, y, hy, rfl⟩ := hs
    have := stringLoop_plain (Or.inr rfl) hy hok.2
    exact ⟨this.1.trans hok.1, this.2⟩

theorem edgeTextState_plain {feats : List Nat} {e : EdgeId} {out : Bytes} {s : StrState}
    (h : g.edgeTextState feats (e, none) out = some s) : s.flags.length = feats.length ∧ ∀ f ∈ s.flags, PlainFlag f := by
  unfold Graph.edgeTextState at h
  obtain ⟨es, -, h⟩ := Option.bind_eq_some_iff.1 h
  refine foldlM_plain ?_ es _ s h (replicate_plain _)
  intro s x s' hs hok
  unfold Partition.edgeString at hs
  simp only [Option.bind_eq_some_iff] at hs
  obtain ⟨o, -, hs⟩ := hs
  cases o with
  | none => cases hs; exact hok
  | some o =>
    simp only [Option.bind_eq_some_iff, Option.map_eq_some_iff] at hs
    obtain ⟨lo, -, hi, -, y, hy, rfl⟩ := hs
    have := stringLoop_plain (Or.inl rfl) hy hok.2
    exact ⟨this.1.trans hok.1, this.2⟩

/-- The features of an edge of which histories are stored, at a timestamp. -/
theorem stringStep_times {edge index data lo hi fl} (h : Owner index data lo hi fl) (t : Int) (f : Nat)
    {K : List (Int × Bytes)} (hK : StrReadable fl (some t) K f) (s : Int × Nat) (out : Bytes) (hs : PlainFlag s) :
    ∃ x, stringStep edge index data lo hi (some t) f s out = some x ∧ PlainFlag x.1 := by
  obtain ⟨s', out', h1, -⟩ := stringStep_owner (edge := edge) h (some t) f hK s out
  refine ⟨(s', out'), h1, ?_⟩
  unfold stringStep at h1
  split at h1
  · rw [Option.some.injEq] at h1; cases h1; exact hs
  · cases hf : fl[f]? with
    | none =>
      rw [h.range_none hf] at h1
      cases h1; exact hs
    | some v =>
      obtain ⟨pre, post, h2, h3⟩ := h.range_some hf
      rw [h3] at h1
      simp only [Option.bind_some] at h1
      split at h1
      · cases h1; exact hs
      · next hz =>
        have hh : fl[f]? = some (some (serializeTemporal K)) ∧ HistOk K := by
          rcases hK with hK | hK | ⟨hK, -⟩
          · cases hK
          · rcases hK with ⟨hK, -⟩ | hK
            · rw [hf] at hK; cases hK
            · exact hK
          · rw [hf, Option.some.injEq] at hK
            subst hK
            exact absurd rfl hz
        obtain ⟨hv, hok⟩ := hh
        rw [hf, Option.some.injEq] at hv
        subst hv
        simp only [featValue, h2, featBytes] at h1
        rcases deserialize_serialize hok pre post t with ⟨h4, -⟩ | ⟨x, off, h4, h5, -⟩
        · rw [h4, Option.bind_some] at h1
          split at h1
          · cases h1; exact hs
          · obtain ⟨b, -, h1⟩ := Option.map_eq_some_iff.1 h1
            cases h1; exact Or.inl ⟨rfl, rfl⟩
        · rw [h5, Option.bind_some] at h1
          split at h1
          · cases h1; exact hs
          · obtain ⟨b, -, h1⟩ := Option.map_eq_some_iff.1 h1
            cases h1; exact Or.inr (hok.times x h4.1).1

theorem stringLoop_times {step : Nat → Int × Nat → Bytes → Option ((Int × Nat) × Bytes)} : ∀ {fs : List Nat},
    (∀ f ∈ fs, ∀ s out, PlainFlag s → ∃ x, step f s out = some x ∧ PlainFlag x.1) → ∀ (ss : List (Int × Nat)) (out : Bytes),
    (∀ s ∈ ss, PlainFlag s) → ∃ y, stringLoop step fs ss out = some y ∧ ∀ s ∈ y.1, PlainFlag s
  | [], _, ss, out, hs => ⟨(ss, out), by simp [stringLoop], hs⟩
  | _ :: _, _, [], out, hs => ⟨([], out), by simp [stringLoop], hs⟩
  | f :: fs, h, s :: ss, out, hs => by
    obtain ⟨x, h1, h2⟩ := h f (by simp) s out (hs s (by simp))
    obtain ⟨y, h3, h4⟩ := stringLoop_times (fun f hf => h f (List.mem_cons_of_mem _ hf)) ss x.2
      fun s hs' => hs s (List.mem_cons_of_mem _ hs')
    refine ⟨(x.1 :: y.1, y.2), by rw [stringLoop, h1, Option.bind_some, h3]; rfl, ?_⟩
    simp only [List.mem_cons, forall_eq_or_imp]
    exact ⟨h2, h4⟩

theorem GraphOk.edgeTextState_times {items : List Item} (h : GraphOk C m g items parts) (hm : m.edgeFeatureCount ≠ 0)
    (hc : ∀ it ∈ items, it.files.edgeFeatureCount ≤ m.edgeFeatureCount) (feats : List Nat) (e : EdgeId)
    (t : Int) (H : Nat → List (Option Bytes) → List (Int × Bytes))
    (hH : ∀ f ∈ feats, ∀ r ∈ Spec.edgesBetween parts e.src e.dst e.typ, StrReadable r.features (some t) (H f r.features) f)
    (out : Bytes) : ∃ s, g.edgeTextState feats (e, some t) out = some s ∧ ∀ f ∈ s.flags, PlainFlag f := by
  obtain ⟨es, h1, h2⟩ := h.foldEntries_inv (σ := StrState) e.src
    (fun (s : StrState) (x : Partition × Nat) => x.1.edgeString x.2 e.dst e.typ (some t) feats s)
    (fun (_ : List Blk) (s : StrState) => ∀ f ∈ s.flags, PlainFlag f) (by
      intro it hit x hx hid bs s hs
      have hb : x.1 ∈ nodeBlks items e.src := by
        rw [List.mem_zipIdx_iff_getElem?] at hx
        exact List.mem_flatMap.2 ⟨it, hit, List.mem_filter.2 ⟨List.mem_of_getElem? hx, by simpa using hid⟩⟩
      simp only [Partition.edgeString]
      rcases h.edgeBlocks hc hit hx e.dst e.typ with ⟨e1, e2⟩ | ⟨y, o, e1, e2, ⟨hm', -⟩ | ⟨e3, lo, hi, e4, e5, ho⟩⟩
      · rw [e2]
        exact ⟨s, rfl, hs⟩
      · exact absurd hm' hm
      · rw [e2]
        simp only [Option.bind_some, e4, e5]
        obtain ⟨y1, y2, y3⟩ := pickEdge_some e1
        obtain ⟨r, hr, hrf⟩ := h.edge_record hb y1
        rw [y2, y3] at hr
        have hread : ∀ f ∈ feats, StrReadable y.feats (some t) (H f y.feats) f := by
          intro f hf; rw [← hrf]; exact hH f hf r hr
        obtain ⟨z, h3, h4⟩ := stringLoop_times (fs := feats)
          (step := stringStep true it.part.edgeFeatureIndex it.part.edgeFeatures lo hi (some t))
          (fun f hf s out hs => stringStep_times ho t f (hread f hf) s out hs) s.flags s.out hs
        exact ⟨⟨z.1, z.2⟩, by rw [h3]; rfl, h4⟩)
  obtain ⟨s, h3, h4⟩ := h2 [] ⟨List.replicate feats.length (-1, 0), out⟩ (replicate_plain _).2
  refine ⟨s, ?_, h4⟩
  rw [Graph.edgeTextState, h1, Option.bind_some, h3]

theorem stringLoop_flags {step : Nat → Int × Nat → Bytes → Option ((Int × Nat) × Bytes)} : ∀ (fs : List Nat)
    (ss : List (Int × Nat)) (out : Bytes) (y), stringLoop step fs ss out = some y → y.1.length = ss.length
  | [], ss, out, y, h => by simp only [stringLoop, Option.some.injEq] at h; subst h; rfl
  | _ :: _, [], out, y, h => by simp only [stringLoop, Option.some.injEq] at h; subst h; rfl
  | f :: fs, s :: ss, out, y, h => by
    simp only [stringLoop, Option.bind_eq_some_iff, Option.map_eq_some_iff] at h
    obtain ⟨x, -, z, h2, rfl⟩ := h
    simp [stringLoop_flags fs ss _ z h2]

theorem edgeTextState_flags {feats : List Nat} {x : EdgeId × Option Int} {out : Bytes} {s : StrState}
    (h : g.edgeTextState feats x out = some s) : s.flags.length = feats.length := by
  unfold Graph.edgeTextState at h
  obtain ⟨es, -, h⟩ := Option.bind_eq_some_iff.1 h
  have key : ∀ (es : List (Partition × Nat)) (s s' : StrState),
      es.foldlM (fun (s : StrState) (p : Partition × Nat) => p.1.edgeString p.2 x.1.dst x.1.typ x.2 feats s) s = some s' →
      s'.flags.length = s.flags.length := by
    intro es
    induction es with
    | nil => intro s s' h; simp only [List.foldlM_nil] at h; cases h; rfl
    | cons e es ih =>
      intro s s' h
      rw [List.foldlM_cons] at h
      obtain ⟨s1, h1, h2⟩ := Option.bind_eq_some_iff.1 h
      rw [ih s1 s' h2]
      unfold Partition.edgeString at h1
      simp only [Option.bind_eq_some_iff] at h1
      obtain ⟨o, -, h1⟩ := h1
      cases o with
      | none => cases h1; rfl
      | some o =>
        simp only [Option.bind_eq_some_iff, Option.map_eq_some_iff] at h1
        obtain ⟨lo, -, hi, -, y, hy, rfl⟩ := h1
        exact stringLoop_flags _ _ _ _ hy
  rw [key es _ s h, List.length_replicate]

/-- A reply that carries the given values and enough timestamps. -/
structure TextOk (r : TextReply) (vs : List Bytes) : Prop where
  dims : r.dims = vs.map List.length
  values : r.values = vs.flatten
  count : (vs.filter fun v => !v.isEmpty).length ≤ r.stamps.length
  stamps : ∀ t ∈ r.stamps, -1 ≤ t

/-- The reply of a server whose queries return the rows `row x`. -/
theorem serveTexts_ok {α : Type} (q : α → Bytes → Option StrState) (row : α → List Bytes) :
    ∀ (l : List α) (pre : List Bytes), (∀ x ∈ l, ∀ out, ∃ s, q x out = some s ∧ s.flags.map (·.2) = (row x).map List.length ∧
      s.out = out ++ (row x).flatten ∧ ∀ f ∈ s.flags, PlainFlag f) →
    ∃ r, serveTexts q l pre.flatten = some r ∧ r.dims = (l.flatMap row).map List.length ∧
      r.values = pre.flatten ++ (l.flatMap row).flatten ∧
      ((l.flatMap row).filter fun v => !v.isEmpty).length ≤ r.stamps.length ∧ ∀ t ∈ r.stamps, -1 ≤ t
  | [], pre, _ => ⟨⟨[], [], pre.flatten⟩, rfl, rfl, by simp, by simp, by simp⟩
  | x :: xs, pre, h => by
    obtain ⟨s, h1, h2, h3, h4⟩ := h x (by simp) pre.flatten
    have hcat : s.out = (pre ++ row x).flatten := by rw [h3, List.flatten_append]
    obtain ⟨r, h5, h6, h7, h8, h9⟩ := serveTexts_ok q row xs (pre ++ row x) fun y hy => h y (by simp [hy])
    refine ⟨_, by rw [serveTexts, h1, Option.bind_some, hcat, h5, Option.map_some], ?_, ?_, ?_, ?_⟩
    · simp only [List.flatMap_cons, List.map_append, h2, h6]
    · simp [h7, List.flatten_append, List.append_assoc]
    · simp only [List.flatMap_cons, List.filter_append, List.length_append]
      have hrow : ((row x).filter fun v => !v.isEmpty).length ≤
          (if (s.flags.any fun f => decide (f.1 ≥ 0)) = true then s.flags.map (·.1) else []).length := by
        have hl : s.flags.length = (row x).length := by simpa using congrArg List.length h2
        split
        · rw [List.length_map, hl]; exact List.length_filter_le _ _
        · next hany =>
          have : (row x).filter (fun v => !v.isEmpty) = [] := by
            rw [List.filter_eq_nil_iff]
            intro v hv
            have hlen : v.length ∈ s.flags.map (·.2) := by rw [h2]; exact List.mem_map.2 ⟨v, hv, rfl⟩
            obtain ⟨f, hf, hfv⟩ := List.mem_map.1 hlen
            rcases h4 f hf with ⟨-, h0⟩ | h0
            · rw [h0] at hfv
              have : v = [] := List.eq_nil_of_length_eq_zero hfv.symm
              simp [this]
            · exact absurd (List.any_eq_true.2 ⟨f, hf, decide_eq_true h0⟩) hany
          simp [this]
      omega
    · intro t ht
      rcases List.mem_append.1 ht with ht | ht
      · split at ht
        · obtain ⟨f, hf, rfl⟩ := List.mem_map.1 ht
          rcases h4 f hf with ⟨h0, -⟩ | h0 <;> omega
        · cases ht
      · exact h9 t ht

theorem textLoop_ok (shard : Nat) : ∀ (vs : List Bytes) (cell off : Nat) (st : List Int),
    (vs.filter fun v => !v.isEmpty).length ≤ st.length → (∀ t ∈ st, -1 ≤ t) →
    ∃ ws, textLoop shard cell off (vs.map List.length) st = some ws ∧
      (∀ w ∈ ws, w.shard = shard ∧ -1 ≤ w.ts ∧ ∃ (k : Nat) (v : Bytes), w.cell = cell + k ∧ vs[k]? = some v ∧ v ≠ [] ∧ w.dim = v.length ∧
        w.offset = off + (vs.take k).flatten.length) ∧
      ∀ (k : Nat) (v : Bytes), vs[k]? = some v → v ≠ [] → ∃ w ∈ ws, w.cell = cell + k
  | [], _, _, _, _, _ => ⟨[], rfl, by simp, by simp⟩
  | v :: vs, cell, off, st, hc, hst => by
    by_cases hv : v = []
    · subst hv
      obtain ⟨ws, h1, h2, h3⟩ := textLoop_ok shard vs (cell + 1) off st (by simpa using hc) hst
      refine ⟨ws, by rw [List.map_cons, textLoop.eq_def]; exact h1, ?_, ?_⟩
      · intro w hw
        obtain ⟨a, b, k, v, c, d, e, f, i⟩ := h2 w hw
        exact ⟨a, b, k + 1, v, by omega, by simpa using d, e, f, by simpa using i⟩
      · intro k v hk hv
        cases k with
        | zero => simp at hk; exact absurd hk hv
        | succ k =>
          obtain ⟨w, a, b⟩ := h3 k v (by simpa using hk) hv
          exact ⟨w, a, by omega⟩
    · have hl : v.length ≠ 0 := fun h => hv (List.eq_nil_of_length_eq_zero h)
      have hne : (!v.isEmpty) = true := by simp [hv]
      rw [List.filter_cons, if_pos hne, List.length_cons] at hc
      match st, hc, hst with
      | t :: st, hc, hst =>
        obtain ⟨ws, h1, h2, h3⟩ := textLoop_ok shard vs (cell + 1) (off + v.length) st (by simpa using hc)
          fun t ht => hst t (by simp [ht])
        refine ⟨⟨cell, shard, off, t, v.length⟩ :: ws, by rw [List.map_cons, textLoop.eq_def]; simp only [if_neg hl, h1, Option.map_some], ?_, ?_⟩
        · intro w hw
          rcases List.mem_cons.1 hw with rfl | hw
          · exact ⟨rfl, hst t (by simp), 0, v, rfl, rfl, hv, rfl, rfl⟩
          · obtain ⟨a, b, k, v', c, d, e, f, i⟩ := h2 w hw
            refine ⟨a, b, k + 1, v', by omega, by simpa using d, e, f, ?_⟩
            rw [i, List.take_succ_cons, List.flatten_cons, List.length_append]
            omega
        · intro k v' hk hv'
          cases k with
          | zero => exact ⟨_, List.mem_cons_self .., rfl⟩
          | succ k =>
            obtain ⟨w, a, b⟩ := h3 k v' (by simpa using hk) hv'
            exact ⟨w, by simp [a], by omega⟩

theorem textSteps_ok (shard : Nat) {r : TextReply} {vs : List Bytes} (h : TextOk r vs) :
    ∃ ws, textSteps shard r = some ws ∧
      (∀ w ∈ ws, w.shard = shard ∧ -1 ≤ w.ts ∧ ∃ v, vs[w.cell]? = some v ∧ v ≠ [] ∧ w.dim = v.length ∧
        readAt r.values w.offset w.dim = some v) ∧
      ∀ (k : Nat) (v : Bytes), vs[k]? = some v → v ≠ [] → ∃ w ∈ ws, w.cell = k := by
  by_cases hz : r.values = []
  · refine ⟨[], by rw [textSteps, if_pos hz], by simp, ?_⟩
    intro k v hk hv
    rw [h.values] at hz
    exact absurd (List.eq_nil_iff_forall_not_mem.2 fun b hb =>
      absurd (List.mem_flatten.2 ⟨v, List.mem_of_getElem? hk, hb⟩) (by rw [hz]; simp)) hv
  · obtain ⟨ws, h1, h2, h3⟩ := textLoop_ok shard vs 0 0 r.stamps h.count h.stamps
    refine ⟨ws, by rw [textSteps, if_neg hz, h.dims]; exact h1, ?_, ?_⟩
    · intro w hw
      obtain ⟨a, b, k, v, c, d, e, f, i⟩ := h2 w hw
      have hk : w.cell = k := by omega
      refine ⟨a, b, v, by rw [hk]; exact d, e, f, ?_⟩
      obtain ⟨hlt, rfl⟩ := List.getElem?_eq_some_iff.1 d
      have hsplit : vs.flatten = (vs.take k).flatten ++ vs[k] ++ (vs.drop (k + 1)).flatten := by
        conv => lhs; rw [← List.take_append_drop k vs, List.drop_eq_getElem_cons hlt]
        rw [List.flatten_append, List.flatten_cons, List.append_assoc]
      rw [h.values, hsplit, i, f, Nat.zero_add]
      exact readAt_exact _ _ _
    · intro k v hk hv
      obtain ⟨w, a, b⟩ := h3 k v hk hv
      exact ⟨w, a, by omega⟩

/-- The state of a cell after the critical sections: untouched, or that of one of them. -/
theorem runTexts (n : Nat) : ∀ (steps : List TextStep) (s : List (Nat × Nat × Int) × List Nat),
    (∀ w ∈ steps, -1 ≤ w.ts) → s.1.length = n → s.2.length = n →
    (steps.foldl TextStep.run s).1.length = n ∧ (steps.foldl TextStep.run s).2.length = n ∧
    ∀ c < n, ((∃ w ∈ steps, w.cell = c ∧ (steps.foldl TextStep.run s).1[c]? = some (w.shard, w.offset, w.ts) ∧
        (steps.foldl TextStep.run s).2[c]? = some w.dim) ∨
      ((steps.foldl TextStep.run s).1[c]? = s.1[c]? ∧ (steps.foldl TextStep.run s).2[c]? = s.2[c]? ∧
        ((∃ o, s.1[c]? = some o ∧ o.2.2 = -1) → ∀ w ∈ steps, w.cell ≠ c)))
  | [], s, _, h1, h2 => ⟨h1, h2, fun c _ => Or.inr ⟨rfl, rfl, fun _ => by simp⟩⟩
  | w :: ws, s, hts, h1, h2 => by
    have hl : (TextStep.run s w).1.length = n ∧ (TextStep.run s w).2.length = n := by
      unfold TextStep.run
      split
      · exact ⟨h1, h2⟩
      · split
        · simp [h1, h2]
        · exact ⟨h1, h2⟩
    obtain ⟨h3, h4, h5⟩ := runTexts n ws (TextStep.run s w) (fun w hw => hts w (by simp [hw])) hl.1 hl.2
    refine ⟨h3, h4, fun c hc => ?_⟩
    rw [List.foldl_cons]
    rcases h5 c hc with ⟨v, a, b⟩ | ⟨a, b, d⟩
    · exact Or.inl ⟨v, by simp [a], b⟩
    · have hget : s.1[c]? = some (s.1[c]'(by omega)) := List.getElem?_eq_getElem (by omega)
      by_cases hwc : w.cell = c
      · have hrun : TextStep.run s w = if (s.1[c]'(by omega)).2.2 ≤ w.ts then
            (s.1.set c (w.shard, w.offset, w.ts), s.2.set c w.dim) else s := by
          unfold TextStep.run
          rw [hwc, hget]
        by_cases hle : (s.1[c]'(by omega)).2.2 ≤ w.ts
        · rw [if_pos hle] at hrun
          left
          refine ⟨w, by simp, hwc, ?_, ?_⟩
          · rw [a, hrun]; simp [h1, hc]
          · rw [b, hrun]; simp [h2, hc]
        · rw [if_neg hle] at hrun
          right
          rw [hrun] at a b
          refine ⟨by rw [hrun]; exact a, by rw [hrun]; exact b, ?_⟩
          rintro ⟨o, ho, ho1⟩
          rw [hget, Option.some.injEq] at ho
          have := hts w (by simp)
          rw [ho, ho1] at hle
          exact absurd this hle
      · have hrun : (TextStep.run s w).1[c]? = s.1[c]? ∧ (TextStep.run s w).2[c]? = s.2[c]? := by
          unfold TextStep.run
          split
          · exact ⟨rfl, rfl⟩
          · split
            · exact ⟨List.getElem?_set_ne hwc, List.getElem?_set_ne hwc⟩
            · exact ⟨rfl, rfl⟩
        right
        refine ⟨a.trans hrun.1, b.trans hrun.2, fun ho => ?_⟩
        simp only [List.mem_cons, forall_eq_or_imp]
        exact ⟨hwc, d (by rw [hrun.1]; exact ho)⟩

theorem mapM_lookup {α β : Type} {f : α → Option β} {P : α → β → Prop} : ∀ {l : List α},
    (∀ a ∈ l, ∃ b, f a = some b ∧ P a b) → ∃ bs, l.mapM f = some bs ∧ bs.length = l.length ∧
      ∀ (i : Nat) a b, l[i]? = some a → bs[i]? = some b → P a b
  | [], _ => ⟨[], rfl, rfl, by simp⟩
  | a :: l, h => by
    obtain ⟨b, h1, h2⟩ := h a (by simp)
    obtain ⟨bs, h3, h4, h5⟩ := mapM_lookup (l := l) fun a ha => h a (by simp [ha])
    refine ⟨b :: bs, by rw [List.mapM_cons, h1, h3]; rfl, by simp [h4], ?_⟩
    intro i a' b' ha hb
    cases i with
    | zero => simp at ha hb; subst ha; subst hb; exact h2
    | succ i => exact h5 i a' b' (by simpa using ha) (by simpa using hb)

/-- The client's answer from replies that carry the rows of values `rows`. -/
theorem remoteStrings_ok (n : Nat) (replies : List TextReply) (rows : List (List Bytes)) (hne : replies ≠ [])
    (hl : rows.length = replies.length) (hn : ∀ vs ∈ rows, vs.length = n)
    (hok : ∀ (i : Nat) r vs, replies[i]? = some r → rows[i]? = some vs → TextOk r vs) :
    ∃ seqs, textSeqs replies = some seqs ∧ ∀ steps, Interleaved seqs steps → ∃ out : List Bytes,
      remoteStrings n replies steps = some (out.map List.length, out.flatten) ∧ out.length = n ∧
      ∀ (c : Nat) v, out[c]? = some v → (v ≠ [] ∧ ∃ vs ∈ rows, vs[c]? = some v) ∨ (v = [] ∧ ∀ vs ∈ rows, vs[c]? = some []) := by
  obtain ⟨seqs, h1, h2, h3⟩ := mapM_lookup (l := replies.zipIdx) (f := fun x => textSteps x.2 x.1)
    (P := fun x ws => ∀ vs, rows[x.2]? = some vs →
      (∀ w ∈ ws, w.shard = x.2 ∧ -1 ≤ w.ts ∧ ∃ v, vs[w.cell]? = some v ∧ v ≠ [] ∧ w.dim = v.length ∧
        readAt x.1.values w.offset w.dim = some v) ∧
      ∀ (k : Nat) (v : Bytes), vs[k]? = some v → v ≠ [] → ∃ w ∈ ws, w.cell = k) (by
    intro x hx
    have hx' := List.mem_zipIdx_iff_getElem?.1 hx
    have hlt := (List.getElem?_eq_some_iff.1 hx').1
    obtain ⟨ws, a, b, c⟩ := textSteps_ok x.2 (hok x.2 x.1 (rows[x.2]'(by omega)) hx' (List.getElem?_eq_getElem (by omega)))
    refine ⟨ws, a, fun vs hvs => ?_⟩
    rw [List.getElem?_eq_getElem (by omega), Option.some.injEq] at hvs
    subst hvs
    exact ⟨b, c⟩)
  refine ⟨seqs, h1, fun steps hst => ?_⟩
  have hseq : ∀ w, w ∈ steps ↔ ∃ (i : Nat), ∃ ws, seqs[i]? = some ws ∧ w ∈ ws := by
    intro w
    rw [interleaved_mem hst]
    constructor
    · rintro ⟨l, hl, hw⟩
      obtain ⟨i, hi⟩ := List.mem_iff_getElem?.1 hl
      exact ⟨i, l, hi, hw⟩
    · rintro ⟨i, l, hi, hw⟩
      exact ⟨l, List.mem_of_getElem? hi, hw⟩
  have hwit : ∀ (i : Nat) (ws : List TextStep), seqs[i]? = some ws → ∃ (r : TextReply) (vs : List Bytes), replies[i]? = some r ∧ rows[i]? = some vs ∧
      (∀ w ∈ ws, w.shard = i ∧ -1 ≤ w.ts ∧ ∃ v, vs[w.cell]? = some v ∧ v ≠ [] ∧ w.dim = v.length ∧
        readAt r.values w.offset w.dim = some v) ∧
      ∀ (k : Nat) (v : Bytes), vs[k]? = some v → v ≠ [] → ∃ w ∈ ws, w.cell = k := by
    intro i ws hi
    have hlt := (List.getElem?_eq_some_iff.1 hi).1
    rw [h2, List.length_zipIdx] at hlt
    have hz : replies.zipIdx[i]? = some (replies[i], i) := by
      rw [List.getElem?_zipIdx, List.getElem?_eq_getElem hlt]; simp
    have := h3 i _ ws hz hi (rows[i]'(by omega)) (List.getElem?_eq_getElem (by omega))
    exact ⟨replies[i], rows[i]'(by omega), List.getElem?_eq_getElem hlt, List.getElem?_eq_getElem (by omega), this⟩
  have hts : ∀ w ∈ steps, -1 ≤ w.ts := by
    intro w hw
    obtain ⟨i, ws, hi, hw⟩ := (hseq w).1 hw
    obtain ⟨r, vs, -, -, a, -⟩ := hwit i ws hi
    exact (a w hw).2.1
  obtain ⟨r1, r2, r3⟩ := runTexts n steps (List.replicate n (0, 0, -1), List.replicate n 0) hts (by simp) (by simp)
  generalize hfin : steps.foldl TextStep.run (List.replicate n (0, 0, -1), List.replicate n 0) = fin at *
  -- the value of each cell
  have hcell : ∀ c < n, ∃ o d v, fin.1[c]? = some o ∧ fin.2[c]? = some d ∧ d = v.length ∧
      ((replies[o.1]?).bind fun r => readAt r.values o.2.1 d) = some v ∧
      ((v ≠ [] ∧ ∃ vs ∈ rows, vs[c]? = some v) ∨ (v = [] ∧ ∀ vs ∈ rows, vs[c]? = some [])) := by
    intro c hc
    rcases r3 c hc with ⟨w, hw, hwc, e1, e2⟩ | ⟨e1, e2, e3⟩
    · obtain ⟨i, ws, hi, hw⟩ := (hseq w).1 hw
      obtain ⟨r, vs, a1, a2, a3, -⟩ := hwit i ws hi
      obtain ⟨b1, -, v, b2, b3, b4, b5⟩ := a3 w hw
      refine ⟨_, _, v, e1, e2, b4, ?_, Or.inl ⟨b3, vs, List.mem_of_getElem? a2, by rw [← hwc]; exact b2⟩⟩
      simp only [b1, a1, Option.bind_some]
      exact b5
    · refine ⟨(0, 0, -1), 0, [], ?_, ?_, rfl, ?_, Or.inr ⟨rfl, ?_⟩⟩
      · rw [e1]; simp [hc]
      · rw [e2]; simp [hc]
      · obtain ⟨r, rs, rfl⟩ := List.exists_cons_of_ne_nil hne
        simp [readAt]
      · intro vs hvs
        obtain ⟨i, hi⟩ := List.mem_iff_getElem?.1 hvs
        have hlt := (List.getElem?_eq_some_iff.1 hi).1
        have hcl : c < vs.length := by rw [hn vs hvs]; exact hc
        by_cases hv : vs[c] = []
        · rw [List.getElem?_eq_getElem hcl, hv]
        · exfalso
          have hseqi : seqs[i]? = some (seqs[i]'(by rw [h2, List.length_zipIdx]; omega)) := List.getElem?_eq_getElem _
          obtain ⟨r, vs', a1, a2, -, a4⟩ := hwit i _ hseqi
          rw [hi, Option.some.injEq] at a2
          subst a2
          obtain ⟨w, hw, hwc⟩ := a4 c vs[c] (List.getElem?_eq_getElem hcl) hv
          exact e3 ⟨(0, 0, -1), by simp [hc], rfl⟩ w ((hseq w).2 ⟨i, _, hseqi, hw⟩) hwc
  obtain ⟨out, o1, o2, o3⟩ := mapM_lookup (l := (fin.1.zip fin.2)) (P := fun x v => ((replies[x.1.1]?).bind fun r => readAt r.values x.1.2.1 x.2) = some v)
    (f := fun x => (replies[x.1.1]?).bind fun r => readAt r.values x.1.2.1 x.2) (by
      intro x hx
      obtain ⟨c, hc⟩ := List.mem_iff_getElem?.1 hx
      rw [List.getElem?_zip_eq_some] at hc
      have hlt := (List.getElem?_eq_some_iff.1 hc.1).1
      obtain ⟨o, d, v, a1, a2, a3, a4, -⟩ := hcell c (by omega)
      rw [a1, a2, Option.some.injEq, Option.some.injEq] at hc
      refine ⟨v, ?_, ?_⟩ <;> (rw [← hc.1, ← hc.2]; exact a4))
  have hlen : out.length = n := by rw [o2, List.length_zip, r1, r2, Nat.min_self]
  have hpoint : ∀ (c : Nat) (h : c < n), ∃ o d v, fin.1[c]? = some o ∧ fin.2[c]? = some d ∧ d = v.length ∧
      out[c]? = some v ∧ ((v ≠ [] ∧ ∃ vs ∈ rows, vs[c]? = some v) ∨ (v = [] ∧ ∀ vs ∈ rows, vs[c]? = some [])) := by
    intro c hc
    obtain ⟨o, d, v, a1, a2, a3, a4, a5⟩ := hcell c hc
    refine ⟨o, d, v, a1, a2, a3, ?_, a5⟩
    have := o3 c (o, d) (out[c]'(by omega)) (List.getElem?_zip_eq_some.2 ⟨a1, a2⟩) (List.getElem?_eq_getElem _)
    rw [List.getElem?_eq_getElem (by omega), ← this]
    exact a4
  refine ⟨out, ?_, hlen, ?_⟩
  · rw [remoteStrings, hfin]
    simp only [extractTexts]
    rw [o1, Option.map_some, Option.map_some]
    congr 2
    apply List.ext_getElem?
    intro c
    by_cases hc : c < n
    · obtain ⟨o, d, v, -, a2, a3, a4, -⟩ := hpoint c hc
      rw [a2, List.getElem?_map, a4, a3]; rfl
    · rw [List.getElem?_eq_none_iff.2 (by omega), List.getElem?_eq_none_iff.2 (by simp; omega)]
  · intro c v hv
    have hc : c < n := by have := (List.getElem?_eq_some_iff.1 hv).1; omega
    obtain ⟨o, d, v', -, -, -, a4, a5⟩ := hpoint c hc
    rw [hv, Option.some.injEq] at a4
    subst a4
    exact a5

end DeepGNN
