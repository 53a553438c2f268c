import Verif.Proofs.Tgn
import Verif.Props.C10

/-! C86: the TGN example predicts interactions from the past only. -/

namespace DeepGNN

open DeepGNN.Tgn DeepGNN.Spec

variable {C : WeightCodec} {wm : Option Nat} {m : Meta} {parts : List (List (List Rec))} {g : Graph}

/-- Rows in the order of time are split into those up to the first quantile, those up to the second and the others;
no row is lost or used twice. -/
theorem C86_split_partial (rows : List Row) (valTime testTime : Int) (hq : valTime ≤ testTime) (hin : InTime rows) :
    let (train, val, test) := split rows valTime testTime
    train ++ val ++ test = rows ∧
    train = rows.filter (fun r => r.time ≤ valTime) ∧
    val = rows.filter (fun r => valTime < r.time ∧ r.time ≤ testTime) ∧
    test = rows.filter (fun r => testTime < r.time) := by
  have key : ∀ (rows : List Row) (t : Int), InTime rows →
      rows.take (rows.filter fun r => r.time ≤ t).length = rows.filter (fun r => r.time ≤ t) ∧
      rows.drop (rows.filter fun r => r.time ≤ t).length = rows.filter (fun r => t < r.time) := by
    intro rows t
    induction rows with
    | nil => intro _; exact ⟨rfl, rfl⟩
    | cons r rows ih =>
      intro h
      obtain ⟨h1, h2⟩ := List.pairwise_cons.1 h
      by_cases hr : r.time ≤ t
      · rw [List.filter_cons_of_pos (by simpa using hr), List.filter_cons_of_neg (by simp; omega)]
        simp only [List.length_cons, List.take_succ_cons, List.drop_succ_cons, List.cons.injEq, true_and]
        exact ih h2
      · have h3 : (r :: rows).filter (fun r => decide (r.time ≤ t)) = [] := by
          rw [List.filter_eq_nil_iff]
          intro q hq
          rcases List.mem_cons.1 hq with rfl | hq
          · simpa using hr
          · have := h1 q hq
            simp; omega
        rw [h3]
        refine ⟨rfl, ?_⟩
        simp only [List.length_nil, List.drop_zero]
        symm
        rw [List.filter_eq_self]
        intro q hq
        rcases List.mem_cons.1 hq with rfl | hq
        · simp; omega
        · have := h1 q hq
          simp; omega
  obtain ⟨v1, v2⟩ := key rows valTime hin
  obtain ⟨t1, t2⟩ := key rows testTime hin
  have hle : (rows.filter fun r => r.time ≤ valTime).length ≤ (rows.filter fun r => r.time ≤ testTime).length := by
    rw [← List.countP_eq_length_filter, ← List.countP_eq_length_filter]
    apply List.countP_mono_left
    intro r _ h
    simp only [decide_eq_true_eq] at h ⊢
    omega
  simp only [split]
  refine ⟨?_, v1, ?_, t2⟩
  · have h1 : rows.take (rows.filter fun r => r.time ≤ valTime).length =
        (rows.take (rows.filter fun r => r.time ≤ testTime).length).take (rows.filter fun r => r.time ≤ valTime).length := by
      rw [List.take_take, Nat.min_eq_left hle]
    rw [h1, List.take_append_drop, List.take_append_drop]
  · rw [t1]
    have h2 : InTime (rows.filter fun r => r.time ≤ testTime) := hin.sublist List.filter_sublist
    have h3 := (key (rows.filter fun r => r.time ≤ testTime) valTime h2).2
    have h4 : (rows.filter fun r => r.time ≤ testTime).filter (fun r => r.time ≤ valTime) =
        rows.filter (fun r => r.time ≤ valTime) := by
      rw [List.filter_filter]
      apply List.filter_congr
      intro r _
      rw [Bool.eq_iff_iff]
      simp only [Bool.and_eq_true, decide_eq_true_eq]
      omega
    rw [h4] at h3
    rw [h3, List.filter_filter]
    apply List.filter_congr
    intro r _
    rw [Bool.eq_iff_iff]
    simp only [Bool.and_eq_true, decide_eq_true_eq]

/-- Non-vacuity. -/
example : InTime [⟨1, 10, 0⟩, ⟨2, 10, 3⟩, ⟨1, 11, 3⟩, ⟨1, 10, 4⟩, ⟨3, 10, 9⟩] ∧
    split [⟨1, 10, 0⟩, ⟨2, 10, 3⟩, ⟨1, 11, 3⟩, ⟨1, 10, 4⟩, ⟨3, 10, 9⟩] 3 4 =
      ([⟨1, 10, 0⟩, ⟨2, 10, 3⟩, ⟨1, 11, 3⟩], [⟨1, 10, 4⟩], [⟨3, 10, 9⟩]) := by
  refine ⟨?_, by decide⟩
  simp [InTime]

/-- The batches of an epoch have all rows in their order, and as many as asked for, except for the last. -/
theorem C86_batches_all {size : Nat} (hsz : 0 < size) (rows : List Row) :
    (batches size rows).flatten = rows ∧ (∀ b ∈ batches size rows, b ≠ [] ∧ b.length ≤ size) ∧
    ∀ b ∈ (batches size rows).dropLast, b.length = size := by
  fun_induction batches size rows with
  | case1 rows h =>
    rcases h with h | h
    · omega
    · subst h; simp
  | case2 rows h ih =>
    simp only [not_or] at h
    obtain ⟨h1, h2, h3⟩ := ih
    refine ⟨by rw [List.flatten_cons, h1, List.take_append_drop], ?_, ?_⟩
    · intro b hb
      rcases List.mem_cons.1 hb with rfl | hb
      · refine ⟨?_, List.length_take_le _ _⟩
        intro e
        have := congrArg List.length e
        have h4 : rows.length ≠ 0 := fun e => h.2 (List.length_eq_zero_iff.1 e)
        rw [List.length_take, List.length_nil] at this
        omega
      · exact h2 b hb
    · intro b hb
      cases hrest : batches size (rows.drop size) with
      | nil => rw [hrest] at hb; simp at hb
      | cons c cs =>
        rw [hrest, List.dropLast_cons_cons] at hb
        rcases List.mem_cons.1 hb with rfl | hb
        · have h5 : rows.drop size ≠ [] := by
            intro e
            rw [e] at hrest
            unfold batches at hrest
            simp at hrest
          have h6 : (rows.drop size).length ≠ 0 := fun e => h5 (List.length_eq_zero_iff.1 e)
          rw [List.length_drop] at h6
          rw [List.length_take]
          omega
        · exact h3 b (by rw [hrest]; exact hb)

/-- Non-vacuity. -/
example : batches 2 [⟨1, 10, 0⟩, ⟨2, 10, 3⟩, ⟨1, 11, 3⟩] = [[⟨1, 10, 0⟩, ⟨2, 10, 3⟩], [⟨1, 11, 3⟩]] := by
  simp [batches]

/-- Refuted without order: the model is trained on an interaction later than one it is tested with. -/
theorem C86_split_refuted : ∃ (rows : List Row) (valTime testTime : Int), valTime ≤ testTime ∧
    ∃ a ∈ (split rows valTime testTime).1, ∃ b ∈ (split rows valTime testTime).2.2, b.time < a.time :=
  ⟨[⟨1, 10, 9⟩, ⟨1, 11, 3⟩], 5, 5, by decide, ⟨1, 10, 9⟩, by decide, ⟨1, 11, 3⟩, by decide, by decide⟩

/-- What a prediction is made of: the score of an interaction comes from the embeddings of its two ends, the
embedding of a source from the interactions found for it, and these are the last ones created before the
first row of the source in the batch. -/
theorem C86_history_partial {S Z P : Type} {L : Learner S Z P} {c : Config} {s : S} {rows : List Row} {neg : List Int}
    {o : Output P} {fs : List (Interaction × Bytes)}
    (h : Built C wm m parts g) (hwm : 0 ≤ m.watermark) (hv : ValidTimes parts) (hN : 0 < c.num)
    (hdst : ∀ e ∈ allTimedEdges parts, 0 ≤ e.dst) (hkeep : ∀ e ∈ allTimedEdges parts, e.removed = none)
    (hp : predict L g c s rows neg = some (some (o, fs))) :
    o.pos = rows.map (fun r => some (L.score s (embedding L s fs r.src) (embedding L s fs r.dst))) ∧
    o.neg = (rows.zip neg).map (fun x => some (L.score s (embedding L s fs x.1.src) (embedding L s fs x.2))) ∧
    (∀ x ∈ fs, g.edgeFeature [⟨x.1.node, x.1.nbr, 0⟩] (some [x.1.time]) [(0, c.dim)] = some x.2) ∧
    ∀ r ∈ rows, ∃ t, firstTime rows r.src = some t ∧ ∃ seen kept rest : List Slot,
      seen.map unweighted = (liveSlots parts r.src (t - 1) [0]).map unweighted ∧
      (kept ++ rest).Perm seen ∧ kept.length = min c.num seen.length ∧
      (∀ x ∈ rest, ∀ k ∈ kept, x.created ≤ k.created) ∧
      ((fs.map (·.1)).filter fun i => i.node = r.src) = kept.map fun k => ⟨r.src, k.dst, k.created⟩ := by
  obtain ⟨h1, rfl⟩ := predict_eq h hwm hv hN hp
  refine ⟨rfl, rfl, ?_, ?_⟩
  · intro x hx
    simp only [features] at h1
    clear hp
    generalize (requests rows neg).flatMap (own g c.num) = found at h1
    induction found generalizing fs with
    | nil => cases h1; cases hx
    | cons i found ih =>
      simp only [List.mapM_cons, Option.bind_eq_bind, Option.bind_eq_some_iff, Option.map_eq_some_iff] at h1
      obtain ⟨y, ⟨f, hf, rfl⟩, rs, hrs, h1⟩ := h1
      simp only [pure, Option.some.injEq] at h1
      subst h1
      rcases List.mem_cons.1 hx with rfl | hx
      · exact hf
      · exact ih hx hrs
  · intro r hr
    have hex : ∃ t, firstTime rows r.src = some t := by
      cases hf : rows.find? (fun q => decide (q.src = r.src)) with
      | none =>
        have := List.find?_eq_none.1 hf r hr
        simp at this
      | some q => exact ⟨q.time, by simp [firstTime, hf]⟩
    obtain ⟨t, ht⟩ := hex
    refine ⟨t, ht, ?_⟩
    have hq := request_src (neg := neg) ht
    obtain ⟨answers, a1, a2, a3⟩ := C07_last_n_partial h hwm [(r.src, t - 1)] [0] c.num hN stub
      (by
        intro q _ x _ y _ _ _ hy hex
        obtain ⟨u, hu, hex⟩ := hex
        simp only [List.mem_singleton] at hu hy
        omega) hv.1 hv.2 (by intro q _ e he _; rw [hkeep e he]; simp)
    match answers, a1 with
    | [a], _ =>
      obtain ⟨seen, s1, -, kept, rest, s2, s3, s4, s5⟩ := a3 ((r.src, t - 1), a) (by simp)
      refine ⟨seen, kept, rest, s1, s2, s3, s4, ?_⟩
      rw [features_fst h1]
      have := own_filter (g := g) (N := c.num) (requests_nodup rows neg) hq
      simp only at this
      rw [this]
      have ha : g.lastN1 [0] c.num stub r.src (t - 1) = some a := by
        simp only [Graph.lastN, List.map_cons, List.map_nil, List.zip_cons_cons, List.zip_nil_left, List.mapM_cons,
          List.mapM_nil, Option.bind_eq_bind, Option.bind_eq_some_iff, pure, Option.some.injEq] at a2
        obtain ⟨_, ⟨b, hb, _, rfl, rfl⟩, a2⟩ := a2
        rw [hb]
        simpa using a2
      simp only [own, ha, Option.getD_some]
      subst s5
      have hkept : ∀ k ∈ kept, -1 < k.dst := by
        intro k hk
        have hks := s2.mem_iff.1 (List.mem_append_left rest hk)
        have : unweighted k ∈ seen.map unweighted := List.mem_map_of_mem hks
        rw [s1] at this
        obtain ⟨y, hy, hyk⟩ := List.mem_map.1 this
        obtain ⟨e, he, rfl⟩ := List.mem_map.1 hy
        have := hdst e (List.mem_filter.1 he).1
        simp only [unweighted, Prod.mk.injEq] at hyk
        omega
      rw [List.filter_append]
      have h2 : kept.filter (fun x => decide (-1 < x.dst)) = kept := by
        rw [List.filter_eq_self]
        intro k hk
        simpa using hkept k hk
      have h3 : (List.replicate (c.num - kept.length) stub).filter (fun x => decide (-1 < x.dst)) = [] := by
        rw [List.filter_eq_nil_iff]
        intro k hk
        rw [List.eq_of_mem_replicate hk]
        simp
      rw [h2, h3, List.append_nil]

/-- No score depends on later interactions.  Two graphs that have the same interactions and features up to time `T`
give the same scores for all rows up to `T + 1`, in training and in evaluation, from the same state and
with the same random negatives; if there are no later rows, the states after the epoch are the same, too.  For rows in
the order of time, and batches where no source is a destination.  Missing, since it is false: a row has scores or not
according to what is found for the other rows of its batch (`C86_skip_refuted`). -/
theorem C86_no_future_partial {parts' : List (List (List Rec))} {g' : Graph} {C' : WeightCodec} {wm' : Option Nat}
    {m' : Meta} {S Z P : Type} {L : Learner S Z P} {c : Config} {T : Int}
    (h : Built C wm m parts g) (hwm : 0 ≤ m.watermark) (hv : ValidTimes parts)
    (h' : Built C' wm' m' parts' g') (hwm' : 0 ≤ m'.watermark) (hv' : ValidTimes parts')
    (hs : SameUntil T parts parts') (hf : SameFeaturesUntil T c.dim g g') (hN : 0 < c.num) (hT : 0 ≤ T)
    (upd : S → List Row → List Int → List (Interaction × Bytes) → S)
    (bs : List (List Row × List Int)) (s : S) :
    ((∀ b ∈ bs, ∀ r ∈ b.1, r.time ≤ T + 1) → epoch L upd g c s bs = epoch L upd g' c s bs) ∧
    (InTime (bs.flatMap (·.1)) → (∀ b ∈ bs, Bipartite b) →
      ∀ (s1 s1' : S) (outs outs' : List (Option (Output P))),
      epoch L upd g c s bs = some (s1, outs) → epoch L upd g' c s bs = some (s1', outs') →
      ∀ (i k : Nat) (b : List Row × List Int) (r : Row) (o o' : Output P), bs[i]? = some b → b.1[k]? = some r →
        r.time ≤ T + 1 → outs[i]? = some (some o) → outs'[i]? = some (some o') →
        o.pos[k]? = o'.pos[k]? ∧ o.neg[k]? = o'.neg[k]?) :=
  ⟨epoch_same h hwm hv h' hwm' hv' hs hf hN hT upd bs s,
   fun hin hb s1 s1' outs outs' => epoch_rows h hwm hv h' hwm' hv' hs hf hN hT upd bs s s1 s1' outs outs' hin hb⟩

/-- When features are the same up to `T`: every record of an edge has the same values up to `T` in both graphs (`K`);
edges that are only in one of the graphs have none. -/
theorem C86_features {parts' : List (List (List Rec))} {g' : Graph} {C' : WeightCodec} {wm' : Option Nat}
    {m' : Meta} {T : Int} {dim : Nat} (h : Built C wm m parts g) (h' : Built C' wm' m' parts' g')
    (H : List (Option Bytes) → List (Int × Bytes)) (K : Int → Int → List (Int × Bytes))
    (hH : ∀ s d, ∀ r ∈ edgesBetween parts s d 0 ++ edgesBetween parts' s d 0,
      HasHist r.features 0 (H r.features) ∧ (H r.features).filter (fun x => x.1 ≤ T) = K s d)
    (hd : ∀ s d, ∀ x ∈ K s d, ∀ y ∈ K s d, x.1 = y.1 → x = y)
    (h0 : ∀ s d, edgesBetween parts s d 0 = [] ∨ edgesBetween parts' s d 0 = [] → K s d = []) :
    SameFeaturesUntil T dim g g' := by
  intro s d t ht
  have hlv : ∀ (l : List (Int × Bytes)) (v : Bytes), l.filter (fun x => x.1 ≤ T) = K s d → LatestValue l t v →
      LatestValue (K s d) t v := by
    intro l v hl hv
    rw [← hl]
    rcases hv with ⟨c, h1, h2, h3⟩ | ⟨h1, h2⟩
    · refine Or.inl ⟨c, ?_, h2, ?_⟩
      · rw [List.mem_filter]
        simp only [decide_eq_true_eq]
        exact ⟨h1, by simp only at h2; omega⟩
      · intro y hy hyt
        exact h3 y (List.mem_filter.1 hy).1 hyt
    · exact Or.inr ⟨h1, fun y hy => h2 y (List.mem_filter.1 hy).1⟩
  have hval : ∀ ps : List (List (List Rec)), (∀ r ∈ edgesBetween ps s d 0, (H r.features).filter (fun x => x.1 ≤ T) = K s d) →
      (edgesBetween ps s d 0 = [] → K s d = []) → ∀ v,
      ((edgesBetween ps s d 0 = [] ∧ v = []) ∨ ∃ r ∈ edgesBetween ps s d 0, LatestValue (H r.features) t v) →
      LatestValue (K s d) t v := by
    intro ps h1 h2 v hv
    rcases hv with ⟨h3, rfl⟩ | ⟨r, hr, h3⟩
    · rw [h2 h3]
      exact Or.inr ⟨rfl, by simp⟩
    · exact hlv _ v (h1 r hr) h3
  obtain ⟨row, r1, vs, r2, r3, r4⟩ := C10_edge_features h ⟨s, d, 0⟩ t [(0, dim)] (fun _ => H) (by
    intro f hf r hr
    simp only [List.mem_singleton] at hf
    subst hf
    exact (hH s d r (List.mem_append_left _ hr)).1)
  obtain ⟨row', r1', vs', r2', r3', r4'⟩ := C10_edge_features h' ⟨s, d, 0⟩ t [(0, dim)] (fun _ => H) (by
    intro f hf r hr
    simp only [List.mem_singleton] at hf
    subst hf
    exact (hH s d r (List.mem_append_right _ hr)).1)
  rw [r1, r1']
  match vs, r2, vs', r2' with
  | [v], _, [v'], _ =>
    have e1 := hval parts (fun r hr => (hH s d r (List.mem_append_left _ hr)).2) (fun e => h0 s d (Or.inl e)) v
      (r4 ((0, dim), v) (by simp))
    have e2 := hval parts' (fun r hr => (hH s d r (List.mem_append_right _ hr)).2) (fun e => h0 s d (Or.inr e)) v'
      (r4' ((0, dim), v') (by simp))
    have := C10_latest_unique (hd s d) e1 e2
    subst this
    rw [r3, r3']

/-- What a score is made of: state, interactions of the source and of the destination. -/
structure C86_Score where
  state : Nat
  src : List (Int × Int × Bytes)
  dst : List (Int × Int × Bytes)
deriving DecidableEq

/-- A model that shows what its scores are made of: the interactions of both ends.  Its state counts interactions. -/
def C86_learner : Learner Nat (List (Int × Int × Bytes)) C86_Score where
  embed _ _ l := l
  score s a b := ⟨s, a, b⟩
  learn s _ _ fs := s + fs.length
  observe s _ _ fs := s + fs.length

/-- Interactions of nodes 1 and 2. -/
def C86_before : List (List (List Rec)) :=
  [[[⟨1, -1, 0, 1, none, none, []⟩, ⟨1, 10, 0, 1, some 1, none, [some (serializeTemporal [(1, [7])])]⟩,
     ⟨1, 11, 0, 1, some 3, none, []⟩, ⟨2, -1, 0, 1, none, none, []⟩, ⟨2, 10, 0, 1, some 2, none, []⟩]]]

/-- The same, with more interactions after time 5. -/
def C86_after : List (List (List Rec)) :=
  [[[⟨1, -1, 0, 1, none, none, []⟩, ⟨1, 10, 0, 1, some 1, none, [some (serializeTemporal [(1, [7]), (8, [9])])]⟩,
     ⟨1, 11, 0, 1, some 3, none, []⟩, ⟨1, 12, 0, 1, some 7, none, []⟩, ⟨2, -1, 0, 1, none, none, []⟩,
     ⟨2, 10, 0, 1, some 2, none, []⟩]]]

/-- Two batches in the order of time, with negatives. -/
def C86_batches : List (List Row × List Int) :=
  [([⟨1, 10, 2⟩, ⟨2, 11, 3⟩], [11, 12]), ([⟨1, 12, 5⟩, ⟨1, 10, 9⟩, ⟨2, 12, 9⟩], [10, 11, 10])]

/-- Histories of the edges in the examples. -/
def C86_hist (fl : List (Option Bytes)) : List (Int × Bytes) :=
  if fl = [] then [] else if fl = [some (serializeTemporal [(1, [7])])] then [(1, [7])] else [(1, [7]), (8, [9])]

theorem C86_valid {P : List (List (List Rec))} (h : ∀ r ∈ allRecords P, 0 ≤ r.created.getD 0)
    (h2 : ∀ r ∈ allRecords P, r.removed ≠ some 0) : ValidTimes P :=
  ⟨fun r hr c hc => by simpa [hc] using h r hr, h2⟩

/-- Non-vacuity of `C86_history_partial`. -/
example : ∃ g o fs, Built intCodec (some 9) ⟨0, 1, 9⟩ C86_after g ∧ ValidTimes C86_after ∧
    (∀ e ∈ allTimedEdges C86_after, 0 ≤ e.dst) ∧ (∀ e ∈ allTimedEdges C86_after, e.removed = none) ∧
    predict C86_learner g ⟨2, 1⟩ 0 [⟨1, 12, 5⟩, ⟨1, 10, 9⟩, ⟨2, 12, 9⟩] [10, 11, 10] = some (some (o, fs)) ∧
    fs = [(⟨1, 10, 1⟩, [7]), (⟨1, 11, 3⟩, [0]), (⟨2, 10, 2⟩, [0])] ∧
    o.pos = [some ⟨0, [(10, 1, [7]), (11, 3, [0])], []⟩, some ⟨0, [(10, 1, [7]), (11, 3, [0])], []⟩,
      some ⟨0, [(10, 2, [0])], []⟩] := by
  obtain ⟨g, hg, hb⟩ := built_of_check (wm := some 9) (m := ⟨0, 1, 9⟩) (parts := C86_after) (by decide +kernel)
  have this : (graphOf intCodec (some 9) ⟨0, 1, 9⟩ C86_after).bind (fun g =>
      predict C86_learner g ⟨2, 1⟩ 0 [⟨1, 12, 5⟩, ⟨1, 10, 9⟩, ⟨2, 12, 9⟩] [10, 11, 10]) =
      some (some (⟨[some ⟨0, [(10, 1, [7]), (11, 3, [0])], []⟩, some ⟨0, [(10, 1, [7]), (11, 3, [0])], []⟩,
      some ⟨0, [(10, 2, [0])], []⟩], [some ⟨0, [(10, 1, [7]), (11, 3, [0])], []⟩,
      some ⟨0, [(10, 1, [7]), (11, 3, [0])], []⟩, some ⟨0, [(10, 2, [0])], []⟩]⟩,
      [(⟨1, 10, 1⟩, [7]), (⟨1, 11, 3⟩, [0]), (⟨2, 10, 2⟩, [0])])) := by decide +kernel
  rw [hg] at this
  exact ⟨g, _, _, hb, C86_valid (by decide +kernel) (by decide +kernel), by decide +kernel, by decide +kernel, this, rfl, rfl⟩

/-- Non-vacuity of `C86_no_future_partial` and `C86_features`: two graphs that differ after time 5. -/
example : ∃ g g', Built intCodec (some 9) ⟨0, 1, 9⟩ C86_before g ∧ Built intCodec (some 9) ⟨0, 1, 9⟩ C86_after g' ∧
    ValidTimes C86_before ∧ ValidTimes C86_after ∧ SameUntil 5 C86_before C86_after ∧ SameFeaturesUntil 5 1 g g' ∧
    InTime (C86_batches.flatMap (·.1)) ∧ (∀ b ∈ C86_batches, Bipartite b) ∧
    (epoch C86_learner C86_learner.learn g ⟨2, 1⟩ 0 C86_batches).isSome ∧
    (epoch C86_learner C86_learner.learn g' ⟨2, 1⟩ 0 C86_batches).isSome := by
  obtain ⟨g, hg, hb⟩ := built_of_check (wm := some 9) (m := ⟨0, 1, 9⟩) (parts := C86_before) (by decide +kernel)
  obtain ⟨g', hg', hb'⟩ := built_of_check (wm := some 9) (m := ⟨0, 1, 9⟩) (parts := C86_after) (by decide +kernel)
  have e1 : (graphOf intCodec (some 9) ⟨0, 1, 9⟩ C86_before).bind (fun g =>
      (some (epoch C86_learner C86_learner.learn g ⟨2, 1⟩ 0 C86_batches).isSome)) = some true := by decide +kernel
  have e2 : (graphOf intCodec (some 9) ⟨0, 1, 9⟩ C86_after).bind (fun g =>
      (some (epoch C86_learner C86_learner.learn g ⟨2, 1⟩ 0 C86_batches).isSome)) = some true := by decide +kernel
  rw [hg] at e1
  rw [hg'] at e2
  refine ⟨g, g', hb, hb', C86_valid (by decide +kernel) (by decide +kernel),
    C86_valid (by decide +kernel) (by decide +kernel), rfl, ?_, ?_, ?_, Option.some.inj e1, Option.some.inj e2⟩
  · refine C86_features hb hb' C86_hist (fun s d => if s = 1 ∧ d = 10 then [(1, [7])] else []) ?_ ?_ ?_
    · intro s d r hr
      have key : ∀ r ∈ edgeRecords C86_before ++ edgeRecords C86_after,
          (r.features = [] ∨ r.features = [some (serializeTemporal [(1, [7])])] ∨
            r.features = [some (serializeTemporal [(1, [7]), (8, [9])])]) ∧
          (C86_hist r.features).filter (fun x => x.1 ≤ 5) =
            (if r.src = 1 ∧ r.dst = 10 then [(1, [7])] else []) := by decide +kernel
      have hr' : r ∈ edgeRecords C86_before ++ edgeRecords C86_after ∧ r.src = s ∧ r.dst = d := by
        rw [List.mem_append] at hr ⊢
        rcases hr with hr | hr <;> obtain ⟨h1, h2⟩ := List.mem_filter.1 hr <;> simp only [decide_eq_true_eq] at h2
        · exact ⟨Or.inl h1, h2.1, h2.2.1⟩
        · exact ⟨Or.inr h1, h2.1, h2.2.1⟩
      obtain ⟨h1, rfl, rfl⟩ := hr'
      obtain ⟨h2, h3⟩ := key r h1
      refine ⟨?_, h3⟩
      rcases h2 with h2 | h2 | h2
      · rw [h2]; exact Or.inl ⟨rfl, rfl⟩
      · rw [h2]
        have : C86_hist [some (serializeTemporal [(1, [7])])] = [(1, [7])] := by decide +kernel
        exact Or.inr ⟨by rw [this]; rfl, by rw [this]; exact ⟨by decide, by decide, by decide⟩⟩
      · rw [h2]
        have : C86_hist [some (serializeTemporal [(1, [7]), (8, [9])])] = [(1, [7]), (8, [9])] := by decide +kernel
        exact Or.inr ⟨by rw [this]; rfl, by rw [this]; exact ⟨by decide, by decide, by decide⟩⟩
    · intro s d x hx y hy _
      revert hx hy
      split <;> simp_all
    · intro s d h
      split
      · rename_i hsd
        obtain ⟨rfl, rfl⟩ := hsd
        exfalso
        revert h
        decide +kernel
      · rfl
  · simp [InTime, C86_batches]
  · intro b hb
    simp only [C86_batches, List.mem_cons, List.not_mem_nil, or_false] at hb
    rcases hb with rfl | rfl <;> · unfold Bipartite; decide

/-- Refuted for rows that are not in the order of time: the score of a row at time 5 is made of an interaction at time
7, because another row of the same source is before it in the batch. -/
theorem C86_order_refuted : ∃ g o fs, Built intCodec (some 9) ⟨0, 1, 9⟩ C86_after g ∧
    predict C86_learner g ⟨2, 1⟩ 0 [⟨1, 10, 9⟩, ⟨1, 11, 5⟩] [11, 10] = some (some (o, fs)) ∧
    o.pos[1]? = some (some ⟨0, [(12, 7, [0]), (11, 3, [0])], []⟩) := by
  obtain ⟨g, hg, hb⟩ := built_of_check (wm := some 9) (m := ⟨0, 1, 9⟩) (parts := C86_after) (by decide +kernel)
  have this : (graphOf intCodec (some 9) ⟨0, 1, 9⟩ C86_after).bind (fun g =>
      (predict C86_learner g ⟨2, 1⟩ 0 [⟨1, 10, 9⟩, ⟨1, 11, 5⟩] [11, 10]).bind fun p => p.map fun x => x.1.pos[1]?) =
      some (some (some ⟨0, [(12, 7, [0]), (11, 3, [0])], []⟩)) := by decide +kernel
  rw [hg, Option.bind_some, Option.bind_eq_some_iff] at this
  obtain ⟨p, h1, h2⟩ := this
  rw [Option.map_eq_some_iff] at h2
  obtain ⟨⟨o, fs⟩, rfl, h2⟩ := h2
  exact ⟨g, o, fs, hb, h1, h2⟩

/-- Refuted for graphs that are not bipartite: the score of an interaction with node 1 at time 4 is made of an interaction
of node 1 at time 7, because node 1 is a source later in the batch. -/
theorem C86_bipartite_refuted : ∃ g o fs, Built intCodec (some 9) ⟨0, 1, 9⟩ C86_after g ∧
    InTime [⟨2, 1, 4⟩, ⟨1, 10, 9⟩] ∧
    predict C86_learner g ⟨2, 1⟩ 0 [⟨2, 1, 4⟩, ⟨1, 10, 9⟩] [11, 11] = some (some (o, fs)) ∧
    o.pos[0]? = some (some ⟨0, [(10, 2, [0])], [(12, 7, [0]), (11, 3, [0])]⟩) := by
  obtain ⟨g, hg, hb⟩ := built_of_check (wm := some 9) (m := ⟨0, 1, 9⟩) (parts := C86_after) (by decide +kernel)
  have this : (graphOf intCodec (some 9) ⟨0, 1, 9⟩ C86_after).bind (fun g =>
      (predict C86_learner g ⟨2, 1⟩ 0 [⟨2, 1, 4⟩, ⟨1, 10, 9⟩] [11, 11]).bind fun p => p.map fun x => x.1.pos[0]?) =
      some (some (some ⟨0, [(10, 2, [0])], [(12, 7, [0]), (11, 3, [0])]⟩)) := by decide +kernel
  rw [hg, Option.bind_some, Option.bind_eq_some_iff] at this
  obtain ⟨p, h1, h2⟩ := this
  rw [Option.map_eq_some_iff] at h2
  obtain ⟨⟨o, fs⟩, rfl, h2⟩ := h2
  exact ⟨g, o, fs, hb, by simp [InTime], h1, h2⟩

/-- Refuted: a row is predicted from all earlier interactions of its source.  Node 1 has an interaction at time 7, the
score of its row at time 9 is made of those before time 5, its first row in the batch. -/
theorem C86_stale_refuted : ∃ g o fs, Built intCodec (some 9) ⟨0, 1, 9⟩ C86_after g ∧
    InTime [⟨1, 12, 5⟩, ⟨1, 10, 9⟩] ∧ ((liveSlots C86_after 1 8 [0]).map (·.created)) = [1, 3, 7] ∧
    predict C86_learner g ⟨2, 1⟩ 0 [⟨1, 12, 5⟩, ⟨1, 10, 9⟩] [11, 11] = some (some (o, fs)) ∧
    o.pos[1]? = some (some ⟨0, [(10, 1, [7]), (11, 3, [0])], []⟩) := by
  obtain ⟨g, hg, hb⟩ := built_of_check (wm := some 9) (m := ⟨0, 1, 9⟩) (parts := C86_after) (by decide +kernel)
  have this : (graphOf intCodec (some 9) ⟨0, 1, 9⟩ C86_after).bind (fun g =>
      (predict C86_learner g ⟨2, 1⟩ 0 [⟨1, 12, 5⟩, ⟨1, 10, 9⟩] [11, 11]).bind fun p => p.map fun x => x.1.pos[1]?) =
      some (some (some ⟨0, [(10, 1, [7]), (11, 3, [0])], []⟩)) := by decide +kernel
  rw [hg, Option.bind_some, Option.bind_eq_some_iff] at this
  obtain ⟨p, h1, h2⟩ := this
  rw [Option.map_eq_some_iff] at h2
  obtain ⟨⟨o, fs⟩, rfl, h2⟩ := h2
  exact ⟨g, o, fs, hb, by simp [InTime], by decide +kernel, h1, h2⟩

/-- Refuted: whether an interaction at time 1 is scored does not depend on the future.  It is if another node has an
interaction at time 7 and a row at time 9 in the same batch. -/
theorem C86_skip_refuted : ∃ g g' o fs, Built intCodec (some 9) ⟨0, 1, 9⟩ [[[⟨1, -1, 0, 1, none, none, []⟩]]] g ∧
    Built intCodec (some 9) ⟨0, 1, 9⟩ [[[⟨1, -1, 0, 1, none, none, []⟩, ⟨1, 10, 0, 1, some 7, none, []⟩]]] g' ∧
    predict C86_learner g ⟨2, 1⟩ 0 [⟨3, 10, 1⟩, ⟨1, 10, 9⟩] [11, 11] = some none ∧
    predict C86_learner g' ⟨2, 1⟩ 0 [⟨3, 10, 1⟩, ⟨1, 10, 9⟩] [11, 11] = some (some (o, fs)) ∧
    o.pos[0]? = some (some ⟨0, [], []⟩) := by
  obtain ⟨g, hg, hb⟩ := built_of_check (wm := some 9) (m := ⟨0, 1, 9⟩) (parts := [[[⟨1, -1, 0, 1, none, none, []⟩]]])
    (by decide +kernel)
  obtain ⟨g', hg', hb'⟩ := built_of_check (wm := some 9) (m := ⟨0, 1, 9⟩)
    (parts := [[[⟨1, -1, 0, 1, none, none, []⟩, ⟨1, 10, 0, 1, some 7, none, []⟩]]]) (by decide +kernel)
  have e1 : (graphOf intCodec (some 9) ⟨0, 1, 9⟩ [[[⟨1, -1, 0, 1, none, none, []⟩]]]).bind (fun g =>
      (predict C86_learner g ⟨2, 1⟩ 0 [⟨3, 10, 1⟩, ⟨1, 10, 9⟩] [11, 11]).map fun p => p.map fun x => x.1.pos) =
      some none := by decide +kernel
  have e2 : (graphOf intCodec (some 9) ⟨0, 1, 9⟩
      [[[⟨1, -1, 0, 1, none, none, []⟩, ⟨1, 10, 0, 1, some 7, none, []⟩]]]).bind (fun g =>
      (predict C86_learner g ⟨2, 1⟩ 0 [⟨3, 10, 1⟩, ⟨1, 10, 9⟩] [11, 11]).bind fun p => p.map fun x => x.1.pos[0]?) =
      some (some (some ⟨0, [], []⟩)) := by decide +kernel
  rw [hg, Option.bind_some, Option.map_eq_some_iff] at e1
  rw [hg', Option.bind_some, Option.bind_eq_some_iff] at e2
  obtain ⟨p, h1, h2⟩ := e1
  obtain ⟨p', h1', h2'⟩ := e2
  rw [Option.map_eq_none_iff] at h2
  subst h2
  rw [Option.map_eq_some_iff] at h2'
  obtain ⟨⟨o, fs⟩, rfl, h2'⟩ := h2'
  exact ⟨g, g', o, fs, hb, hb', h1, h1', h2'⟩

/-- Refuted: every list of interactions can be evaluated.  `test` fails if no source of a batch has an earlier
interaction. -/
theorem C86_new_nodes_refuted : ∃ g, Built intCodec (some 9) ⟨0, 1, 9⟩ C86_after g ∧
    test C86_learner g ⟨2, 1⟩ 0 [([⟨3, 10, 9⟩], [11])] = none ∧
    (train C86_learner g ⟨2, 1⟩ 0 [([⟨3, 10, 9⟩], [11])]).isSome := by
  obtain ⟨g, hg, hb⟩ := built_of_check (wm := some 9) (m := ⟨0, 1, 9⟩) (parts := C86_after) (by decide +kernel)
  have this : (graphOf intCodec (some 9) ⟨0, 1, 9⟩ C86_after).bind (fun g =>
      some ((test C86_learner g ⟨2, 1⟩ 0 [([⟨3, 10, 9⟩], [11])]).isNone,
        (train C86_learner g ⟨2, 1⟩ 0 [([⟨3, 10, 9⟩], [11])]).isSome)) = some (true, true) := by decide +kernel
  rw [hg] at this
  obtain ⟨e1, e2⟩ := Prod.mk.inj (Option.some.inj this)
  exact ⟨g, hb, Option.isNone_iff_eq_none.mp e1, e2⟩

end DeepGNN
