import Verif.Spec.Tgn
import Verif.Proofs.SageExample
import Verif.Props.C07

/-! Proofs about the TGN example. -/

namespace DeepGNN.Tgn

open DeepGNN.SageExample DeepGNN.Spec

/-! ### The last created neighbors do not depend on weights -/

/-- Same positions, same neighbors up to weights. -/
def Alike (a b : LastN) : Prop := a.queue = b.queue ∧ a.out.map unweighted = b.out.map unweighted

theorem unweighted_created {x y : Slot} (h : unweighted x = unweighted y) : x.created = y.created := by
  simp only [unweighted, Prod.mk.injEq] at h; exact h.2.2

theorem push_alike {N : Nat} {a b a' : LastN} {x y : Slot} (h : Alike a b) (hx : unweighted x = unweighted y)
    (ha : a.push N x = some a') : ∃ b', b.push N y = some b' ∧ Alike a' b' := by
  obtain ⟨aq, ao⟩ := a
  obtain ⟨bq, bo⟩ := b
  obtain ⟨h1, h2⟩ := h
  simp only at h1 h2
  subst h1
  have hc := unweighted_created hx
  simp only [LastN.push] at ha ⊢
  by_cases hq : aq.length = N
  · rw [if_pos hq] at ha ⊢
    cases aq with
    | nil => cases ha
    | cons top rest =>
      simp only at ha ⊢
      rw [← hc]
      by_cases ht : top.1 ≥ x.created
      · rw [if_pos ht] at ha ⊢
        cases ha
        exact ⟨_, rfl, rfl, h2⟩
      · rw [if_neg ht] at ha ⊢
        cases ha
        refine ⟨_, rfl, rfl, ?_⟩
        simp only [List.map_set, h2, hx]
  · rw [if_neg hq] at ha ⊢
    cases ha
    refine ⟨_, rfl, by rw [hc], ?_⟩
    simp [h2, hx]

theorem fold_live {N : Nat} (t : Int) (l : List (Slot × Int)) (a : LastN) :
    l.foldlM (LastN.step N t) a = ((l.filter (lastLive t)).map (·.1)).foldlM (LastN.push N) a := by
  induction l generalizing a with
  | nil => rfl
  | cons x l ih =>
    rw [List.foldlM_cons]
    by_cases hx : lastLive t x = true
    · rw [List.filter_cons_of_pos hx, List.map_cons, List.foldlM_cons]
      have h1 : LastN.step N t a x = a.push N x.1 := by
        unfold LastN.step
        rw [if_neg ((lastLive_iff t x).1 hx)]
      rw [h1]
      congr 1
      funext b
      exact ih b
    · rw [List.filter_cons_of_neg hx]
      have h1 : LastN.step N t a x = some a := by
        unfold LastN.step
        rw [lastLive_iff, Classical.not_not] at hx
        rw [if_pos hx]
      rw [h1]
      exact ih a

theorem fold_alike {N : Nat} : ∀ (l l' : List Slot) (a b a' : LastN), Alike a b →
    l.map unweighted = l'.map unweighted →
    l.foldlM (LastN.push N) a = some a' → ∃ b', l'.foldlM (LastN.push N) b = some b' ∧ Alike a' b'
  | [], [], a, b, a', hab, _, ha => by cases ha; exact ⟨b, rfl, hab⟩
  | [], _ :: _, _, _, _, _, hl, _ => by simp at hl
  | _ :: _, [], _, _, _, _, hl, _ => by simp at hl
  | x :: l, y :: l', a, b, a', hab, hl, ha => by
    rw [List.map_cons, List.map_cons, List.cons.injEq] at hl
    rw [List.foldlM_cons] at ha ⊢
    cases hp : a.push N x with
    | none => rw [hp] at ha; cases ha
    | some a1 =>
      rw [hp] at ha
      obtain ⟨b1, h1, h2⟩ := push_alike hab hl.1 hp
      rw [h1]
      exact fold_alike l l' a1 b1 a' h2 hl.2 ha

/-- The interactions of a node that are looked at for time `t`. -/
def past (parts : List (List (List Rec))) (n t : Int) : List TimedEdge :=
  (allTimedEdges parts).filter fun e => e.src = n ∧ e.typ = 0 ∧ e.created ≤ t ∧ (e.removed.all fun d => decide (t ≤ d)) = true

variable {C : WeightCodec} {wm : Option Nat} {m : Meta} {parts : List (List (List Rec))} {g : Graph}

/-- One request: what is found is computed from the past of the node. -/
theorem lastN1_past (h : Built C wm m parts g) (hwm : 0 ≤ m.watermark) (hv : ValidTimes parts) {N : Nat}
    (hN : 0 < N) (d : Slot) (n t : Int) : ∃ (seen : List Slot) (s : LastN),
      seen.map unweighted = (past parts n t).map (fun e => (e.dst, e.typ, e.created)) ∧
      seen.foldlM (LastN.push N) {} = some s ∧
      g.lastN1 [0] N d n t = some (s.out ++ List.replicate (N - s.out.length) d) ∧
      (∀ x ∈ s.out, x ∈ seen) ∧ s.out.length ≤ N := by
  obtain ⟨items, hg, -⟩ := h.graphOk
  obtain ⟨es, he, hfold⟩ := hg.lastN_fold hwm n t (sortUnique [0]) N {}
  obtain ⟨s, dr, hs, hinv⟩ := LastN.foldl_inv hN t
    ((foundSeen items n (sortUnique [0])).map fun e => (gslot e, e.removed)) (LastNInv.init N)
  have h1 : foundEdges items n (sortUnique [0]) = inputEdges parts n (sortUnique [0]) := by
    apply hg.found_eq n _ (sortUnique_sorted [0])
    intro x _ _ y _ _ hyt hex
    obtain ⟨u, hu, hex⟩ := hex
    rw [sortUnique_mem] at hu hyt
    simp only [List.mem_singleton] at hu hyt
    omega
  have hlive : ∀ l : List GEdge, ((l.map fun e => (gslot e, e.removed)).filter (lastLive t)).map (·.1) =
      (l.filter fun e => lastLive t (gslot e, e.removed)).map gslot := by
    intro l; rw [List.filter_map, List.map_map]; rfl
  have hnw : ∀ l : List GEdge,
      ((l.filter fun e => lastLive t (gslot e, e.removed)).map gslot).map unweighted =
      ((l.map noWeight).filter fun e => lastLive t (gslot e, e.removed)).map (fun e => unweighted (gslot e)) := by
    intro l
    rw [List.filter_map, List.map_map, List.map_map]
    rfl
  refine ⟨((foundSeen items n (sortUnique [0])).filter fun e => lastLive t (gslot e, e.removed)).map gslot, s,
    ?_, ?_, ?_, ?_, hinv.le⟩
  · rw [hnw, foundSeen_noWeight, h1, ← hnw]
    have hk := timed_calls parts.flatten h.acc hv.1 hv.2
    simp only [past, allTimedEdges, inputEdges]
    rw [hk, List.filter_map, List.filter_map, List.filter_filter, List.map_map, List.map_map, List.map_map]
    rw [List.filter_congr (q := (fun e : TimedEdge => decide (e.src = n ∧ e.typ = 0 ∧ e.created ≤ t ∧
      (e.removed.all fun d => decide (t ≤ d)) = true)) ∘ toTimed)]
    · rfl
    · intro a _
      rw [Bool.eq_iff_iff]
      simp only [Function.comp, Bool.and_eq_true, lastLive_iff, decide_eq_true_eq, toTimed, gslot, sortUnique_mem,
        List.mem_singleton]
      by_cases hm : a.2.removed = -1
      · simp [hm]; omega
      · simp [hm]; omega
  · rw [← hlive, ← fold_live]; exact hs
  · simp only [Graph.lastN1, he, Option.bind_eq_bind, Option.bind_some]
    have hfold' : es.foldlM (fun s (x : Partition × Nat) =>
        match x with | (p, id) => p.lastN id t (sortUnique [0]) N s) ({} : LastN) = _ := hfold
    rw [hfold', hs]; rfl
  · intro x hx
    rw [← hlive]
    have := hinv.perm.mem_iff.1 (List.mem_append_left dr hx)
    simpa using this

/-- Two graphs with the same past give the same answer, up to weights, and only with interactions of the past. -/
theorem lastN1_same {parts' : List (List (List Rec))} {g' : Graph} {C' : WeightCodec} {wm' : Option Nat} {m' : Meta}
    (h : Built C wm m parts g) (hwm : 0 ≤ m.watermark) (hv : ValidTimes parts)
    (h' : Built C' wm' m' parts' g') (hwm' : 0 ≤ m'.watermark) (hv' : ValidTimes parts')
    {T : Int} (hs : SameUntil T parts parts') {N : Nat} (hN : 0 < N) (d : Slot) (n t : Int) (ht : t ≤ T) :
    ∃ l l', g.lastN1 [0] N d n t = some l ∧ g'.lastN1 [0] N d n t = some l' ∧
      l.map unweighted = l'.map unweighted ∧ ∀ x ∈ l, x = d ∨ x.created ≤ t := by
  obtain ⟨seen, s, h1, h2, h3, h4, -⟩ := lastN1_past h hwm hv hN d n t
  obtain ⟨seen', s', h1', h2', h3', -, -⟩ := lastN1_past h' hwm' hv' hN d n t
  have hp : past parts n t = past parts' n t := by
    have : ∀ ps : List (List (List Rec)), past ps n t =
        ((allTimedEdges ps).filter fun e => e.created ≤ T).filter (fun e => e.src = n ∧ e.typ = 0 ∧ e.created ≤ t ∧
          (e.removed.all fun d => decide (t ≤ d)) = true) := by
      intro ps
      rw [List.filter_filter]
      apply List.filter_congr
      intro e _
      rw [Bool.eq_iff_iff]
      simp only [Bool.and_eq_true, decide_eq_true_eq]
      constructor
      · intro h; exact ⟨h, by omega⟩
      · exact fun h => h.1
    rw [this, this, hs]
  obtain ⟨s'', h5, h6⟩ := fold_alike seen seen' {} {} s ⟨rfl, rfl⟩ (by rw [h1, h1', hp]) h2
  rw [h2'] at h5
  cases h5
  refine ⟨_, _, h3, h3', ?_, ?_⟩
  · have hl : s.out.length = s'.out.length := by
      have := congrArg List.length h6.2
      simpa using this
    rw [List.map_append, List.map_append, h6.2, hl]
  · intro x hx
    rcases List.mem_append.1 hx with hx | hx
    · right
      have hx := h4 x hx
      have : unweighted x ∈ seen.map unweighted := List.mem_map_of_mem hx
      rw [h1] at this
      obtain ⟨e, he, hex⟩ := List.mem_map.1 this
      have he := (List.mem_filter.1 he).2
      simp only [decide_eq_true_eq] at he
      simp only [unweighted, Prod.mk.injEq] at hex
      omega
    · exact Or.inl (List.eq_of_mem_replicate hx)

/-! ### The queries of a batch -/

/-- The value that stands for a missing neighbor. -/
abbrev stub : Slot := ⟨-1, -1, 0, -1⟩

/-- The interactions of one request. -/
def own (g : Graph) (N : Nat) (q : Int × Int) : List Interaction :=
  (((g.lastN1 [0] N stub q.1 q.2).getD []).filter fun x => decide (-1 < x.dst)).map fun x => ⟨q.1, x.dst, x.created⟩

theorem flatMap_same {α β : Type} {l : List α} {f f' : α → List β} (h : ∀ x ∈ l, f x = f' x) :
    l.flatMap f = l.flatMap f' := by
  rw [List.flatMap_def, List.flatMap_def, List.map_congr_left h]

theorem zip_repeat {N : Nat} (A : Int × Int → List Slot) : ∀ (reqs : List (Int × Int)),
    (∀ q ∈ reqs, (A q).length = N) →
    (repeatEach N (reqs.map (·.1))).zip (reqs.map A).flatten = reqs.flatMap fun q => (A q).map fun x => (q.1, x)
  | [], _ => rfl
  | q :: reqs, h => by
    have h1 := zip_repeat A reqs fun q hq => h q (by simp [hq])
    have h2 := h q (by simp)
    simp only [repeatEach, List.map_cons, List.flatMap_cons, List.flatten_cons] at h1 ⊢
    rw [List.zip_append (by simp [h2]), h1]
    congr 1
    rw [← h2]
    generalize A q = l
    induction l with
    | nil => rfl
    | cons x l ih => simp [List.replicate_succ, ih]

theorem interactions_eq (h : Built C wm m parts g) (hwm : 0 ≤ m.watermark) (hv : ValidTimes parts) {N : Nat}
    (hN : 0 < N) (reqs : List (Int × Int)) : interactions g N reqs = some (reqs.flatMap (own g N)) := by
  have hz : (reqs.map (·.1)).zip (reqs.map (·.2)) = reqs := by
    clear h
    induction reqs with
    | nil => rfl
    | cons a l ih => simp [ih]
  have hA : ∀ q : Int × Int, ∃ l, g.lastN1 [0] N stub q.1 q.2 = some l ∧ l.length = N := by
    intro q
    obtain ⟨seen, s, h1, h2, h3, h4, h5⟩ := lastN1_past h hwm hv hN stub q.1 q.2
    exact ⟨_, h3, by simp; omega⟩
  simp only [interactions, Graph.lastN, hz]
  have hm : reqs.mapM (fun q => g.lastN1 [0] N stub q.1 q.2) =
      some (reqs.map fun q => (g.lastN1 [0] N stub q.1 q.2).getD []) := by
    apply mapM_some_map
    intro q _
    obtain ⟨l, h1, -⟩ := hA q
    rw [h1]; rfl
  have hm' : (reqs.mapM fun (x : Int × Int) => match x with | (n, t) => g.lastN1 [0] N stub n t) = _ := hm
  rw [hm']
  simp only [Option.bind_eq_bind, Option.bind_some, pure, Option.map_some, Option.some.injEq]
  rw [zip_repeat (fun q => (g.lastN1 [0] N stub q.1 q.2).getD [])]
  · rw [List.filter_flatMap, List.map_flatMap]
    apply flatMap_same
    intro q _
    rw [List.filter_map, List.map_map]
    rfl
  · intro q _
    obtain ⟨l, h1, h2⟩ := hA q
    rw [h1]; exact h2

theorem own_node {N : Nat} {q : Int × Int} {i : Interaction} (h : i ∈ own g N q) : i.node = q.1 := by
  obtain ⟨x, -, rfl⟩ := List.mem_map.1 h
  rfl

/-- What is found for one node is the answer to its request. -/
theorem own_filter {N : Nat} {reqs : List (Int × Int)} (hn : (reqs.map (·.1)).Nodup) {q : Int × Int} (hq : q ∈ reqs) :
    (reqs.flatMap (own g N)).filter (fun i => i.node = q.1) = own g N q := by
  have hself : (own g N q).filter (fun i => i.node = q.1) = own g N q := by
    rw [List.filter_eq_self]
    intro i hi
    simp [own_node hi]
  have hother : ∀ p : Int × Int, p.1 ≠ q.1 → (own g N p).filter (fun i => i.node = q.1) = [] := by
    intro p hp
    rw [List.filter_eq_nil_iff]
    intro i hi
    simp [own_node hi, hp]
  induction reqs with
  | nil => cases hq
  | cons p reqs ih =>
    rw [List.map_cons, List.nodup_cons] at hn
    rw [List.flatMap_cons, List.filter_append]
    rcases List.mem_cons.1 hq with rfl | hq
    · rw [hself]
      have : (reqs.flatMap (own g N)).filter (fun i => i.node = q.1) = [] := by
        rw [List.filter_eq_nil_iff]
        intro i hi
        obtain ⟨p, hp, hi⟩ := List.mem_flatMap.1 hi
        have : p.1 ≠ q.1 := fun e => hn.1 (e ▸ List.mem_map_of_mem hp)
        simp [own_node hi, this]
      rw [this, List.append_nil]
    · have hne : p.1 ≠ q.1 := fun e => hn.1 (e ▸ List.mem_map_of_mem hq)
      rw [hother p hne, List.nil_append, ih hn.2 hq]

/-- Two graphs with the same past give the same interactions. -/
theorem own_same {parts' : List (List (List Rec))} {g' : Graph} {C' : WeightCodec} {wm' : Option Nat} {m' : Meta}
    (h : Built C wm m parts g) (hwm : 0 ≤ m.watermark) (hv : ValidTimes parts)
    (h' : Built C' wm' m' parts' g') (hwm' : 0 ≤ m'.watermark) (hv' : ValidTimes parts')
    {T : Int} (hs : SameUntil T parts parts') {N : Nat} (hN : 0 < N) (q : Int × Int) (ht : q.2 ≤ T) :
    own g N q = own g' N q ∧ ∀ i ∈ own g N q, i.time ≤ T := by
  obtain ⟨l, l', h1, h2, h3, h4⟩ := lastN1_same h hwm hv h' hwm' hv' hs hN stub q.1 q.2 ht
  constructor
  · simp only [own, h1, h2, Option.getD_some]
    clear h1 h2 h4
    induction l generalizing l' with
    | nil => cases l' with
      | nil => rfl
      | cons => simp at h3
    | cons x l ih => cases l' with
      | nil => simp at h3
      | cons y l' =>
        rw [List.map_cons, List.map_cons, List.cons.injEq] at h3
        have hxy := h3.1
        simp only [unweighted, Prod.mk.injEq] at hxy
        have := ih l' h3.2
        by_cases hx : -1 < x.dst
        · have hy : -1 < y.dst := by omega
          rw [List.filter_cons_of_pos (by simpa using hx), List.filter_cons_of_pos (by simpa using hy),
            List.map_cons, List.map_cons, this, hxy.1, hxy.2.2]
        · have hy : ¬ -1 < y.dst := by omega
          rw [List.filter_cons_of_neg (by simpa using hx), List.filter_cons_of_neg (by simpa using hy), this]
  · intro i hi
    simp only [own, h1, Option.getD_some] at hi
    obtain ⟨x, hx, rfl⟩ := List.mem_map.1 hi
    obtain ⟨hx, hx2⟩ := List.mem_filter.1 hx
    rcases h4 x hx with rfl | h5
    · simp at hx2
    · show x.created ≤ T
      omega

theorem requests_nodup (rows : List Row) (neg : List Int) : ((requests rows neg).map (·.1)).Nodup := by
  simp only [requests, List.map_map]
  have : ((fun x : Int × Int => x.1) ∘ fun n => (n, (rows.map (·.time) ++ rows.map (fun _ => (1 : Int)) ++
      neg.map fun _ => (1 : Int)).getD ((rows.map (·.src) ++ rows.map (·.dst) ++ neg).idxOf n) 0 - 1)) = id := rfl
  rw [this, List.map_id]
  exact sortUnique_nodup _

theorem mem_requests_node {rows : List Row} {neg : List Int} (n : Int) :
    n ∈ (requests rows neg).map (·.1) ↔ n ∈ rows.map (·.src) ++ rows.map (·.dst) ++ neg := by
  simp only [requests, List.map_map]
  rw [show ((fun x : Int × Int => x.1) ∘ fun n => (n, (rows.map (·.time) ++ rows.map (fun _ => (1 : Int)) ++
      neg.map fun _ => (1 : Int)).getD ((rows.map (·.src) ++ rows.map (·.dst) ++ neg).idxOf n) 0 - 1)) = id from rfl,
    List.map_id, sortUnique_mem]

/-- The time of the request of a source is that of its first row. -/
theorem request_src {rows : List Row} {neg : List Int} {n : Int} {t : Int} (h : firstTime rows n = some t) :
    (n, t - 1) ∈ requests rows neg := by
  simp only [requests, List.mem_map, sortUnique_mem]
  have key : ∀ (rows : List Row) (tl : List Int) (tl' : List Int), firstTime rows n = some t →
      n ∈ rows.map (·.src) ∧ (rows.map (·.time) ++ tl').getD ((rows.map (·.src) ++ tl).idxOf n) 0 = t := by
    intro rows tl tl'
    induction rows with
    | nil => intro h; cases h
    | cons r rows ih =>
      intro h
      simp only [List.map_cons, List.cons_append, List.idxOf_cons]
      by_cases hr : r.src = n
      · have : firstTime (r :: rows) n = some r.time := by simp [firstTime, hr]
        rw [this] at h
        cases h
        simp [hr]
      · have : firstTime (r :: rows) n = firstTime rows n := by simp [firstTime, hr]
        rw [this] at h
        obtain ⟨h1, h2⟩ := ih h
        have hb : (r.src == n) = false := by simpa using hr
        refine ⟨List.mem_cons_of_mem _ h1, ?_⟩
        rw [hb]
        simpa using h2
  obtain ⟨h1, h2⟩ := key rows (rows.map (·.dst) ++ neg) (rows.map (fun _ => 1) ++ neg.map fun _ => 1) h
  refine ⟨n, ?_, ?_⟩
  · rw [List.mem_append, List.mem_append]; exact Or.inl (Or.inl h1)
  · rw [List.append_assoc, List.append_assoc, h2]

/-- The time of the request of a node that is not a source. -/
theorem request_dst {rows : List Row} {neg : List Int} {n : Int} (h : n ∈ rows.map (·.dst) ++ neg)
    (hs : n ∉ rows.map (·.src)) : (n, 0) ∈ requests rows neg := by
  simp only [requests, List.mem_map, sortUnique_mem]
  refine ⟨n, ?_, ?_⟩
  · rw [List.append_assoc]; exact List.mem_append_right _ h
  · have hl : (rows.map (·.dst) ++ neg).idxOf n < (rows.map (·.dst) ++ neg).length := List.idxOf_lt_length_of_mem h
    rw [List.append_assoc, List.append_assoc, List.idxOf_append, if_neg hs, List.length_map]
    rw [List.getD_eq_getElem?_getD, List.getElem?_append_right (by simp)]
    simp only [List.length_map, Nat.add_sub_cancel]
    have e : (rows.map (fun _ => (1 : Int)) ++ neg.map fun _ => (1 : Int)) =
        (rows.map (·.dst) ++ neg).map fun _ => 1 := by simp
    rw [e, List.getElem?_map, List.getElem?_eq_getElem hl]
    rfl

/-- All requests are for times before one of the rows, or for time 0. -/
theorem request_time {rows : List Row} {neg : List Int} {T : Int} (hT : 0 ≤ T) (h : ∀ r ∈ rows, r.time ≤ T + 1) :
    ∀ q ∈ requests rows neg, q.2 ≤ T := by
  intro q hq
  simp only [requests, List.mem_map] at hq
  obtain ⟨n, -, rfl⟩ := hq
  simp only
  generalize (rows.map (·.src) ++ rows.map (·.dst) ++ neg).idxOf n = j
  rw [List.getD_eq_getElem?_getD]
  cases he : (rows.map (·.time) ++ rows.map (fun _ => (1 : Int)) ++ neg.map fun _ => (1 : Int))[j]? with
  | none => simp only [Option.getD_none]; omega
  | some x =>
    have := List.mem_of_getElem? he
    simp only [List.mem_append, List.mem_map] at this
    simp only [Option.getD_some]
    rcases this with (⟨r, hr, rfl⟩ | ⟨_, _, rfl⟩) | ⟨_, _, rfl⟩
    · have := h r hr; omega
    · omega
    · omega

/-! ### Features and scores -/

theorem features_filter {dim : Nat} {found : List Interaction} {fs : List (Interaction × Bytes)} (p : Interaction → Bool)
    (h : features g dim found = some fs) : features g dim (found.filter p) = some (fs.filter fun x => p x.1) := by
  induction found generalizing fs with
  | nil => cases h; rfl
  | cons i found ih =>
    simp only [features, List.mapM_cons, Option.bind_eq_bind, Option.bind_eq_some_iff, Option.map_eq_some_iff] at h
    obtain ⟨x, ⟨f, hf, rfl⟩, r, hr, h⟩ := h
    simp only [pure, Option.some.injEq] at h
    subst h
    have := ih hr
    by_cases hp : p i = true
    · rw [List.filter_cons_of_pos hp, List.filter_cons_of_pos (by simpa using hp)]
      simp only [features, List.mapM_cons, hf] at this ⊢
      simp only [Option.map_some, Option.bind_eq_bind, Option.bind_some, this]
      rfl
    · rw [List.filter_cons_of_neg hp, List.filter_cons_of_neg (by simpa using hp)]
      exact this

theorem features_same {dim : Nat} {g' : Graph} {T : Int} (hf : SameFeaturesUntil T dim g g') {found : List Interaction}
    (h : ∀ i ∈ found, i.time ≤ T) : features g dim found = features g' dim found := by
  induction found with
  | nil => rfl
  | cons i found ih =>
    have h1 := ih fun i hi => h i (by simp [hi])
    have h2 := hf i.node i.nbr i.time (h i (by simp))
    simp only [features, List.mapM_cons, h2] at h1 ⊢
    rw [h1]

theorem features_fst {dim : Nat} {found : List Interaction} {fs : List (Interaction × Bytes)}
    (h : features g dim found = some fs) : fs.map (·.1) = found := by
  induction found generalizing fs with
  | nil => cases h; rfl
  | cons i found ih =>
    simp only [features, List.mapM_cons, Option.bind_eq_bind, Option.bind_eq_some_iff, Option.map_eq_some_iff] at h
    obtain ⟨x, ⟨f, hf, rfl⟩, r, hr, h⟩ := h
    simp only [pure, Option.some.injEq] at h
    subst h
    rw [List.map_cons, ih hr]

theorem idxOf_getElem? {l : List Int} {x : Int} (h : x ∈ l) : l[l.idxOf x]? = some x := by
  have hl := List.idxOf_lt_length_of_mem h
  rw [List.getElem?_eq_getElem hl, List.getElem_idxOf hl]

/-- Positions do not matter: scores are those of the embeddings of the nodes. -/
theorem scores_eq {S Z P : Type} (L : Learner S Z P) (s : S) (rows : List Row) (neg nodes : List Int)
    (fs : List (Interaction × Bytes)) (hn : ∀ n ∈ rows.map (·.src) ++ rows.map (·.dst) ++ neg, n ∈ nodes)
    (hf : ∀ x ∈ fs, x.1.node ∈ nodes) :
    scores L s rows neg nodes fs =
      ⟨rows.map fun r => some (L.score s (embedding L s fs r.src) (embedding L s fs r.dst)),
       (rows.zip neg).map fun x => some (L.score s (embedding L s fs x.1.src) (embedding L s fs x.2))⟩ := by
  let final := sortUnique (nodes ++ fs.map (·.1.nbr))
  have hmem : ∀ n ∈ nodes, n ∈ final := fun n h => (sortUnique_mem _ _).2 (List.mem_append_left _ h)
  have hnbr : ∀ x ∈ fs, x.1.nbr ∈ final := fun x h =>
    (sortUnique_mem _ _).2 (List.mem_append_right _ (List.mem_map_of_mem h))
  have hat : ∀ n ∈ nodes, (final.zipIdx.map fun y => L.embed s y.1
      (((fs.map fun x => (final.idxOf x.1.nbr, final.idxOf x.1.node, x.1.time, x.2)).filter
        fun e => e.2.1 = y.2).map fun e => (final.getD e.1 0, e.2.2)))[final.idxOf n]? =
      some (embedding L s fs n) := by
    intro n h
    have hg := idxOf_getElem? (hmem n h)
    rw [List.getElem?_map, List.getElem?_zipIdx, hg]
    simp only [Option.map_some, Nat.zero_add, Option.some.injEq, embedding]
    congr 1
    rw [List.filter_map, List.map_map]
    have : fs.filter ((fun e : Nat × Nat × Int × Bytes => decide (e.2.1 = final.idxOf n)) ∘
        fun x => (final.idxOf x.1.nbr, final.idxOf x.1.node, x.1.time, x.2)) =
        fs.filter fun x => decide (x.1.node = n) := by
      apply List.filter_congr
      intro x hx
      simp only [Function.comp, decide_eq_decide]
      constructor
      · intro e
        have h1 := idxOf_getElem? (hmem _ (hf x hx))
        rw [e, hg] at h1
        exact (Option.some.inj h1).symm
      · intro e; rw [e]
    rw [this]
    apply List.map_congr_left
    intro x hx
    have hx := (List.mem_filter.1 hx).1
    simp only [Function.comp, List.getD_eq_getElem?_getD, idxOf_getElem? (hnbr x hx), Option.getD_some]
  have hsrc : ∀ r ∈ rows, r.src ∈ nodes := fun r hr => hn _ (by simp; exact Or.inl ⟨r, hr, rfl⟩)
  have hdst : ∀ r ∈ rows, r.dst ∈ nodes := fun r hr => hn _ (by simp; exact Or.inr (Or.inl ⟨r, hr, rfl⟩))
  have hneg : ∀ n ∈ neg, n ∈ nodes := fun n h => hn _ (by simp [h])
  simp only [scores, Output.mk.injEq]
  constructor
  · apply List.map_congr_left
    intro r hr
    rw [hat _ (hsrc r hr), hat _ (hdst r hr)]
    rfl
  · apply List.map_congr_left
    rintro ⟨r, n⟩ hx
    obtain ⟨h1, h2⟩ := List.of_mem_zip hx
    simp only
    rw [hat _ (hsrc r h1), hat _ (hneg n h2)]
    rfl

/-- A prediction: the features of the interactions found, and the scores. -/
theorem predict_eq {S Z P : Type} {L : Learner S Z P} {c : Config} {s : S} {rows : List Row} {neg : List Int}
    {o : Output P} {fs : List (Interaction × Bytes)}
    (h : Built C wm m parts g) (hwm : 0 ≤ m.watermark) (hv : ValidTimes parts) (hN : 0 < c.num)
    (hp : predict L g c s rows neg = some (some (o, fs))) :
    features g c.dim ((requests rows neg).flatMap (own g c.num)) = some fs ∧
    o = ⟨rows.map fun r => some (L.score s (embedding L s fs r.src) (embedding L s fs r.dst)),
       (rows.zip neg).map fun x => some (L.score s (embedding L s fs x.1.src) (embedding L s fs x.2))⟩ := by
  simp only [predict, interactions_eq h hwm hv hN, Option.bind_some] at hp
  split at hp
  · simp at hp
  · rw [Option.map_eq_some_iff] at hp
    obtain ⟨fs', h1, h2⟩ := hp
    simp only [Option.some.injEq, Prod.mk.injEq] at h2
    obtain ⟨rfl, rfl⟩ := h2
    refine ⟨h1, scores_eq L s rows neg _ _ (fun n hn => (mem_requests_node n).2 hn) ?_⟩
    intro x hx
    have : x.1 ∈ (requests rows neg).flatMap (own g c.num) := by
      rw [← features_fst h1]; exact List.mem_map_of_mem hx
    obtain ⟨q, hq, hx⟩ := List.mem_flatMap.1 this
    rw [own_node hx]
    exact List.mem_map_of_mem hq

theorem firstTime_le {rows : List Row} (hs : InTime rows) {k : Nat} {r : Row} (hk : rows[k]? = some r) :
    ∃ t, firstTime rows r.src = some t ∧ t ≤ r.time := by
  induction rows generalizing k with
  | nil => simp at hk
  | cons a rows ih =>
    obtain ⟨h1, h2⟩ := List.pairwise_cons.1 hs
    by_cases ha : a.src = r.src
    · refine ⟨a.time, by simp [firstTime, ha], ?_⟩
      rcases List.mem_cons.1 (List.mem_of_getElem? hk) with rfl | hr
      · omega
      · exact h1 r hr
    · cases k with
      | zero => simp at hk; exact absurd (by rw [hk]) ha
      | succ k =>
        rw [List.getElem?_cons_succ] at hk
        obtain ⟨t, h3, h4⟩ := ih h2 hk
        exact ⟨t, by rw [← h3]; simp [firstTime, ha], h4⟩

section Two

variable {parts' : List (List (List Rec))} {g' : Graph} {C' : WeightCodec} {wm' : Option Nat} {m' : Meta}
  {S Z P : Type} {L : Learner S Z P} {c : Config} {T : Int}

/-- A batch whose rows are all before `T + 1`. -/
theorem predict_same (h : Built C wm m parts g) (hwm : 0 ≤ m.watermark) (hv : ValidTimes parts)
    (h' : Built C' wm' m' parts' g') (hwm' : 0 ≤ m'.watermark) (hv' : ValidTimes parts')
    (hs : SameUntil T parts parts') (hf : SameFeaturesUntil T c.dim g g') (hN : 0 < c.num) (hT : 0 ≤ T)
    (s : S) (rows : List Row) (neg : List Int) (hr : ∀ r ∈ rows, r.time ≤ T + 1) :
    predict L g c s rows neg = predict L g' c s rows neg := by
  have h1 : (requests rows neg).flatMap (own g c.num) = (requests rows neg).flatMap (own g' c.num) := by
    apply flatMap_same
    intro q hq
    exact (own_same h hwm hv h' hwm' hv' hs hN q (request_time hT hr q hq)).1
  have h2 : ∀ i ∈ (requests rows neg).flatMap (own g c.num), i.time ≤ T := by
    intro i hi
    obtain ⟨q, hq, hi⟩ := List.mem_flatMap.1 hi
    exact (own_same h hwm hv h' hwm' hv' hs hN q (request_time hT hr q hq)).2 i hi
  simp only [predict, interactions_eq h hwm hv hN, interactions_eq h' hwm' hv' hN, Option.bind_some, ← h1,
    features_same hf h2]

/-- Two runs give the same embedding of a node that is requested for a time before `T`. -/
theorem embedding_same (h : Built C wm m parts g) (hwm : 0 ≤ m.watermark) (hv : ValidTimes parts)
    (h' : Built C' wm' m' parts' g') (hwm' : 0 ≤ m'.watermark) (hv' : ValidTimes parts')
    (hs : SameUntil T parts parts') (hf : SameFeaturesUntil T c.dim g g') (hN : 0 < c.num)
    {s : S} {rows : List Row} {neg : List Int} {fs fs' : List (Interaction × Bytes)}
    (hfs : features g c.dim ((requests rows neg).flatMap (own g c.num)) = some fs)
    (hfs' : features g' c.dim ((requests rows neg).flatMap (own g' c.num)) = some fs')
    {q : Int × Int} (hq : q ∈ requests rows neg) (ht : q.2 ≤ T) :
    embedding L s fs q.1 = embedding L s fs' q.1 := by
  have h1 := features_filter (fun i => decide (i.node = q.1)) hfs
  have h2 := features_filter (fun i => decide (i.node = q.1)) hfs'
  obtain ⟨h3, h4⟩ := own_same h hwm hv h' hwm' hv' hs hN q ht
  rw [own_filter (requests_nodup rows neg) hq] at h1 h2
  rw [features_same hf h4, h3, h2, Option.some.injEq] at h1
  simp only [embedding, h1]

/-- The rows before `T + 1` of a batch that may have later rows. -/
theorem predict_rows (h : Built C wm m parts g) (hwm : 0 ≤ m.watermark) (hv : ValidTimes parts)
    (h' : Built C' wm' m' parts' g') (hwm' : 0 ≤ m'.watermark) (hv' : ValidTimes parts')
    (hs : SameUntil T parts parts') (hf : SameFeaturesUntil T c.dim g g') (hN : 0 < c.num) (hT : 0 ≤ T)
    {s : S} {rows : List Row} {neg : List Int} (hin : InTime rows) (hb : Bipartite (rows, neg))
    {o o' : Output P} {fs fs' : List (Interaction × Bytes)}
    (hp : predict L g c s rows neg = some (some (o, fs))) (hp' : predict L g' c s rows neg = some (some (o', fs')))
    {k : Nat} {r : Row} (hk : rows[k]? = some r) (hr : r.time ≤ T + 1) :
    o.pos[k]? = o'.pos[k]? ∧ o.neg[k]? = o'.neg[k]? := by
  obtain ⟨h1, rfl⟩ := predict_eq h hwm hv hN hp
  obtain ⟨h2, rfl⟩ := predict_eq h' hwm' hv' hN hp'
  have hrm := List.mem_of_getElem? hk
  have hemb : ∀ q ∈ requests rows neg, q.2 ≤ T → embedding L s fs q.1 = embedding L s fs' q.1 :=
    fun q hq ht => embedding_same h hwm hv h' hwm' hv' hs hf hN h1 h2 hq ht
  have hsrc : embedding L s fs r.src = embedding L s fs' r.src := by
    obtain ⟨t, h3, h4⟩ := firstTime_le hin hk
    exact hemb (r.src, t - 1) (request_src h3) (by show t - 1 ≤ T; omega)
  have hd : ∀ n ∈ rows.map (·.dst) ++ neg, embedding L s fs n = embedding L s fs' n := by
    intro n hn
    refine hemb (n, 0) (request_dst hn ?_) hT
    intro hm
    obtain ⟨r', hr', rfl⟩ := List.mem_map.1 hm
    obtain ⟨hb1, hb2⟩ := hb r' hr'
    rcases List.mem_append.1 hn with hn | hn
    · obtain ⟨q, hq, e⟩ := List.mem_map.1 hn
      exact hb1 q hq e.symm
    · exact hb2 hn
  constructor
  · simp only [List.getElem?_map, hk, Option.map_some]
    rw [hsrc, hd r.dst (List.mem_append_left _ (List.mem_map_of_mem hrm))]
  · simp only [List.getElem?_map]
    cases hz : (rows.zip neg)[k]? with
    | none => rfl
    | some x =>
      obtain ⟨a, n⟩ := x
      obtain ⟨h3, h4⟩ := List.getElem?_zip_eq_some.1 hz
      simp only at h3 h4
      rw [hk] at h3
      cases h3
      simp only [Option.map_some]
      rw [hsrc, hd n (List.mem_append_right _ (List.mem_of_getElem? h4))]

theorem epoch_same (h : Built C wm m parts g) (hwm : 0 ≤ m.watermark) (hv : ValidTimes parts)
    (h' : Built C' wm' m' parts' g') (hwm' : 0 ≤ m'.watermark) (hv' : ValidTimes parts')
    (hs : SameUntil T parts parts') (hf : SameFeaturesUntil T c.dim g g') (hN : 0 < c.num) (hT : 0 ≤ T)
    (upd : S → List Row → List Int → List (Interaction × Bytes) → S) :
    ∀ (bs : List (List Row × List Int)) (s : S), (∀ b ∈ bs, ∀ r ∈ b.1, r.time ≤ T + 1) →
      epoch L upd g c s bs = epoch L upd g' c s bs
  | [], _, _ => rfl
  | (rows, neg) :: bs, s, hr => by
    have h1 := predict_same (L := L) h hwm hv h' hwm' hv' hs hf hN hT s rows neg (hr (rows, neg) (by simp))
    have h2 := fun s => epoch_same h hwm hv h' hwm' hv' hs hf hN hT upd bs s fun b hb => hr b (by simp [hb])
    simp only [epoch, h1, h2]

theorem epoch_rows (h : Built C wm m parts g) (hwm : 0 ≤ m.watermark) (hv : ValidTimes parts)
    (h' : Built C' wm' m' parts' g') (hwm' : 0 ≤ m'.watermark) (hv' : ValidTimes parts')
    (hs : SameUntil T parts parts') (hf : SameFeaturesUntil T c.dim g g') (hN : 0 < c.num) (hT : 0 ≤ T)
    (upd : S → List Row → List Int → List (Interaction × Bytes) → S) :
    ∀ (bs : List (List Row × List Int)) (s s1 s1' : S) (outs outs' : List (Option (Output P))),
      InTime (bs.flatMap (·.1)) → (∀ b ∈ bs, Bipartite b) →
      epoch L upd g c s bs = some (s1, outs) → epoch L upd g' c s bs = some (s1', outs') →
      ∀ (i k : Nat) (b : List Row × List Int) (r : Row) (o o' : Output P), bs[i]? = some b → b.1[k]? = some r →
        r.time ≤ T + 1 → outs[i]? = some (some o) → outs'[i]? = some (some o') →
        o.pos[k]? = o'.pos[k]? ∧ o.neg[k]? = o'.neg[k]?
  | [], _, _, _, _, _, _, _, _, _ => by intro i k b r o o' hb; simp at hb
  | (rows, neg) :: bs, s, s1, s1', outs, outs', hin, hbi, he, he' => by
    intro i k b r o o' hb hk ht ho ho'
    rw [List.flatMap_cons] at hin
    obtain ⟨hin1, hin2, hin3⟩ := List.pairwise_append.1 hin
    have step : ∀ (g : Graph) (s1 : S) (outs : List (Option (Output P))),
        epoch L upd g c s ((rows, neg) :: bs) = some (s1, outs) →
        ∃ p rest s2, predict L g c s rows neg = some p ∧ outs = p.map (·.1) :: rest ∧
          epoch L upd g c ((p.map fun x => upd s rows neg x.2).getD s) bs = some (s2, rest) := by
      intro g s1 outs he
      simp only [epoch, Option.bind_eq_some_iff] at he
      obtain ⟨p, hp, he⟩ := he
      cases p with
      | none =>
        simp only [Option.map_eq_some_iff] at he
        obtain ⟨⟨s2, rest⟩, h1, h2⟩ := he
        cases h2
        exact ⟨none, rest, s2, hp, rfl, h1⟩
      | some x =>
        obtain ⟨o, fs⟩ := x
        simp only [Option.map_eq_some_iff] at he
        obtain ⟨⟨s2, rest⟩, h1, h2⟩ := he
        cases h2
        exact ⟨some (o, fs), rest, s2, hp, rfl, h1⟩
    obtain ⟨p, rest, s2, hp, rfl, hrest⟩ := step g s1 outs he
    obtain ⟨p', rest', s2', hp', rfl, hrest'⟩ := step g' s1' outs' he'
    cases i with
    | zero =>
      simp only [List.getElem?_cons_zero, Option.some.injEq] at hb ho ho'
      subst hb
      cases p with
      | none => cases ho
      | some x => cases p' with
        | none => cases ho'
        | some x' =>
          simp only [Option.map_some, Option.some.injEq] at ho ho'
          subst ho ho'
          exact predict_rows h hwm hv h' hwm' hv' hs hf hN hT hin1 (hbi _ (by simp)) hp hp' hk ht
    | succ i =>
      simp only [List.getElem?_cons_succ] at hb ho ho'
      have hall : ∀ q ∈ rows, q.time ≤ T + 1 := by
        intro q hq
        have := hin3 q hq r (List.mem_flatMap.2 ⟨b, List.mem_of_getElem? hb, List.mem_of_getElem? hk⟩)
        omega
      have hpe := predict_same (L := L) h hwm hv h' hwm' hv' hs hf hN hT s rows neg hall
      rw [hp, hp'] at hpe
      cases hpe
      exact epoch_rows h hwm hv h' hwm' hv' hs hf hN hT upd bs _ s2 s2' rest rest' hin2
        (fun b hb => hbi b (by simp [hb])) hrest hrest' i k b r o o' hb hk ht ho ho'

end Two

end DeepGNN.Tgn
