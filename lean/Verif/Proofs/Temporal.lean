import Verif.Proofs.GraphQuery

namespace DeepGNN

/-- The creation assertion held for every edge record of an accepted call. -/
def AccOk (nc : Int) : List Rec → Prop
  | [] => True
  | r :: rs =>
    if r.dst = -1 then AccOk (pyOr r.created 0) rs
    else (∀ c, r.created = some c → nc ≤ c) ∧ AccOk nc rs

theorem addRec_acc {C : WeightCodec} {w w' : BinaryWriter} {r : Rec} (h : w.addRec C r = some w') :
    w'.nodeCreated = (if r.dst = -1 then pyOr r.created 0 else w.nodeCreated) ∧
    (r.dst ≠ -1 → ∀ c, r.created = some c → w.nodeCreated ≤ c) := by
  simp only [BinaryWriter.addRec] at h
  by_cases ht : r.typ < 0
  · simp [ht] at h
  simp only [ht, if_false] at h
  by_cases hd : r.dst = -1
  · simp only [hd, if_true, BinaryWriter.addNodeRec, Option.map_eq_some_iff] at h
    obtain ⟨node, -, rfl⟩ := h
    simp [hd]
  · simp only [hd, if_false, Option.bind_eq_some_iff] at h
    obtain ⟨w1, hw1, h⟩ := h
    have hnc : w1.nodeCreated = w.nodeCreated := by
      simp only [BinaryWriter.startNode] at hw1
      by_cases hp : w.prevNode = some r.src
      · simp only [hp, if_true, Option.some.injEq] at hw1; rw [← hw1]
      · simp only [hp, if_false, Option.map_eq_some_iff] at hw1
        obtain ⟨node, -, rfl⟩ := hw1; rfl
    simp only [BinaryWriter.addEdgeRec] at h
    by_cases hok : w1.edgeOk r = true
    · simp only [hok, if_true, Option.map_eq_some_iff] at h
      obtain ⟨edge, -, rfl⟩ := h
      simp only [hd, if_false, hnc, true_and]
      intro _ c hc
      simp only [BinaryWriter.edgeOk, hc, Bool.and_eq_true, decide_eq_true_eq, hnc] at hok
      exact hok.1.2
    · simp [hok] at h

theorem addRecs_acc {C : WeightCodec} (rs : List Rec) {w w' : BinaryWriter}
    (h : rs.foldlM (BinaryWriter.addRec C) w = some w') : AccOk w.nodeCreated rs := by
  induction rs generalizing w with
  | nil => trivial
  | cons r rs ih =>
    simp only [List.foldlM_cons, Option.bind_eq_bind, Option.bind_eq_some_iff] at h
    obtain ⟨w1, hw1, h⟩ := h
    obtain ⟨h1, h2⟩ := addRec_acc hw1
    have := ih h
    rw [h1] at this
    simp only [AccOk]
    split
    · rename_i hd; simpa [hd] using this
    · rename_i hd; simp only [hd, if_false] at this; exact ⟨h2 hd, this⟩

theorem writeCalls_acc {C : WeightCodec} (calls : List (List Rec)) {w w' : BinaryWriter}
    (h : calls.foldlM (BinaryWriter.add C) w = some w') : ∀ c ∈ calls, AccOk 0 c := by
  induction calls generalizing w with
  | nil => simp
  | cons c cs ih =>
    simp only [List.foldlM_cons, Option.bind_eq_bind, Option.bind_eq_some_iff] at h
    obtain ⟨w1, hw1, h⟩ := h
    intro d hd
    rcases List.mem_cons.1 hd with rfl | hd
    · exact addRecs_acc _ hw1
    · exact ih h d hd

theorem Built.acc {C : WeightCodec} {wm : Option Nat} {m : Meta} {parts : List (List (List Rec))}
    {g : Graph} (h : Built C wm m parts g) : ∀ c ∈ parts.flatten, AccOk 0 c := by
  obtain ⟨fs, h1, -, -⟩ := h.convert
  clear h
  induction parts generalizing fs with
  | nil => simp
  | cons p ps ih =>
    simp only [List.mapM_cons, Option.bind_eq_bind, Option.bind_eq_some_iff, Option.pure_def,
      Option.some.injEq] at h1
    obtain ⟨f, hf, fs', hfs, rfl⟩ := h1
    simp only [convertPartition, Option.bind_eq_bind, Option.bind_eq_some_iff] at hf
    obtain ⟨w, hw, -⟩ := hf
    intro c hc
    rw [List.flatten_cons, List.mem_append] at hc
    rcases hc with hc | hc
    · exact writeCalls_acc p hw c hc
    · exact ih fs' hfs c hc

/-- Lifetime of a stored edge in the terms of the specification. -/
def toTimed (x : Int × GEdge) : Spec.TimedEdge :=
  { src := x.1, dst := x.2.dst, typ := x.2.typ, weight := x.2.weight, created := x.2.created,
    removed := if x.2.removed = -1 then none else some x.2.removed }

theorem toTimed_alive (x : Int × GEdge) (t : Int) : (toTimed x).aliveAt t = liveB t x.2 := by
  simp only [Spec.TimedEdge.aliveAt, toTimed, liveB]
  by_cases h : x.2.removed = -1
  · simp [h]; rfl
  · simp only [h, if_false, or_false, gt_iff_lt, Bool.decide_and]; rfl

theorem removed_timed (rm : Option Int) (nr : Int) (h : rm ≠ some 0) :
    (if pyOr rm nr = -1 then none else some (pyOr rm nr)) =
      Spec.removalTime (if nr = -1 then none else some nr) rm := by
  cases rm with
  | none => rfl
  | some v =>
    have : v ≠ 0 := fun e => h (by rw [e])
    simp [pyOr, this, Spec.removalTime]

theorem effEdges_timed (rs : List Rec) (nc : Int) (nr : Int) (hnc : 0 ≤ nc) (hacc : AccOk nc rs)
    (hc : ∀ r ∈ rs, ∀ c, r.created = some c → 0 ≤ c) (hr : ∀ r ∈ rs, r.removed ≠ some 0) :
    (effEdges nc nr rs).map toTimed = Spec.timedEdges nc (if nr = -1 then none else some nr) rs := by
  induction rs generalizing nc nr with
  | nil => rfl
  | cons r rs ih =>
    have hc0 := hc r (by simp)
    have hr0 := hr r (by simp)
    have hc' : ∀ r ∈ rs, ∀ c, r.created = some c → 0 ≤ c := fun x hx => hc x (by simp [hx])
    have hr' : ∀ r ∈ rs, r.removed ≠ some 0 := fun x hx => hr x (by simp [hx])
    simp only [effEdges, Spec.timedEdges]
    simp only [AccOk] at hacc
    by_cases hd : r.dst = -1
    · simp only [hd, if_true] at hacc ⊢
      have e1 : pyOr r.created 0 = r.created.getD 0 := by
        cases h : r.created with
        | none => rfl
        | some c => simp only [pyOr, Option.getD_some]; split <;> omega
      have e2 : 0 ≤ pyOr r.created 0 := by
        rw [e1]; cases h : r.created with
        | none => simp
        | some c => exact hc0 c h
      rw [ih _ _ e2 hacc hc' hr', e1]
      rw [removed_timed r.removed (-1) hr0]; rfl
    · simp only [hd, if_false] at hacc ⊢
      rw [List.map_cons, ih _ _ hnc hacc.2 hc' hr']
      congr 1
      simp only [toTimed, effEdge, Spec.TimedEdge.mk.injEq, true_and]
      constructor
      · cases h : r.created with
        | none => rfl
        | some c =>
          have := hacc.1 c h
          have := hc0 c h
          simp only [pyOr, Option.getD_some]; split <;> omega
      · exact removed_timed r.removed nr hr0

/-- The lifetimes of the stored edges are those of the specification. -/
theorem timed_calls (calls : List (List Rec)) (hacc : ∀ c ∈ calls, AccOk 0 c)
    (hc : ∀ r ∈ calls.flatten, ∀ c, r.created = some c → 0 ≤ c)
    (hr : ∀ r ∈ calls.flatten, r.removed ≠ some 0) :
    calls.flatMap (Spec.timedEdges 0 none) = (calls.flatMap (effEdges 0 (-1))).map toTimed := by
  rw [List.map_flatMap, List.flatMap_def, List.flatMap_def]
  congr 1
  apply List.map_congr_left
  intro c hcm
  rw [effEdges_timed c 0 (-1) (by omega) (hacc c hcm)
    (fun r hr => hc r (List.mem_flatten.2 ⟨c, hcm, hr⟩))
    (fun r hr' => hr r (List.mem_flatten.2 ⟨c, hcm, hr'⟩))]
  rfl

/-- The stored edges of `n` alive at `t` are those of the specification. -/
theorem inputEdges_neighborsAt (parts : List (List (List Rec))) (n t : Int) (types : List Int)
    (hacc : ∀ c ∈ parts.flatten, AccOk 0 c)
    (hc : ∀ r ∈ Spec.allRecords parts, ∀ c, r.created = some c → 0 ≤ c)
    (hr : ∀ r ∈ Spec.allRecords parts, r.removed ≠ some 0) :
    ((inputEdges parts n types).filter (liveB t)).map gnbr = Spec.neighborsAt parts n t types := by
  simp only [inputEdges, Spec.neighborsAt, Spec.allTimedEdges]
  simp only [Spec.allRecords] at hc hr
  generalize parts.flatten = calls at *
  have key := timed_calls calls hacc hc hr
  rw [key]
  generalize calls.flatMap (effEdges 0 (-1)) = L
  rw [List.filter_map, List.filter_map, List.filter_filter, List.map_map, List.map_map]
  have : (fun a : Int × GEdge => (liveB t ∘ fun x => x.snd) a && decide (a.fst = n ∧ a.snd.typ ∈ types)) =
      ((fun e : Spec.TimedEdge => decide (e.src = n ∧ e.typ ∈ types ∧ e.aliveAt t = true)) ∘ toTimed) := by
    funext a
    have h1 := toTimed_alive a t
    simp only [Function.comp, h1]
    simp only [toTimed]
    cases liveB t a.2 <;> simp
  rw [this]
  rfl

end DeepGNN
