import Verif.Proofs.Accept

/-
The converter refuses invalid input.
-/

namespace DeepGNN

open Spec

theorem packQ_range {x : Int} {b : Bytes} (h : packQ x = some b) : 0 ≤ x ∧ x < 2 ^ 64 := (packQ_eq_some.1 h).1

theorem packI32_range {x : Int} {b : Bytes} (h : packI32 x = some b) : -(2 ^ 31) ≤ x ∧ x < 2 ^ 31 := (packI32_eq_some.1 h).1

theorem nodeAdd_range {w w' : NodeWriter} {id typ : Int} {fs : List (Option Bytes)} (h : w.add id typ fs = some w') :
    (0 ≤ id ∧ id < 2 ^ 64) ∧ typ < 2 ^ 31 := by
  simp only [NodeWriter.add, packNode, Option.bind_eq_bind, Option.bind_eq_some_iff] at h
  obtain ⟨_, ⟨_, h1, _, _, _, h2, _⟩, _⟩ := h
  exact ⟨packQ_range h1, (packI32_range h2).2⟩

theorem edgeAdd_range {C : WeightCodec} {w w' : EdgeWriter} {dst typ weight : Int} {fs : List (Option Bytes)} {c d : Int}
    (h : w.add C dst typ weight fs c d = some w') : (0 ≤ dst ∧ dst < 2 ^ 64) ∧ typ < 2 ^ 31 := by
  simp only [EdgeWriter.add, packEdge, Option.bind_eq_bind, Option.bind_eq_some_iff] at h
  obtain ⟨_, ⟨_, h1, _, _, _, h2, _⟩, _⟩ := h
  exact ⟨packQ_range h1, (packI32_range h2).2⟩

/-- The state of the writer after the record `prev`, for any accepted input. -/
structure Reached (prev : Option Rec) (nc : Int) (nr : Option Int) (w : BinaryWriter) : Prop where
  node : w.prevNode = prev.map (·.src)
  typ : w.prevEdgeType = lastType prev
  created : w.nodeCreated = nc
  removed : ∀ b, nr = some b → w.nodeRemoved = b ∧ b ≠ -1
  src : ∀ r, prev = some r → 0 ≤ r.src ∧ r.src < 2 ^ 64

theorem addRec_reached {C : WeightCodec} {w w' : BinaryWriter} {prev : Option Rec} {nc : Int} {nr : Option Int} (ha : Reached prev nc nr w)
    (r : Rec) (h : w.addRec C r = some w') (h0 : r.dst = -1 → r.removed ≠ some 0) (h1 : r.dst ≠ -1 → r.removed ≠ some (-1)) :
    ((0 ≤ r.src ∧ r.src < 2 ^ 64) ∧ (r.dst = -1 ∨ (0 ≤ r.dst ∧ r.dst < 2 ^ 64)) ∧ r.typ < 2 ^ 31) ∧
    (∀ p, prev = some p → p.dst ≠ -1 → r.dst ≠ -1 → p.src = r.src → p.typ ≤ r.typ) ∧
    (r.dst ≠ -1 → nc ≤ r.created.getD nc ∧ removalLe (removalTime nr r.removed) nr) ∧
    Reached (some r) (if r.dst = -1 then r.created.getD 0 else nc) (if r.dst = -1 then removalTime none r.removed else nr) w' := by
  rw [BinaryWriter.addRec] at h
  split at h
  · exact absurd h (by simp)
  · rename_i hneg
    split at h
    · rename_i hd
      rw [BinaryWriter.addNodeRec] at h
      obtain ⟨n, hn, rfl⟩ := Option.map_eq_some_iff.1 h
      obtain ⟨k1, k2⟩ := nodeAdd_range hn
      refine ⟨⟨k1, .inl hd, k2⟩, fun _ _ _ hd' => absurd hd hd', fun hd' => absurd hd hd', rfl, ?_, ?_, ?_, ?_⟩
      · simp [lastType, hd]
      · simp only [if_pos hd]
        cases hc : r.created with
        | none => rfl
        | some v => simp only [pyOr, Option.getD_some]; split <;> simp_all
      · simp only [if_pos hd]
        intro b hb
        cases hc : r.removed with
        | none => rw [hc] at hb; simp [removalTime] at hb
        | some v =>
          rw [hc] at hb
          simp only [removalTime] at hb
          split at hb
          · simp at hb
          · rename_i hv
            simp only [Option.some.injEq] at hb
            subst hb
            have hv0 : ¬ v = 0 := by rintro rfl; exact h0 hd hc
            exact ⟨by simp only [pyOr, if_neg hv0], hv⟩
      · rintro _ ⟨⟩
        exact k1
    · rename_i hd
      obtain ⟨w1, hw1, h⟩ := Option.bind_eq_some_iff.1 h
      have hstart : w1.prevNode = some r.src ∧ (0 ≤ r.src ∧ r.src < 2 ^ 64) ∧ w1.nodeCreated = w.nodeCreated ∧ w1.nodeRemoved = w.nodeRemoved ∧
          (w.prevNode = some r.src → w1.prevEdgeType = w.prevEdgeType) := by
        rw [BinaryWriter.startNode] at hw1
        split at hw1
        · rename_i hp
          cases hw1
          refine ⟨hp, ?_, rfl, rfl, fun _ => rfl⟩
          rw [ha.node] at hp
          cases prev with
          | none => simp at hp
          | some q =>
            have := ha.src q rfl
            simp only [Option.map_some, Option.some.injEq] at hp
            rwa [hp] at this
        · rename_i hp
          obtain ⟨n, hn, rfl⟩ := Option.map_eq_some_iff.1 hw1
          exact ⟨rfl, (nodeAdd_range hn).1, rfl, rfl, fun h => absurd h hp⟩
      obtain ⟨s1, s2, s3, s4, s5⟩ := hstart
      rw [BinaryWriter.addEdgeRec] at h
      split at h
      · rename_i hok
        obtain ⟨e, he, rfl⟩ := Option.map_eq_some_iff.1 h
        obtain ⟨k1, k2⟩ := edgeAdd_range he
        simp only [BinaryWriter.edgeOk, Bool.and_eq_true] at hok
        obtain ⟨⟨o1, o2⟩, o3⟩ := hok
        refine ⟨⟨s2, .inr k1, k2⟩, ?_, ?_, s1, ?_, ?_, ?_, ?_⟩
        · rintro p rfl hp _ hsrc
          have hpn : w.prevNode = some r.src := by rw [ha.node]; simp [hsrc]
          rw [s5 hpn, ha.typ] at o1
          simpa [lastType, hp] using o1
        · intro _
          constructor
          · cases hc : r.created with
            | none => simp
            | some c =>
              rw [hc] at o2
              simp only [decide_eq_true_eq] at o2
              rw [s3, ha.created] at o2
              exact o2
          · cases hc : r.removed with
            | none =>
              simp only [removalTime]
              cases nr with
              | none => trivial
              | some b => exact Int.le_refl _
            | some d =>
              rw [hc] at o3
              simp only [Bool.or_eq_true, decide_eq_true_eq] at o3
              have hd1 : d ≠ -1 := by
                intro hd1
                subst hd1
                exact h1 hd hc
              simp only [removalTime, if_neg hd1]
              cases nr with
              | none => trivial
              | some b =>
                obtain ⟨q1, q2⟩ := ha.removed b rfl
                rw [s4, q1] at o3
                exact o3.resolve_left q2
        · simp [lastType, hd]
        · simp only [if_neg hd, s3]; exact ha.created
        · simp only [if_neg hd, s4]; exact ha.removed
        · rintro _ ⟨⟩
          exact s2
      · simp at h

/-- Ids and types an accepted record has. -/
def InRange (r : Rec) : Prop := (0 ≤ r.src ∧ r.src < 2 ^ 64) ∧ (r.dst = -1 ∨ (0 ≤ r.dst ∧ r.dst < 2 ^ 64)) ∧ r.typ < 2 ^ 31

theorem typesOrdered_cons {r s : Rec} {rs : List Rec} (h : r.dst ≠ -1 → s.dst ≠ -1 → r.src = s.src → r.typ ≤ s.typ)
    (hs : TypesOrdered (s :: rs)) : TypesOrdered (r :: s :: rs) := by
  intro a x y b hab
  cases a with
  | nil =>
    simp only [List.nil_append, List.cons.injEq] at hab
    obtain ⟨rfl, rfl, rfl⟩ := hab
    exact h
  | cons z a =>
    simp only [List.cons_append, List.cons.injEq] at hab
    exact hs a x y b hab.2

theorem typesOrdered_single (r : Rec) : TypesOrdered [r] := by
  intro a x y b hab
  have := congrArg List.length hab
  simp at this
  omega

theorem typesOrdered_nil : TypesOrdered [] := by
  intro a x y b hab
  simp at hab

theorem foldlM_reached {C : WeightCodec} (rs : List Rec) : ∀ {w w' : BinaryWriter} {prev : Option Rec} {nc : Int} {nr : Option Int},
    Reached prev nc nr w → rs.foldlM (BinaryWriter.addRec C) w = some w' →
    (∀ r ∈ rs, (r.dst = -1 → r.removed ≠ some 0) ∧ (r.dst ≠ -1 → r.removed ≠ some (-1))) →
    (∀ r ∈ rs, InRange r) ∧ TypesOrdered (prev.toList ++ rs) ∧ LifetimesNested nc nr rs ∧
    ∃ nc' nr', Reached ((prev.toList ++ rs).getLast?) nc' nr' w' := by
  induction rs with
  | nil =>
    intro w w' prev nc nr ha h _
    simp only [List.foldlM_nil, Option.pure_def, Option.some.injEq] at h
    subst h
    refine ⟨by simp, ?_, trivial, nc, nr, ?_⟩
    · cases prev with
      | none => exact typesOrdered_nil
      | some p => exact typesOrdered_single p
    · cases prev <;> simpa using ha
  | cons r rs ih =>
    intro w w' prev nc nr ha h hr
    rw [List.foldlM_cons] at h
    obtain ⟨w1, h1, h2⟩ := Option.bind_eq_some_iff.1 h
    obtain ⟨k1, k2, k3, k4⟩ := addRec_reached ha r h1 (hr r (by simp)).1 (hr r (by simp)).2
    obtain ⟨i1, i2, i3, i4⟩ := ih k4 h2 (fun x hx => hr x (by simp [hx]))
    refine ⟨?_, ?_, ?_, ?_⟩
    · intro x hx
      rcases List.mem_cons.1 hx with rfl | hx
      · exact k1
      · exact i1 x hx
    · cases prev with
      | none => exact i2
      | some p => exact typesOrdered_cons (k2 p rfl) i2
    · rw [LifetimesNested]
      split
      · rename_i hd; simpa [hd] using i3
      · rename_i hd; exact ⟨k3 hd, by simpa [hd] using i3⟩
    · have : (prev.toList ++ r :: rs).getLast? = ((some r).toList ++ rs).getLast? := by
        rw [List.getLast?_append]
        simp [List.getLast?_cons]
      rw [this]
      exact i4

theorem typesOrdered_join {a b : List Rec} (ha : TypesOrdered a) (hb : TypesOrdered (a.getLast?.toList ++ b)) : TypesOrdered (a ++ b) := by
  induction a with
  | nil => simpa using hb
  | cons r a ih =>
    cases a with
    | nil => simpa using hb
    | cons s a =>
      have h1 : TypesOrdered (s :: a) := fun x p q y h => ha (r :: x) p q y (by rw [h]; rfl)
      have h2 := ih h1 (by simpa [List.getLast?_cons] using hb)
      exact typesOrdered_cons (ha [] r s a rfl) h2

theorem calls_reached {C : WeightCodec} (calls : List (List Rec)) : ∀ {w w' : BinaryWriter} {past : List Rec} {nc : Int} {nr : Option Int},
    Reached past.getLast? nc nr w → TypesOrdered past → calls.foldlM (BinaryWriter.add C) w = some w' →
    (∀ r ∈ calls.flatten, (r.dst = -1 → r.removed ≠ some 0) ∧ (r.dst ≠ -1 → r.removed ≠ some (-1))) →
    (∀ r ∈ calls.flatten, InRange r) ∧ TypesOrdered (past ++ calls.flatten) ∧ (∀ c ∈ calls, LifetimesNested 0 none c) := by
  induction calls with
  | nil =>
    intro w w' past nc nr _ hp _ _
    exact ⟨by simp, by simpa using hp, by simp⟩
  | cons c calls ih =>
    intro w w' past nc nr ha hp h hr
    rw [List.foldlM_cons] at h
    obtain ⟨w1, h1, h2⟩ := Option.bind_eq_some_iff.1 h
    rw [List.flatten_cons] at hr ⊢
    rw [BinaryWriter.add] at h1
    obtain ⟨k1, k2, k3, nc', nr', k4⟩ := foldlM_reached c (w := { w with nodeCreated := 0, nodeRemoved := -1 })
      (prev := past.getLast?) (nc := 0) (nr := none)
      ⟨ha.node, ha.typ, rfl, by simp, ha.src⟩ h1 (fun r hr' => hr r (List.mem_append_left _ hr'))
    have hlast : (past.getLast?.toList ++ c).getLast? = (past ++ c).getLast? := by
      rw [List.getLast?_append, List.getLast?_append]
      cases past.getLast? <;> simp
    rw [hlast] at k4
    obtain ⟨i1, i2, i3⟩ := ih k4 (typesOrdered_join hp k2) h2 (fun r hr' => hr r (List.mem_append_right _ hr'))
    refine ⟨?_, by rwa [List.append_assoc] at i2, ?_⟩
    · intro r hr'
      rcases List.mem_append.1 hr' with hr' | hr'
      · exact k1 r hr'
      · exact i1 r hr'
    · intro x hx
      rcases List.mem_cons.1 hx with rfl | hx
      · exact k3
      · exact i3 x hx

theorem convertPartition_checks {C : WeightCodec} {wm : Option Nat} {calls : List (List Rec)} {f : PartitionFiles}
    (h : convertPartition C wm calls = some f)
    (hr : ∀ r ∈ calls.flatten, (r.dst = -1 → r.removed ≠ some 0) ∧ (r.dst ≠ -1 → r.removed ≠ some (-1))) :
    (∀ r ∈ calls.flatten, InRange r) ∧ TypesOrdered calls.flatten ∧ (∀ c ∈ calls, LifetimesNested 0 none c) := by
  rw [convertPartition_bind] at h
  obtain ⟨w, h1, -⟩ := Option.bind_eq_some_iff.1 h
  have := calls_reached calls (past := []) (nc := 0) (nr := none) ⟨rfl, rfl, rfl, by simp, by simp⟩ typesOrdered_nil h1 hr
  simpa using this

end DeepGNN
