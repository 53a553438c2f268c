import Verif.Spec.RemoteLookups
import Verif.Props.C13
import Verif.Props.C09

/-
Interleaved writes, node types and edge features of servers.
-/

namespace DeepGNN

open Spec

theorem interleaved_mem {α : Type} {seqs : List (List α)} {steps : List α} (h : Interleaved seqs steps) (w : α) :
    w ∈ steps ↔ ∃ l ∈ seqs, w ∈ l := by
  obtain ⟨T, rfl, hT⟩ := h
  constructor
  · intro hw
    obtain ⟨x, hx, rfl⟩ := List.mem_map.1 hw
    have : x.2 ∈ seqs.getD x.1 [] := by
      rw [← hT x.1]
      exact List.mem_map.2 ⟨x, List.mem_filter.2 ⟨hx, by simp⟩, rfl⟩
    rw [List.getD_eq_getElem?_getD] at this
    cases hg : seqs[x.1]? with
    | none => rw [hg] at this; simp at this
    | some l => rw [hg] at this; exact ⟨l, List.mem_of_getElem? hg, this⟩
  · rintro ⟨l, hl, hw⟩
    obtain ⟨i, hi, rfl⟩ := List.mem_iff_getElem.1 hl
    have h1 := hT i
    rw [List.getD_eq_getElem?_getD, List.getElem?_eq_getElem hi, Option.getD_some] at h1
    rw [← h1] at hw
    obtain ⟨x, hx, rfl⟩ := List.mem_map.1 hw
    exact List.mem_map.2 ⟨x, (List.mem_filter.1 hx).1, rfl⟩

theorem runSteps_length {α : Type} (steps : List (Step α)) (s : List α × List Bool) :
    (runSteps s steps).1.length = s.1.length ∧ (runSteps s steps).2.length = s.2.length := by
  induction steps generalizing s with
  | nil => exact ⟨rfl, rfl⟩
  | cons w ws ih =>
    have := ih (Step.run s w)
    rw [runSteps, List.foldl_cons]
    cases w <;> simpa [Step.run, runSteps] using this

/-- Every element of the output is written by one of the steps or untouched. -/
theorem runSteps_out {α : Type} (steps : List (Step α)) (s : List α × List Bool) (p : Nat) (hp : p < s.1.length) :
    (∃ v, Step.put p v ∈ steps ∧ (runSteps s steps).1[p]? = some v) ∨
    ((∀ v, Step.put p v ∉ steps) ∧ (runSteps s steps).1[p]? = s.1[p]?) := by
  induction steps generalizing s with
  | nil => right; exact ⟨by simp, rfl⟩
  | cons w ws ih =>
    have hl : p < (Step.run s w).1.length := by cases w <;> simpa [Step.run] using hp
    have he : runSteps s (w :: ws) = runSteps (Step.run s w) ws := rfl
    rw [he]
    rcases ih (Step.run s w) hl with ⟨v, h1, h2⟩ | ⟨h1, h2⟩
    · exact Or.inl ⟨v, List.mem_cons_of_mem _ h1, h2⟩
    · cases w with
      | mark i =>
        right
        refine ⟨fun v hv => ?_, h2⟩
        rcases List.mem_cons.1 hv with h | h
        · cases h
        · exact h1 v h
      | put q v =>
        by_cases hq : q = p
        · subst hq
          left
          refine ⟨v, List.mem_cons_self .., ?_⟩
          rw [h2]
          simp [Step.run, hp]
        · right
          refine ⟨fun u hu => ?_, ?_⟩
          · rcases List.mem_cons.1 hu with h | h
            · simp only [Step.put.injEq] at h
              exact hq h.1.symm
            · exact h1 u h
          · rw [h2]
            simp [Step.run, List.getElem?_set_ne hq]

/-- The flags at the end. -/
theorem runSteps_found {α : Type} (steps : List (Step α)) (s : List α × List Bool) (i : Nat) (hi : i < s.2.length) :
    (runSteps s steps).2[i]? = some true ∨ ((∀ v, v ∈ steps → v ≠ Step.mark i) ∧ (runSteps s steps).2[i]? = s.2[i]?) := by
  induction steps generalizing s with
  | nil => right; exact ⟨by simp, rfl⟩
  | cons w ws ih =>
    have hl : i < (Step.run s w).2.length := by cases w <;> simpa [Step.run] using hi
    have he : runSteps s (w :: ws) = runSteps (Step.run s w) ws := rfl
    rw [he]
    rcases ih (Step.run s w) hl with h | ⟨h1, h2⟩
    · exact Or.inl h
    · cases w with
      | put q v =>
        right
        refine ⟨fun u hu => ?_, h2⟩
        rcases List.mem_cons.1 hu with h | h
        · subst h; simp
        · exact h1 u h
      | mark j =>
        by_cases hj : j = i
        · subst hj
          left
          rw [h2]
          simp [Step.run, hi]
        · right
          refine ⟨fun u hu => ?_, ?_⟩
          · rcases List.mem_cons.1 hu with h | h
            · subst h
              simpa using hj
            · exact h1 u h
          · rw [h2]
            simp [Step.run, List.getElem?_set_ne hj]

theorem runSteps_mark {α : Type} (steps : List (Step α)) (s : List α × List Bool) (i : Nat) (hi : i < s.2.length)
    (hn : s.2[i]? = some false) (ht : (runSteps s steps).2[i]? = some true) : Step.mark i ∈ steps := by
  induction steps generalizing s with
  | nil =>
    have : (runSteps s ([] : List (Step α))).2[i]? = s.2[i]? := rfl
    rw [this, hn] at ht
    cases ht
  | cons w ws ih =>
    have hl : i < (Step.run s w).2.length := by cases w <;> simpa [Step.run] using hi
    by_cases hw : w = Step.mark i
    · subst hw; exact List.mem_cons_self ..
    · refine List.mem_cons_of_mem _ (ih (Step.run s w) hl ?_ ht)
      cases w with
      | put q v => exact hn
      | mark j =>
        have hj : j ≠ i := fun h => hw (by rw [h])
        simpa [Step.run, List.getElem?_set_ne hj] using hn

/-- All flags are unset at the start: exactly the marked ones are set at the end. -/
theorem runSteps_flag {α : Type} (steps : List (Step α)) (out : List α) (n i : Nat) (hi : i < n) :
    ∃ b, (runSteps (out, List.replicate n false) steps).2[i]? = some b ∧ (b = true ↔ Step.mark i ∈ steps) := by
  have h0 : (List.replicate n false)[i]? = some false := by simp [hi]
  rcases runSteps_found steps (out, List.replicate n false) i (by simpa using hi) with h1 | ⟨h1, h2⟩
  · exact ⟨true, h1, by simpa using runSteps_mark steps _ i (by simpa using hi) h0 h1⟩
  · refine ⟨false, by rw [h2]; exact h0, ?_⟩
    simp only [Bool.false_eq_true, false_iff]
    exact fun h => h1 _ h rfl

/-! Node types -/

variable {C : WeightCodec} {wm : Option Nat} {m : Meta} {parts : List (List (List Rec))} {g : Graph} {items : List Item}

theorem GraphOk.serveType (h : GraphOk C m g items parts) (n : Int) :
    g.serveType n = some (((nodeTypes parts).find? (fun x => x.1 = n)).map (·.2)) := by
  obtain ⟨es, h1, h2⟩ := h.mapEntries n (fun x => x.1.nodeTypes[x.2]?) (fun b => b.typ) (by
    intro it hit x hx _
    rw [(h.ok it hit).loaded.nodeTypes]
    rw [List.mem_zipIdx_iff_getElem?] at hx
    rw [List.getElem?_map, hx]; rfl)
  have h2' : es.mapM (fun (x : Partition × Nat) => x.1.nodeTypes[x.2]?) = some (storedTypes items n) := h2
  have h3 := (entries_items h.parts_eq h.inv n).2
  have h4 := h.storedTypes_eq n
  have h5 : ((nodeTypes parts).find? (fun x => x.1 = n)).map (·.2) = (storedTypes items n).find? (· ≠ -1) := by
    rw [← List.head?_filter, ← List.head?_filter, ← List.head?_map, ← h4]
  rw [h5]
  simp only [Graph.serveType]
  cases hm : g.nodeMap n with
  | none =>
    have : storedTypes items n = [] := by
      simp only [storedTypes, List.flatMap_eq_nil_iff]
      intro it hit
      rw [List.filter_eq_nil_iff.2]
      · rfl
      · intro b hb
        simpa using (h3.1 hm) it hit b hb
    rw [this]
    rfl
  | some i =>
    simp only [h1, Option.bind_some, h2', Option.map_some]

/-- Writes of the callback for the reply of one server: only types of node records of the node at that position. -/
theorem GraphOk.serveTypes (h : GraphOk C m g items parts) (nodes : List Int) (i : Nat) :
    ∃ r, g.serveTypes i nodes = some r ∧
      (∀ p v, Step.put p v ∈ typeSteps r ↔ ∃ k n, p = i + k ∧ nodes[k]? = some n ∧
        (nodeTypes parts).find? (fun x => x.1 = n) = some (n, v)) ∧
      (∀ p, Step.mark p ∈ typeSteps r ↔ ∃ k n v, p = i + k ∧ nodes[k]? = some n ∧
        (nodeTypes parts).find? (fun x => x.1 = n) = some (n, v)) := by
  induction nodes generalizing i with
  | nil => exact ⟨⟨[], []⟩, rfl, by simp [typeSteps], by simp [typeSteps]⟩
  | cons n ns ih =>
    obtain ⟨r, h1, h2, h3⟩ := ih (i + 1)
    rw [Graph.serveTypes, h.serveType, Option.bind_some, h1, Option.map_some]
    have hshift : ∀ (P : Int → Prop) p, (∃ k n', p = i + k ∧ (n :: ns)[k]? = some n' ∧ P n') ↔
        (p = i ∧ P n) ∨ ∃ k n', p = i + 1 + k ∧ ns[k]? = some n' ∧ P n' := by
      intro P p
      constructor
      · rintro ⟨k, n', rfl, hk, hP⟩
        cases k with
        | zero =>
          rw [List.getElem?_cons_zero, Option.some.injEq] at hk
          subst hk
          exact Or.inl ⟨rfl, hP⟩
        | succ k => exact Or.inr ⟨k, n', by omega, by simpa using hk, hP⟩
      · rintro (⟨rfl, hP⟩ | ⟨k, n', rfl, hk, hP⟩)
        · exact ⟨0, n, rfl, rfl, hP⟩
        · exact ⟨k + 1, n', by omega, by simpa using hk, hP⟩
    have hmark : ∀ p, (∃ k n' v, p = i + k ∧ (n :: ns)[k]? = some n' ∧ (nodeTypes parts).find? (fun x => x.1 = n') = some (n', v)) ↔
        (p = i ∧ ∃ v, (nodeTypes parts).find? (fun x => x.1 = n) = some (n, v)) ∨
          ∃ k n' v, p = i + 1 + k ∧ ns[k]? = some n' ∧ (nodeTypes parts).find? (fun x => x.1 = n') = some (n', v) := by
      intro p
      have := hshift (fun n' => ∃ v, (nodeTypes parts).find? (fun x => x.1 = n') = some (n', v)) p
      simpa only [exists_and_left] using this
    refine ⟨_, rfl, ?_, ?_⟩
    · intro p v
      rw [hshift (fun n' => (nodeTypes parts).find? (fun x => x.1 = n') = some (n', v))]
      cases hf : (nodeTypes parts).find? (fun x => x.1 = n) with
      | none => simpa using h2 p v
      | some x =>
        obtain ⟨a, t⟩ := x
        have ha : a = n := by simpa using List.find?_some hf
        subst ha
        have := h2 p v
        simp only [typeSteps] at this
        simp only [Option.map_some, typeSteps, List.zip_cons_cons, List.flatMap_cons, List.mem_append, this,
          List.mem_cons, Step.put.injEq, List.not_mem_nil, or_false, reduceCtorEq, Option.some.injEq, Prod.mk.injEq, true_and,
          eq_comm (a := t)]
    · intro p
      rw [hmark]
      cases hf : (nodeTypes parts).find? (fun x => x.1 = n) with
      | none => simpa using h3 p
      | some x =>
        obtain ⟨a, t⟩ := x
        have ha : a = n := by simpa using List.find?_some hf
        subst ha
        have := h3 p
        simp only [typeSteps] at this
        simp only [Option.map_some, typeSteps, List.zip_cons_cons, List.flatMap_cons, List.mem_append, this,
          List.mem_cons, Step.mark.injEq, List.not_mem_nil, or_false, reduceCtorEq, false_or, Option.some.injEq, Prod.mk.injEq,
          true_and, exists_eq', and_true]

end DeepGNN
