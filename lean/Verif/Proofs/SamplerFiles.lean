import Verif.Proofs.Sampler
import Verif.Props.C21

namespace DeepGNN

theorem mem_distinct {α} [DecidableEq α] (x : α) : ∀ l : List α, x ∈ distinct l ↔ x ∈ l
  | [] => by simp [distinct]
  | a :: l => by
    simp only [distinct]
    split
    · rename_i h
      rw [mem_distinct x l, List.mem_cons]
      exact ⟨Or.inr, fun h' => h'.elim (fun e => by rw [e]; exact (mem_distinct a l).1 h) id⟩
    · rw [List.mem_cons, List.mem_cons, mem_distinct x l]

theorem nodup_distinct {α} [DecidableEq α] : ∀ l : List α, (distinct l).Nodup
  | [] => by simp [distinct]
  | a :: l => by
    simp only [distinct]
    split
    · exact nodup_distinct l
    · rename_i h
      exact List.nodup_cons.2 ⟨h, nodup_distinct l⟩

/-- An alias file of a list `l` of elements and weights, `one` being the sum of the weights. -/
structure FileOf {α} [DecidableEq α] (l : List (α × Int)) (x : Nat × List (AliasRec α)) : Prop where
  one : ((l.map (·.2)).sum = (x.1 : Int))
  pos : l ≠ [] → 0 < x.1
  len : x.2.length = l.length
  elements : ∀ y, y ∈ uniformElements x.1 x.2 ↔ ∃ e ∈ l, e.1 = y
  outcomes : ∀ q y, y ∈ C21_outcomes q x.1 x.2 → ∃ e ∈ l, e.1 = y ∧ 0 < e.2

theorem aliasFile_fileOf {α} [DecidableEq α] (C : WeightCodec) (zero : α) (l : List (α × Int))
    (hv : ∀ x ∈ l, C.Valid x.2 ∧ 0 ≤ x.2) (hpos : l ≠ [] → 0 < (l.map (·.2)).sum) :
    ∃ f, aliasFile C zero l = some f ∧ FileOf l ((l.map fun x : α × Int => x.2).sum.toNat, f) := by
  by_cases hl : l = []
  · subst hl
    refine ⟨[], ?_, ?_⟩
    · simp [aliasFile, vose_nil]
    · refine ⟨rfl, by simp, rfl, ?_, ?_⟩
      · simp [uniformElements, distinct]
      · simp [C21_outcomes]
  · have hp := hpos hl
    obtain ⟨one, hone⟩ : ∃ one : Nat, (l.map (·.2)).sum = one := ⟨(l.map fun x : α × Int => x.2).sum.toNat, by omega⟩
    obtain ⟨f, h1, h2, h3, h4, h5⟩ := aliasFile_spec C zero l hv one hone (by omega)
    have ho : (l.map fun x : α × Int => x.2).sum.toNat = one := by omega
    refine ⟨f, h1, ?_⟩
    rw [ho]
    refine ⟨hone, fun _ => by simp only; omega, h2, ?_, ?_⟩
    · intro y
      simp only [uniformElements, mem_distinct, List.mem_flatMap, List.mem_cons]
      constructor
      · rintro ⟨r, hr, rfl | h⟩
        · obtain ⟨i, hi, rfl⟩ := List.getElem_of_mem hr
          have := h3 i (by omega)
          rw [List.getElem?_eq_getElem hi, List.getElem?_eq_getElem (by omega)] at this
          simp only [Option.map_some, Option.some.injEq] at this
          exact ⟨_, List.getElem_mem (by omega), this.symm⟩
        · by_cases ht : r.threshold < one
          · simp only [ht, if_true, List.mem_singleton] at h
            obtain ⟨e, he, h6⟩ := (h4 r hr).2.2 ht
            exact ⟨e, he, by rw [h, h6]⟩
          · simp [ht] at h
      · rintro ⟨e, he, rfl⟩
        obtain ⟨i, hi, rfl⟩ := List.getElem_of_mem he
        have := h3 i hi
        rw [List.getElem?_eq_getElem (by omega), List.getElem?_eq_getElem hi] at this
        simp only [Option.map_some, Option.some.injEq] at this
        exact ⟨_, List.getElem_mem (by omega : i < f.length), Or.inl this.symm⟩
    · intro q y hy
      have h6 := List.count_pos_iff.2 hy
      have h7 := h5 q y
      apply weightOf_pos
      rcases Int.lt_or_le 0 (Spec.weightOf l y) with h | h
      · exact h
      · have := Int.mul_nonpos_of_nonneg_of_nonpos (a := (l.length : Int) * q) (by apply Int.mul_nonneg <;> omega) h
        simp only [C21_outcomes] at h6
        omega

theorem mapM_exists {α β} (f : α → Option β) (P : α → β → Prop) : ∀ (l : List α), (∀ a ∈ l, ∃ b, f a = some b ∧ P a b) →
    ∃ bs, l.mapM f = some bs ∧ bs.length = l.length ∧ ∀ y ∈ l.zip bs, P y.1 y.2
  | [], _ => ⟨[], by simp, rfl, by simp⟩
  | a :: l, h => by
    obtain ⟨b, h1, h2⟩ := h a (by simp)
    obtain ⟨bs, h3, h4, h5⟩ := mapM_exists f P l fun a ha => h a (by simp [ha])
    refine ⟨b :: bs, by simp [List.mapM_cons, h1, h3], by simp [h4], ?_⟩
    intro y hy
    rw [List.zip_cons_cons, List.mem_cons] at hy
    rcases hy with rfl | hy
    · exact h2
    · exact h5 y hy

/-- Requested types that exist. -/
def knownTypes (typeCount : Nat) (types : List Int) : List Int :=
  (sortUnique types).filter fun t => decide (0 ≤ t ∧ t < (typeCount : Int))

theorem mem_knownTypes {typeCount : Nat} {types : List Int} {t : Int} :
    t ∈ knownTypes typeCount types ↔ t ∈ types ∧ 0 ≤ t ∧ t < (typeCount : Int) := by
  simp [knownTypes, sortUnique_mem]

theorem nodup_knownTypes (typeCount : Nat) (types : List Int) : (knownTypes typeCount types).Nodup := by
  have := (sortUnique_sorted types).filter fun t => decide (0 ≤ t ∧ t < (typeCount : Int))
  exact this.imp fun h => by omega

/-- A sampler over files: every known requested type with its partitions, each with its contents. -/
theorem createSampler_spec {α} [DecidableEq α] (typeCount : Nat) (types : List Int) {β : Type} (parts : List β)
    (file : β → Int → Option (Nat × List (AliasRec α))) (contents : β → Int → List (α × Int))
    (mk : Nat × List (AliasRec α) → SamplerPart α) (els : Nat × List (AliasRec α) → List α)
    (h : ∀ p ∈ parts, ∀ t ∈ knownTypes typeCount types, ∃ f, file p t = some f ∧ FileOf (contents p t) f) :
    ∃ ts : List (Int × List (β × (Nat × List (AliasRec α)))),
      createSampler typeCount (fun t => (parts.mapM fun p => file p t).map fun fs => fs.map mk) types =
        some (SamplerSpec.sampler (ts.map fun t => (t.1, t.2.map fun p => (mk p.2, els p.2)))) ∧
      ts.map (·.1) = knownTypes typeCount types ∧
      ∀ t ∈ ts, t.2.map (·.1) = parts ∧ ∀ p ∈ t.2, FileOf (contents p.1 t.1) p.2 := by
  obtain ⟨ts, h1, h2, h3⟩ := mapM_exists (fun t => (parts.mapM fun p => file p t).map fun fs => (t, parts.zip fs))
    (fun t y => y.1 = t ∧ y.2.map (·.1) = parts ∧ (parts.mapM fun p => file p t) = some (y.2.map (·.2)) ∧
      ∀ p ∈ y.2, FileOf (contents p.1 t) p.2) (knownTypes typeCount types) (by
    intro t ht
    obtain ⟨fs, e1, e2, e3⟩ := mapM_exists (fun p => file p t) (fun p f => FileOf (contents p t) f) parts
      fun p hp => h p hp t ht
    refine ⟨(t, parts.zip fs), by rw [e1]; rfl, rfl, ?_, ?_, e3⟩
    · rw [List.map_fst_zip (by omega)]
    · rw [e1, List.map_snd_zip (by omega)])
  have hz : ∀ (l : List Int) (ts : List (Int × List (β × (Nat × List (AliasRec α))))), ts.length = l.length →
      (∀ y ∈ l.zip ts, (fun t (y : Int × List (β × (Nat × List (AliasRec α)))) => y.1 = t ∧ y.2.map (·.1) = parts ∧
        (parts.mapM fun p => file p t) = some (y.2.map (·.2)) ∧
        ∀ p ∈ y.2, FileOf (contents p.1 t) p.2) y.1 y.2) →
      l.mapM (fun t => ((parts.mapM fun p => file p t).map fun fs => fs.map mk).map fun ps => (t, ps)) =
          some (SamplerSpec.sampler (ts.map fun t => (t.1, t.2.map fun p => (mk p.2, els p.2)))) ∧ ts.map (·.1) = l ∧
        ∀ t ∈ ts, t.2.map (·.1) = parts ∧ ∀ p ∈ t.2, FileOf (contents p.1 t.1) p.2 := by
    intro l
    induction l with
    | nil => intro ts hl _; cases ts with
      | nil => simp [SamplerSpec.sampler]
      | cons => simp at hl
    | cons a l ih =>
      intro ts hl hy
      cases ts with
      | nil => simp at hl
      | cons b ts =>
        obtain ⟨e1, e2, e3⟩ := ih ts (by simpa using hl) fun y hy' => hy y (by simp [hy'])
        obtain ⟨f1, f2, f3, f4⟩ := hy (a, b) (by simp)
        simp only at f1 f2 f3 f4
        refine ⟨?_, by simp [f1, e2], ?_⟩
        · rw [List.mapM_cons, f3, e1]
          simp [SamplerSpec.sampler, f1, Function.comp_def]
        · intro t ht
          rcases List.mem_cons.1 ht with rfl | ht
          · rw [f1]; exact ⟨f2, f4⟩
          · exact e3 t ht
  exact ⟨ts, hz _ _ h2 h3⟩

end DeepGNN
