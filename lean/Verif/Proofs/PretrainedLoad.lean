import Verif.Spec.PretrainedLoad

/-
Lemmas about the loading of pretrained weights.
-/

namespace DeepGNN.Pretrained
open Spec

variable {V : Type}

theorem lookup_filter (o q : Key) : ∀ d : List (Key × V),
    (d.filter fun e => e.1 ≠ o).lookup q = if q = o then none else d.lookup q
  | [] => by simp
  | (k, v) :: d => by
    have ih := lookup_filter o q d
    by_cases hk : k = o
    · rw [List.filter_cons_of_neg (by simp [hk]), ih]
      by_cases hq : q = o
      · rw [if_pos hq, if_pos hq]
      · have : (q == k) = false := by simp [hk, hq]
        rw [if_neg hq, if_neg hq, List.lookup_cons, this]
    · rw [List.filter_cons_of_pos (by simp [hk]), List.lookup_cons, List.lookup_cons, ih]
      by_cases hq : q = o
      · have : (q == k) = false := by rw [hq]; simpa using fun h : o = k => hk h.symm
        rw [this, if_pos hq]
      · simp [hq]

theorem lookup_step (d : List (Key × V)) (o n q : Key) (v : V) :
    (setKey (d.filter fun e => e.1 ≠ o) n v).lookup q = if q = n then some v else if q = o then none else d.lookup q := by
  rw [setKey, List.lookup_cons]
  by_cases h : q = n
  · simp [h]
  · have : (q == n) = false := by simpa using h
    rw [this, if_neg h]
    show (List.filter _ _).lookup q = _
    rw [lookup_filter n q, if_neg h, lookup_filter o q]

theorem renameAll_lookup : ∀ (ps : List (Key × Key)) (d : List (Key × V)),
    (ps.map (·.1)).Nodup → (ps.map (·.2)).Nodup → (∀ p ∈ ps, p.2 ∉ ps.map (·.1)) → (∀ p ∈ ps, (d.lookup p.1).isSome) →
    ∃ d', renameAll ps d = some d' ∧ (∀ p ∈ ps, d'.lookup p.2 = d.lookup p.1) ∧
      (∀ p ∈ ps, d'.lookup p.1 = none) ∧ ∀ q, q ∉ ps.map (·.1) → q ∉ ps.map (·.2) → d'.lookup q = d.lookup q
  | [], d, _, _, _, _ => ⟨d, rfl, by simp, by simp, fun _ _ _ => rfl⟩
  | (o, n) :: ps, d, h1, h2, h3, h4 => by
    obtain ⟨v, hv⟩ := Option.isSome_iff_exists.1 (h4 (o, n) (by simp))
    simp only [List.map_cons, List.nodup_cons] at h1 h2
    have hn := h3 (o, n) (by simp)
    simp only [List.map_cons, List.mem_cons, not_or] at hn
    have hkeep : ∀ p ∈ ps, (setKey (d.filter fun e => e.1 ≠ o) n v).lookup p.1 = d.lookup p.1 := by
      intro p hp
      have hp1 : p.1 ∈ ps.map (·.1) := List.mem_map.2 ⟨p, hp, rfl⟩
      have ha : p.1 ≠ n := fun he => hn.2 (he ▸ hp1)
      have hb : p.1 ≠ o := fun he => h1.1 (he ▸ hp1)
      rw [lookup_step, if_neg ha, if_neg hb]
    obtain ⟨d', e1, e2, e3, e4⟩ := renameAll_lookup ps (setKey (d.filter fun e => e.1 ≠ o) n v) h1.2 h2.2
      (fun p hp hm => h3 p (List.mem_cons_of_mem _ hp) (List.mem_cons_of_mem _ hm))
      (fun p hp => by rw [hkeep p hp]; exact h4 p (List.mem_cons_of_mem _ hp))
    refine ⟨d', by rw [renameAll, hv]; exact e1, ?_, ?_, ?_⟩
    · intro p hp
      rcases List.mem_cons.1 hp with rfl | hp
      · rw [e4 n hn.2 h2.1, lookup_step, if_pos rfl, hv]
      · rw [e2 p hp, hkeep p hp]
    · intro p hp
      rcases List.mem_cons.1 hp with rfl | hp
      · have ho : o ∉ ps.map (·.2) := by
          intro hm
          obtain ⟨p, hp, hpe⟩ := List.mem_map.1 hm
          exact h3 p (List.mem_cons_of_mem _ hp) (by simp [hpe])
        rw [e4 o h1.1 ho, lookup_step, if_neg (fun he => hn.1 he.symm), if_pos rfl]
      · exact e3 p hp
    · intro q hq1 hq2
      simp only [List.map_cons, List.mem_cons, not_or] at hq1 hq2
      rw [e4 q hq1.2 hq2.2, lookup_step, if_neg hq2.1, if_neg hq1.1]

theorem newKey_eq {k : Key} (h : ¬(contains "gamma".toList k = true ∧ contains "beta".toList k = true)) :
    (IsOld k → newKey k = some (today k)) ∧ (¬IsOld k → newKey k = none ∧ today k = k) := by
  rw [newKey, today, IsOld]
  by_cases hg : contains "gamma".toList k = true
  · by_cases hb : contains "beta".toList k = true
    · exact absurd ⟨hg, hb⟩ h
    · simp only [hg, hb, if_true]; simp
  · by_cases hb : contains "beta".toList k = true
    · simp only [hg, hb, if_true]; simp
    · simp only [hg, hb]; simp

theorem mem_lookup {k : Key} {v : V} : ∀ {d : List (Key × V)}, (d.map (·.1)).Nodup → (d.lookup k = some v ↔ (k, v) ∈ d)
  | [], _ => by simp
  | (a, b) :: d, h => by
    simp only [List.map_cons, List.nodup_cons] at h
    rw [List.lookup_cons]
    by_cases hk : k = a
    · subst hk
      simp only [beq_self_eq_true, Option.some.injEq, List.mem_cons, Prod.mk.injEq, true_and]
      constructor
      · exact fun hb => Or.inl hb.symm
      · rintro (hb | hm)
        · exact hb.symm
        · exact absurd (List.mem_map.2 ⟨_, hm, rfl⟩) h.1
    · have : (k == a) = false := by simpa using hk
      rw [this]
      simp only [List.mem_cons, Prod.mk.injEq, hk, false_and, false_or]
      exact mem_lookup h.2

theorem lookup_some_mem {k : Key} {v : V} : ∀ {d : List (Key × V)}, d.lookup k = some v → (k, v) ∈ d
  | [], h => by simp at h
  | (a, b) :: d, h => by
    rw [List.lookup_cons] at h
    by_cases hk : k = a
    · subst hk
      simp only [beq_self_eq_true, Option.some.injEq] at h
      simp [h]
    · have : (k == a) = false := by simpa using hk
      rw [this] at h
      exact List.mem_cons_of_mem _ (lookup_some_mem h)

theorem mem_lookup_isSome {k : Key} : ∀ {d : List (Key × V)}, (d.lookup k).isSome ↔ k ∈ d.map (·.1)
  | [] => by simp
  | (a, b) :: d => by
    rw [List.lookup_cons]
    by_cases hk : k = a
    · simp [hk]
    · have : (k == a) = false := by simpa using hk
      rw [this]
      simp only [List.map_cons, List.mem_cons, hk, false_or]
      exact mem_lookup_isSome

theorem mem_oldNew {sd : List (Key × V)} {o n : Key} : (o, n) ∈ oldNew sd ↔ o ∈ sd.map (·.1) ∧ newKey o = some n := by
  rw [oldNew, List.mem_filterMap]
  constructor
  · rintro ⟨e, he, h⟩
    obtain ⟨m, h1, h2⟩ := Option.map_eq_some_iff.1 h
    simp only [Prod.mk.injEq] at h2
    obtain ⟨rfl, rfl⟩ := h2
    exact ⟨List.mem_map.2 ⟨e, he, rfl⟩, h1⟩
  · rintro ⟨h1, h2⟩
    obtain ⟨e, he, rfl⟩ := List.mem_map.1 h1
    exact ⟨e, he, by rw [h2]; rfl⟩

theorem oldNew_fst_nodup : ∀ {sd : List (Key × V)}, (sd.map (·.1)).Nodup → ((oldNew sd).map (·.1)).Nodup
  | [], _ => by simp [oldNew]
  | e :: sd, h => by
    simp only [List.map_cons, List.nodup_cons] at h
    have ih := oldNew_fst_nodup h.2
    cases hn : newKey e.1 with
    | none =>
      have : oldNew (e :: sd) = oldNew sd := by rw [oldNew, List.filterMap_cons_none (by rw [hn]; rfl)]; rfl
      rw [this]; exact ih
    | some n =>
      have : oldNew (e :: sd) = (e.1, n) :: oldNew sd := by
        rw [oldNew, List.filterMap_cons_some (b := (e.1, n)) (by rw [hn]; rfl)]; rfl
      rw [this, List.map_cons, List.nodup_cons]
      refine ⟨fun hm => ?_, ih⟩
      obtain ⟨p, hp, hpe⟩ := List.mem_map.1 hm
      exact h.1 (hpe ▸ (mem_oldNew.1 hp).1)

theorem nodup_snd_of_inj : ∀ {ps : List (Key × Key)}, (ps.map (·.1)).Nodup →
    (∀ p ∈ ps, ∀ q ∈ ps, p.2 = q.2 → p.1 = q.1) → (ps.map (·.2)).Nodup
  | [], _, _ => by simp
  | p :: ps, h, hi => by
    simp only [List.map_cons, List.nodup_cons] at h ⊢
    refine ⟨fun hm => ?_, nodup_snd_of_inj h.2 fun a ha b hb => hi a (List.mem_cons_of_mem _ ha) b (List.mem_cons_of_mem _ hb)⟩
    obtain ⟨q, hq, hqe⟩ := List.mem_map.1 hm
    exact h.1 (List.mem_map.2 ⟨q, hq, hi q (List.mem_cons_of_mem _ hq) p (List.mem_cons_self ..) hqe⟩)

/-- After the renaming, the dictionary has exactly the weights, under the names of today. -/
theorem renamed {sd : List (Key × V)} (hw : OneWord sd) (hc : NoClash sd) : ∃ d, renameAll (oldNew sd) sd = some d ∧
    ∀ q v, d.lookup q = some v ↔ ∃ k, (k, v) ∈ sd ∧ today k = q := by
  obtain ⟨h1, h2, h3⟩ := hc
  have hkey : ∀ o ∈ sd.map (·.1), (IsOld o → newKey o = some (today o)) ∧ (¬IsOld o → newKey o = none ∧ today o = o) := by
    intro o ho
    obtain ⟨e, he, rfl⟩ := List.mem_map.1 ho
    exact newKey_eq (hw e he)
  have hold : ∀ p ∈ oldNew sd, p.1 ∈ sd.map (·.1) ∧ IsOld p.1 ∧ p.2 = today p.1 := by
    intro p hp
    obtain ⟨ho, hn⟩ := mem_oldNew.1 hp
    by_cases hi : IsOld p.1
    · rw [(hkey _ ho).1 hi, Option.some.injEq] at hn
      exact ⟨ho, hi, hn.symm⟩
    · rw [((hkey _ ho).2 hi).1] at hn; cases hn
  have hnew : ∀ p ∈ oldNew sd, p.2 ∉ sd.map (·.1) := by
    intro p hp
    obtain ⟨ho, hi, he⟩ := hold p hp
    obtain ⟨e, hes, hee⟩ := List.mem_map.1 ho
    rw [he, ← hee]
    exact h2 e hes (hee ▸ hi)
  have hin : ∀ e ∈ sd, IsOld e.1 → (e.1, today e.1) ∈ oldNew sd := fun e he hi =>
    mem_oldNew.2 ⟨List.mem_map.2 ⟨e, he, rfl⟩, (hkey _ (List.mem_map.2 ⟨e, he, rfl⟩)).1 hi⟩
  have hnd := oldNew_fst_nodup h1
  obtain ⟨d, e1, e2, e3, e4⟩ := renameAll_lookup (oldNew sd) sd hnd
    (nodup_snd_of_inj hnd (by
      intro p hp q hq hpq
      obtain ⟨a1, a2, a3⟩ := hold p hp
      obtain ⟨b1, b2, b3⟩ := hold q hq
      obtain ⟨e, hes, hee⟩ := List.mem_map.1 a1
      obtain ⟨e', hes', hee'⟩ := List.mem_map.1 b1
      have := h3 e hes e' hes' (hee ▸ a2) (hee' ▸ b2) (by rw [hee, hee', ← a3, ← b3, hpq])
      rw [← hee, ← hee', this]))
    (fun p hp hm => by
      obtain ⟨q, hq, hqe⟩ := List.mem_map.1 hm
      exact hnew p hp (hqe ▸ (hold q hq).1))
    (fun p hp => mem_lookup_isSome.2 (hold p hp).1)
  refine ⟨d, e1, fun q v => ?_⟩
  constructor
  · intro hq
    by_cases hq1 : q ∈ (oldNew sd).map (·.1)
    · obtain ⟨p, hp, rfl⟩ := List.mem_map.1 hq1
      rw [e3 p hp] at hq; cases hq
    · by_cases hq2 : q ∈ (oldNew sd).map (·.2)
      · obtain ⟨p, hp, rfl⟩ := List.mem_map.1 hq2
        rw [e2 p hp] at hq
        exact ⟨p.1, lookup_some_mem hq, (hold p hp).2.2.symm⟩
      · rw [e4 q hq1 hq2] at hq
        have hm := lookup_some_mem hq
        refine ⟨q, hm, ?_⟩
        have hni : ¬IsOld q := fun hi => hq1 (List.mem_map.2 ⟨_, hin _ hm hi, rfl⟩)
        exact ((hkey q (List.mem_map.2 ⟨_, hm, rfl⟩)).2 hni).2
  · rintro ⟨k, hm, rfl⟩
    by_cases hi : IsOld k
    · rw [e2 _ (hin _ hm hi)]
      exact (mem_lookup h1).2 hm
    · have hk : k ∈ sd.map (·.1) := List.mem_map.2 ⟨_, hm, rfl⟩
      rw [((hkey k hk).2 hi).2, e4 k, (mem_lookup h1).2 hm]
      · intro hx
        obtain ⟨p, hp, hpe⟩ := List.mem_map.1 hx
        exact hi (hpe ▸ (hold p hp).2.1)
      · intro hx
        obtain ⟨p, hp, hpe⟩ := List.mem_map.1 hx
        exact hnew p hp (hpe ▸ hk)

theorem startPrefix_is {sd d : List (Key × V)} (h : ∀ q v, d.lookup q = some v ↔ ∃ k, (k, v) ∈ sd ∧ today k = q)
    (hasBert : Bool) : PrefixIs hasBert sd (startPrefix hasBert d) := by
  have hiff : (!hasBert && d.any fun e => "bert.".toList.isPrefixOf e.1) = true ↔
      (hasBert = false ∧ ∃ e ∈ sd, "bert.".toList <+: today e.1) := by
    rw [Bool.and_eq_true, Bool.not_eq_true', List.any_eq_true]
    refine and_congr Iff.rfl ⟨?_, ?_⟩
    · rintro ⟨e, he, hp⟩
      obtain ⟨v, hv⟩ := Option.isSome_iff_exists.1 (mem_lookup_isSome.2 (List.mem_map.2 ⟨e, he, rfl⟩))
      obtain ⟨k, hk, hke⟩ := (h _ _).1 hv
      exact ⟨(k, v), hk, by rw [hke]; exact List.isPrefixOf_iff_prefix.1 hp⟩
    · rintro ⟨e, he, hp⟩
      have := (h (today e.1) e.2).2 ⟨e.1, he, rfl⟩
      exact ⟨_, lookup_some_mem this, List.isPrefixOf_iff_prefix.2 hp⟩
  rw [startPrefix]
  exact ⟨fun hh => if_pos (hiff.2 hh), fun hh => if_neg fun hc => hh (hiff.1 hc)⟩

theorem contains_iff (pat : Key) : ∀ s : Key, contains pat s = true ↔ pat <:+: s
  | [] => by simp [contains]
  | c :: cs => by
    rw [contains, Bool.or_eq_true, List.isPrefixOf_iff_prefix, contains_iff pat cs, List.infix_cons_iff]

theorem replaceN_fuel {pat : Key} (hp : pat ≠ []) (new : Key) : ∀ (f g : Nat) (s : Key), s.length ≤ f → s.length ≤ g →
    replaceN pat new f s = replaceN pat new g s
  | 0, g, s, hf, _ => by
    rw [List.length_eq_zero_iff.1 (Nat.le_zero.1 hf)]
    cases g <;> rfl
  | f + 1, 0, s, _, hg => by
    rw [List.length_eq_zero_iff.1 (Nat.le_zero.1 hg)]
    rfl
  | f + 1, g + 1, [], _, _ => rfl
  | f + 1, g + 1, c :: cs, hf, hg => by
    have hlen : 0 < pat.length := List.length_pos_iff.2 hp
    simp only [List.length_cons] at hf hg
    rw [replaceN, replaceN, replaceN_fuel hp new f g cs (by omega) (by omega),
      replaceN_fuel hp new f g ((c :: cs).drop pat.length) (by simp; omega) (by simp; omega)]

theorem replace_none {pat : Key} (new : Key) : ∀ s : Key, ¬pat <:+: s → replace pat new s = s
  | [], _ => rfl
  | c :: cs, h => by
    rw [List.infix_cons_iff, not_or] at h
    have ih := replace_none new cs h.2
    rw [replace] at ih ⊢
    rw [List.length_cons, replaceN, if_neg (fun hc => h.1 (List.isPrefixOf_iff_prefix.1 hc)), ih]

theorem replace_first {pat : Key} (hp : pat ≠ []) (new b : Key) : ∀ a : Key, ¬pat <:+: a ++ pat.dropLast →
    replace pat new (a ++ pat ++ b) = a ++ new ++ replace pat new b
  | [], _ => by
    cases pat with
    | nil => exact absurd rfl hp
    | cons c cs =>
      rw [replace, replace, List.nil_append, List.nil_append, List.cons_append, List.length_cons, replaceN,
        if_pos (List.isPrefixOf_iff_prefix.2 (by rw [← List.cons_append]; exact List.prefix_append _ _)), ← List.cons_append,
        List.drop_left, replaceN_fuel hp new _ b.length b (by simp) (Nat.le_refl _)]
  | c :: a, h => by
    have hno : ¬pat <+: c :: (a ++ pat ++ b) := by
      intro hpre
      have h2 : c :: (a ++ pat.dropLast) <+: c :: (a ++ pat ++ b) := by
        rw [List.cons_prefix_cons]
        refine ⟨rfl, ?_⟩
        rw [List.append_assoc, List.prefix_append_right_inj]
        exact (List.dropLast_prefix pat).trans (List.prefix_append _ _)
      have h3 := List.prefix_of_prefix_length_le hpre h2 (by simp; omega)
      exact h h3.isInfix
    have ih := replace_first hp new b a fun hi => h (by rw [List.cons_append, List.infix_cons_iff]; exact Or.inr hi)
    rw [replace] at ih
    rw [List.cons_append, List.cons_append, replace, List.length_cons, replaceN,
      if_neg (fun hc => hno (List.isPrefixOf_iff_prefix.1 hc)), ih]
    rfl

end DeepGNN.Pretrained
