import Verif.Spec.InitCheckpoint
import Verif.Proofs.PretrainedLoad

/-
Lemmas about the first weights of an encoder.
-/

namespace DeepGNN.InitCkpt
open Spec Pretrained

variable {V : Type}

theorem afterFirst_some {pat : Key} : ∀ {s n : Key}, afterFirst pat s = some n → ∃ front, s = front ++ pat ++ n
  | [], n, h => by
    rw [afterFirst] at h
    split at h
    · rename_i hp
      cases h
      exact ⟨[], by rw [hp]; rfl⟩
    · cases h
  | c :: cs, n, h => by
    rw [afterFirst] at h
    split at h
    · rename_i hp
      obtain ⟨r, hr⟩ := List.isPrefixOf_iff_prefix.1 hp
      rw [← hr, List.drop_left, Option.some.injEq] at h
      exact ⟨[], by rw [← hr, h]; rfl⟩
    · obtain ⟨f, hf⟩ := afterFirst_some h
      exact ⟨c :: f, by rw [hf]; rfl⟩

theorem afterFirst_isSome {pat : Key} : ∀ {s : Key}, (∃ front name, s = front ++ pat ++ name) → (afterFirst pat s).isSome
  | [], ⟨f, n, h⟩ => by
    have hp : pat = [] := by
      have := congrArg List.length h
      simp only [List.length_nil, List.length_append] at this
      exact List.length_eq_zero_iff.1 (by omega)
    rw [afterFirst, if_pos hp]; rfl
  | c :: cs, ⟨f, n, h⟩ => by
    rw [afterFirst]
    split
    · rfl
    · rename_i hp
      cases f with
      | nil => exact absurd (List.isPrefixOf_iff_prefix.2 ⟨n, h.symm⟩) hp
      | cons x f =>
        simp only [List.cons_append, List.cons.injEq] at h
        exact afterFirst_isSome ⟨f, n, h.2⟩

theorem mem_setKey {d : List (Key × V)} {n : Key} {v : V} {e : Key × V} (h : e ∈ setKey d n v) : e = (n, v) ∨ e ∈ d := by
  rcases List.mem_cons.1 h with h | h
  · exact Or.inl h
  · exact Or.inr (List.mem_filter.1 h).1

theorem mem_takeOne (e : Key × V) {x : Key × V} : ∀ (pairs : List (Key × Key)) (res : List (Key × V)),
    x ∈ takeOne pairs res e → x ∈ res ∨ (BelongsTo pairs e.1 x.1 ∧ x.2 = e.2)
  | [], res, h => Or.inl h
  | p :: pairs, res, h => by
    rw [takeOne, List.foldl_cons] at h
    rcases mem_takeOne e pairs _ h with h1 | ⟨⟨q, hq, hr⟩, h2⟩
    · cases ha : afterFirst p.1 e.1 with
      | none => rw [ha] at h1; exact Or.inl h1
      | some name =>
        rw [ha] at h1
        rcases mem_setKey h1 with rfl | h1
        · obtain ⟨f, hf⟩ := afterFirst_some ha
          exact Or.inr ⟨⟨p, by simp, f, name, hf, rfl⟩, rfl⟩
        · exact Or.inl h1
    · exact Or.inr ⟨⟨q, List.mem_cons_of_mem _ hq, hr⟩, h2⟩

theorem mem_takeAll (pairs : List (Key × Key)) {x : Key × V} : ∀ (sd res : List (Key × V)), x ∈ sd.foldl (takeOne pairs) res →
    x ∈ res ∨ ∃ e ∈ sd, BelongsTo pairs e.1 x.1 ∧ x.2 = e.2
  | [], _, h => Or.inl h
  | e :: sd, res, h => by
    rw [List.foldl_cons] at h
    rcases mem_takeAll pairs sd _ h with h1 | ⟨e', he', h2⟩
    · rcases mem_takeOne e pairs res h1 with h3 | h3
      · exact Or.inl h3
      · exact Or.inr ⟨e, by simp, h3⟩
    · exact Or.inr ⟨e', List.mem_cons_of_mem _ he', h2⟩

theorem not_exist {sd : List (Key × V)} {src : Key} (h : existInSrc sd src = false) :
    ∀ e ∈ sd, ¬∃ front name, e.1 = front ++ src ++ name := by
  intro e he hx
  rw [existInSrc, List.any_eq_false] at h
  exact h e he (afterFirst_isSome hx)

theorem mem_keepOne (sd : List (Key × V)) (e : Key × V) {x : Key × V} : ∀ (pairs : List (Key × Key)) (res : List (Key × V)),
    x ∈ keepOne sd pairs res e → x ∈ res ∨ (x = e ∧ PartAbsent sd pairs e.1)
  | [], res, h => Or.inl h
  | p :: pairs, res, h => by
    rw [keepOne, List.foldl_cons] at h
    rcases mem_keepOne sd e pairs _ h with h1 | ⟨h1, q, hq, hr⟩
    · split at h1
      · rename_i hc
        rw [Bool.and_eq_true, Bool.not_eq_true'] at hc
        rcases mem_setKey h1 with h2 | h2
        · exact Or.inr ⟨h2, p, by simp, List.isPrefixOf_iff_prefix.1 hc.2, not_exist hc.1⟩
        · exact Or.inl h2
      · exact Or.inl h1
    · exact Or.inr ⟨h1, q, List.mem_cons_of_mem _ hq, hr⟩

theorem mem_keepAll (sd : List (Key × V)) (pairs : List (Key × Key)) {x : Key × V} : ∀ (params res : List (Key × V)),
    x ∈ params.foldl (keepOne sd pairs) res → x ∈ res ∨ (x ∈ params ∧ PartAbsent sd pairs x.1)
  | [], _, h => Or.inl h
  | e :: params, res, h => by
    rw [List.foldl_cons] at h
    rcases mem_keepAll sd pairs params _ h with h1 | h1
    · rcases mem_keepOne sd e pairs res h1 with h2 | ⟨h2, h3⟩
      · exact Or.inl h2
      · exact Or.inr ⟨by rw [h2]; simp, by rw [h2]; exact h3⟩
    · exact Or.inr ⟨List.mem_cons_of_mem _ h1.1, h1.2⟩

theorem mem_extract {sd : List (Key × V)} {pairs : List (Key × Key)} {params : List (Key × V)} {x : Key × V}
    (h : x ∈ extract sd pairs params) :
    (∃ e ∈ sd, BelongsTo pairs e.1 x.1 ∧ x.2 = e.2) ∨ (x ∈ params ∧ PartAbsent sd pairs x.1) := by
  rcases mem_keepAll sd pairs params _ h with h1 | h1
  · rcases mem_takeAll pairs sd [] h1 with h2 | h2
    · simp at h2
    · exact Or.inl h2
  · exact Or.inr h1

theorem afterFirst_first {pat : Key} (hp : pat ≠ []) (b : Key) : ∀ a : Key, ¬pat <:+: a ++ pat.dropLast →
    afterFirst pat (a ++ pat ++ b) = some b
  | [], _ => by
    cases pat with
    | nil => exact absurd rfl hp
    | cons c cs =>
      rw [List.nil_append, List.cons_append, afterFirst,
        if_pos (List.isPrefixOf_iff_prefix.2 (by rw [← List.cons_append]; exact List.prefix_append _ _)), ← List.cons_append,
        List.drop_left]
  | c :: a, h => by
    have hno : ¬pat <+: c :: (a ++ pat ++ b) := by
      intro hpre
      have h2 : c :: (a ++ pat.dropLast) <+: c :: (a ++ pat ++ b) := by
        rw [List.cons_prefix_cons]
        refine ⟨rfl, ?_⟩
        rw [List.append_assoc, List.prefix_append_right_inj]
        exact (List.dropLast_prefix pat).trans (List.prefix_append _ _)
      have h3 := List.prefix_of_prefix_length_le hpre h2 (by simp; omega)
      exact h h3.isInfix
    have ih := afterFirst_first hp b a fun hi => h (by rw [List.cons_append, List.infix_cons_iff]; exact Or.inr hi)
    rw [List.cons_append, List.cons_append, afterFirst, if_neg (fun hc => hno (List.isPrefixOf_iff_prefix.1 hc)), ih]

theorem setKey_has {d : List (Key × V)} {n : Key} {v : V} {k : Key} (h : k = n ∨ k ∈ d.map (·.1)) :
    k ∈ (setKey d n v).map (·.1) := by
  rw [setKey, List.map_cons, List.mem_cons]
  by_cases hk : k = n
  · exact Or.inl hk
  · rcases h with h | h
    · exact Or.inl h
    · obtain ⟨e, he, rfl⟩ := List.mem_map.1 h
      exact Or.inr (List.mem_map.2 ⟨e, List.mem_filter.2 ⟨he, by simpa using hk⟩, rfl⟩)

theorem takeOne_has (e : Key × V) {k : Key} : ∀ (pairs : List (Key × Key)) (res : List (Key × V)),
    (k ∈ res.map (·.1) ∨ ∃ p ∈ pairs, ∃ n, afterFirst p.1 e.1 = some n ∧ k = p.2 ++ n) → k ∈ (takeOne pairs res e).map (·.1)
  | [], res, h => by
    rcases h with h | ⟨p, hp, -⟩
    · exact h
    · simp at hp
  | p :: pairs, res, h => by
    rw [takeOne, List.foldl_cons]
    refine takeOne_has e pairs _ ?_
    rcases h with h | ⟨q, hq, n, h1, h2⟩
    · left
      cases afterFirst p.1 e.1 with
      | none => exact h
      | some m => exact setKey_has (Or.inr h)
    · rcases List.mem_cons.1 hq with rfl | hq
      · left
        rw [h1]
        exact setKey_has (Or.inl h2)
      · exact Or.inr ⟨q, hq, n, h1, h2⟩

theorem takeAll_has (pairs : List (Key × Key)) {k : Key} : ∀ (sd res : List (Key × V)),
    (k ∈ res.map (·.1) ∨ ∃ e ∈ sd, ∃ p ∈ pairs, ∃ n, afterFirst p.1 e.1 = some n ∧ k = p.2 ++ n) →
    k ∈ (sd.foldl (takeOne pairs) res).map (·.1)
  | [], res, h => by
    rcases h with h | ⟨e, he, -⟩
    · exact h
    · simp at he
  | e :: sd, res, h => by
    rw [List.foldl_cons]
    refine takeAll_has pairs sd _ ?_
    rcases h with h | ⟨e', he', h⟩
    · exact Or.inl (takeOne_has e pairs res (Or.inl h))
    · rcases List.mem_cons.1 he' with rfl | he'
      · exact Or.inl (takeOne_has e' pairs res (Or.inr h))
      · exact Or.inr ⟨e', he', h⟩

theorem keepOne_has (sd : List (Key × V)) (e : Key × V) {k : Key} : ∀ (pairs : List (Key × Key)) (res : List (Key × V)),
    (k ∈ res.map (·.1) ∨ (k = e.1 ∧ ∃ p ∈ pairs, existInSrc sd p.1 = false ∧ p.2 <+: e.1)) →
    k ∈ (keepOne sd pairs res e).map (·.1)
  | [], res, h => by
    rcases h with h | ⟨-, p, hp, -⟩
    · exact h
    · simp at hp
  | p :: pairs, res, h => by
    rw [keepOne, List.foldl_cons]
    refine keepOne_has sd e pairs _ ?_
    rcases h with h | ⟨h1, q, hq, h2, h3⟩
    · left
      split
      · exact setKey_has (Or.inr h)
      · exact h
    · rcases List.mem_cons.1 hq with rfl | hq
      · left
        rw [if_pos (by rw [h2]; simpa using h3)]
        exact setKey_has (Or.inl h1)
      · exact Or.inr ⟨h1, q, hq, h2, h3⟩

theorem keepAll_has (sd : List (Key × V)) (pairs : List (Key × Key)) {k : Key} : ∀ (params res : List (Key × V)),
    (k ∈ res.map (·.1) ∨ (k ∈ params.map (·.1) ∧ ∃ p ∈ pairs, existInSrc sd p.1 = false ∧ p.2 <+: k)) →
    k ∈ (params.foldl (keepOne sd pairs) res).map (·.1)
  | [], res, h => by
    rcases h with h | ⟨h, -⟩
    · exact h
    · simp at h
  | e :: params, res, h => by
    rw [List.foldl_cons]
    refine keepAll_has sd pairs params _ ?_
    rcases h with h | ⟨h1, h2⟩
    · exact Or.inl (keepOne_has sd e pairs res (Or.inl h))
    · rcases List.mem_cons.1 h1 with h1 | h1
      · exact Or.inl (keepOne_has sd e pairs res (Or.inr ⟨h1, by obtain ⟨p, a, b, c⟩ := h2; exact ⟨p, a, b, (show k = e.1 from h1) ▸ c⟩⟩))
      · exact Or.inr ⟨h1, h2⟩

theorem absent_exist {sd : List (Key × V)} {src : Key} (h : ∀ e ∈ sd, ¬∃ front name, e.1 = front ++ src ++ name) :
    existInSrc sd src = false := by
  rw [existInSrc, List.any_eq_false]
  intro e he hs
  obtain ⟨n, hn⟩ := Option.isSome_iff_exists.1 hs
  obtain ⟨f, hf⟩ := afterFirst_some hn
  exact h e he ⟨f, n, hf⟩

end DeepGNN.InitCkpt
