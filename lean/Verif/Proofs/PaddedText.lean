import Verif.Spec.PaddedText

/-
Lemmas about the encoding of a text with a mask.
-/

namespace DeepGNN.Padded
open Spec

variable {T : Type}

theorem foldl_max : ∀ (xs : List Int) (a : Int), (xs.foldl max a ∈ a :: xs) ∧ ∀ x ∈ a :: xs, x ≤ xs.foldl max a
  | [], a => by simp
  | b :: xs, a => by
    obtain ⟨h1, h2⟩ := foldl_max xs (max a b)
    rw [List.foldl_cons]
    constructor
    · rcases List.mem_cons.1 h1 with h | h
      · rw [h]
        rcases Int.le_total a b with hab | hab
        · rw [Int.max_eq_right hab]; simp
        · rw [Int.max_eq_left hab]; simp
      · simp [h]
    · intro x hx
      have hm := h2 (max a b) (by simp)
      rcases List.mem_cons.1 hx with rfl | hx
      · exact Int.le_trans (Int.le_max_left _ _) hm
      · rcases List.mem_cons.1 hx with rfl | hx
        · exact Int.le_trans (Int.le_max_right _ _) hm
        · exact h2 x (List.mem_cons_of_mem _ hx)

theorem maxL_spec {l : List Int} (h : l ≠ []) : maxL l ∈ l ∧ ∀ x ∈ l, x ≤ maxL l := by
  cases l with
  | nil => exact absurd rfl h
  | cons a xs => exact foldl_max xs a

theorem maxL_shift (c : Int) {l : List Int} (h : l ≠ []) : maxL (l.map (· + c)) = maxL l + c := by
  obtain ⟨h1, h2⟩ := maxL_spec h
  obtain ⟨h3, h4⟩ := maxL_spec (l := l.map (· + c)) (by simpa using h)
  obtain ⟨y, hy, hye⟩ := List.mem_map.1 h3
  have h5 := h4 (maxL l + c) (List.mem_map.2 ⟨_, h1, rfl⟩)
  have h6 := h2 y hy
  omega

/-- Adding a number to all scores changes nothing. -/
theorem softmaxSum_shift (e : Int → Int) (c : Int) (l : List (Int × Int)) :
    softmaxSum e (l.map fun p => (p.1 + c, p.2)) = softmaxSum e l := by
  cases l with
  | nil => rfl
  | cons p l =>
    have h : maxL (((p :: l).map fun p => (p.1 + c, p.2)).map (·.1)) = maxL ((p :: l).map (·.1)) + c := by
      rw [← maxL_shift c (by simp), List.map_map, List.map_map]; rfl
    have h2 : ∀ q : Int × Int, q.1 + c - (maxL ((p :: l).map (·.1)) + c) = q.1 - maxL ((p :: l).map (·.1)) := by
      intro q; omega
    rw [softmaxSum, softmaxSum, h, List.map_map, List.map_map]
    simp only [Function.comp_def, h2]

theorem sumL_filter {α : Type} (f : α → Int) (p : α → Bool) : ∀ l : List α, (∀ x ∈ l, p x = false → f x = 0) →
    sumL (l.map f) = sumL ((l.filter p).map f)
  | [], _ => rfl
  | x :: l, h => by
    have ih := sumL_filter f p l fun y hy => h y (List.mem_cons_of_mem _ hy)
    simp only [sumL] at ih
    cases hp : p x with
    | true => simp only [List.filter_cons, hp, if_true, List.map_cons, sumL, List.foldr_cons, ih]
    | false =>
      rw [List.filter_cons_of_neg (by simp [hp])]
      simp only [List.map_cons, sumL, List.foldr_cons, ih, h x (List.mem_cons_self ..) hp, Int.zero_add]

/-- Masked positions do not count if some position is not masked. -/
theorem softmaxSum_masked {e : Int → Int} {u k : Int} (he : Underflows e u) (score value : T → Int) (hs : Separated u k score)
    (toks : List (T × Bool)) (hne : toks.filter (·.2) ≠ []) :
    softmaxSum e (toks.map fun t => (score t.1 + masked k t.2, value t.1)) =
      softmaxSum e ((toks.filter (·.2)).map fun t => (score t.1 + masked k t.2, value t.1)) := by
  have hne' : toks ≠ [] := fun h => hne (by rw [h]; rfl)
  obtain ⟨a1, a2⟩ := maxL_spec (l := toks.map fun t => score t.1 + masked k t.2) (by simpa using hne')
  obtain ⟨b1, b2⟩ := maxL_spec (l := (toks.filter (·.2)).map fun t => score t.1 + masked k t.2)
    (fun h => hne (List.map_eq_nil_iff.1 h))
  obtain ⟨tb, htb, hb⟩ := List.mem_map.1 b1
  obtain ⟨htb1, htb2⟩ := List.mem_filter.1 htb
  have hbs : maxL ((toks.filter (·.2)).map fun t => score t.1 + masked k t.2) = score tb.1 := by
    rw [← hb, masked, if_pos htb2, Int.add_zero]
  have hlow : ∀ t ∈ toks, t.2 = false → score t.1 + masked k t.2 ≤ score tb.1 - u := by
    intro t _ ht
    have := hs t.1 tb.1
    rw [masked, ht]
    simp only [Bool.false_eq_true, if_false]
    omega
  have hmax : maxL (toks.map fun t => score t.1 + masked k t.2) =
      maxL ((toks.filter (·.2)).map fun t => score t.1 + masked k t.2) := by
    refine Int.le_antisymm ?_ (a2 _ ?_)
    · obtain ⟨ta, hta, ha⟩ := List.mem_map.1 a1
      cases hm : ta.2 with
      | true => exact b2 _ (List.mem_map.2 ⟨ta, List.mem_filter.2 ⟨hta, hm⟩, ha⟩)
      | false =>
        have h1 := hlow ta hta hm
        have h2 := he.1
        rw [hbs, ← ha]
        omega
    · exact List.mem_map.2 ⟨tb, htb1, hb⟩
  have hzero : ∀ t ∈ toks, t.2 = false →
      e (score t.1 + masked k t.2 - maxL ((toks.filter (·.2)).map fun t => score t.1 + masked k t.2)) = 0 := by
    intro t ht hm
    refine he.2 _ ?_
    have := hlow t ht hm
    rw [hbs]; omega
  rw [softmaxSum, softmaxSum]
  simp only [List.map_map, Function.comp_def]
  rw [hmax, sumL_filter _ (·.2) toks (fun t ht hm => by rw [hzero t ht hm, Int.zero_mul]),
    sumL_filter _ (·.2) toks (fun t ht hm => hzero t ht hm)]

theorem layerStep_filter {e : Int → Int} {u k : Int} (he : Underflows e u) (l : Layer T)
    (hs : ∀ h ∈ l.heads, ∀ x, Separated u k (h.score x)) (toks : List (T × Bool)) (hne : toks.filter (·.2) ≠ []) :
    (layerStep e k toks l).filter (·.2) = layerStep e k (toks.filter (·.2)) l := by
  rw [layerStep, layerStep, List.filter_map]
  refine List.map_congr_left fun t _ => ?_
  have : l.heads.map (attend e k t.1 toks) = l.heads.map (attend e k t.1 (toks.filter (·.2))) :=
    List.map_congr_left fun h hh => softmaxSum_masked he (h.score t.1) h.value (hs h hh t.1) toks hne
  rw [this]

theorem layers_filter {e : Int → Int} {u k : Int} (he : Underflows e u) : ∀ (layers : List (Layer T)),
    LayersSeparated u k layers → ∀ toks : List (T × Bool), toks.filter (·.2) ≠ [] →
    (layers.foldl (layerStep e k) toks).filter (·.2) = layers.foldl (layerStep e k) (toks.filter (·.2)) ∧
      (layers.foldl (layerStep e k) toks).filter (·.2) ≠ []
  | [], _, _, hne => ⟨rfl, hne⟩
  | l :: layers, hs, toks, hne => by
    have h1 := layerStep_filter he l (hs l (by simp)) toks hne
    have hne2 : (layerStep e k toks l).filter (·.2) ≠ [] := by
      rw [h1, layerStep]
      exact fun h => hne (List.map_eq_nil_iff.1 h)
    have ih := layers_filter he layers (fun x hx => hs x (List.mem_cons_of_mem _ hx)) (layerStep e k toks l) hne2
    rw [h1] at ih
    exact ih

theorem filter_words : ∀ toks : List (T × Bool), toks.filter (·.2) = (words toks).map fun t => (t, true)
  | [] => rfl
  | (t, true) :: toks => by
    have ih := filter_words toks
    rw [List.filter_cons_of_pos rfl, ih]; rfl
  | (t, false) :: toks => by
    have ih := filter_words toks
    rw [List.filter_cons_of_neg (by simp), ih]; rfl

theorem allMasked_step (e : Int → Int) (k : Int) (l : Layer T) (toks : List T) :
    ∃ toks' : List T, ∀ m, layerStep e k (allMasked toks m) l = allMasked toks' m := by
  refine ⟨toks.map fun x => l.post x (l.heads.map (attend e k x (allMasked toks true))), fun m => ?_⟩
  rw [layerStep, allMasked, allMasked, List.map_map, List.map_map]
  refine List.map_congr_left fun x _ => ?_
  simp only [Function.comp_def]
  refine congrArg (fun c => (l.post x c, m)) (List.map_congr_left fun h _ => ?_)
  have hm : ∀ m, attend e k x (allMasked toks m) h = softmaxSum e (toks.map fun t => (h.score x t, h.value t)) := by
    intro m
    rw [← softmaxSum_shift e (masked k m), attend, allMasked, List.map_map, List.map_map]
    rfl
  exact (hm m).trans (hm true).symm

theorem allMasked_layers (e : Int → Int) (k : Int) : ∀ (layers : List (Layer T)) (toks : List T),
    ∃ toks' : List T, ∀ m, layers.foldl (layerStep e k) (allMasked toks m) = allMasked toks' m
  | [], toks => ⟨toks, fun _ => rfl⟩
  | l :: layers, toks => by
    obtain ⟨t1, h1⟩ := allMasked_step e k l toks
    obtain ⟨t2, h2⟩ := allMasked_layers e k layers t1
    exact ⟨t2, fun m => by rw [List.foldl_cons, h1 m, h2 m]⟩

end DeepGNN.Padded
