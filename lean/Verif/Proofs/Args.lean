import Verif.Spec.Args
import Verif.Proofs.EdgeList
import Verif.Proofs.Csr

/-
Lemmas about values of command line arguments.
-/

namespace DeepGNN.Args

open DeepGNN.EdgeList DeepGNN.Spec

theorem comma_clean {d : Char} (h : d.isDigit = false ∧ d ≠ '-' ∧ d ≠ ',') : ∀ l : List Int, d ∉ commaText l
  | [] => by simp [commaText, joinFields]
  | [a] => by
    show d ∉ intText a
    exact not_mem_intText ⟨h.1, h.2.1⟩ a
  | a :: b :: l => by
    show d ∉ intText a ++ ',' :: commaText (b :: l)
    rw [List.mem_append, List.mem_cons]
    rintro (hm | hm | hm)
    · exact not_mem_intText ⟨h.1, h.2.1⟩ a hm
    · exact h.2.2 hm
    · exact comma_clean h (b :: l) hm

theorem intText_ne (n : Int) : intText n ≠ [] := by
  rw [intText]
  split
  · simp
  · exact Nat.toDigits_ne_nil

theorem commaText_nil {l : List Int} : commaText l = [] ↔ l = [] := by
  constructor
  · intro h
    match l with
    | [] => rfl
    | [a] => exact absurd h (intText_ne a)
    | a :: b :: l =>
      have h' : intText a ++ ',' :: commaText (b :: l) = [] := h
      simp at h'
  · rintro rfl
    rfl

theorem split_fields {d : Char} {ts : List Str} (hne : ts ≠ []) (h : ∀ t ∈ ts, d ∉ t) : split d (joinFields d ts) = ts := by
  rw [split_join d hne, flatMap_clean h]

theorem ints_split {l : List Int} (h : l ≠ []) : (split ',' (commaText l)).mapM parseInt = some l := by
  rw [commaText, split_fields (by simpa using h), mapM_ints]
  intro t ht
  obtain ⟨a, -, rfl⟩ := List.mem_map.1 ht
  exact not_mem_intText (by decide) a

theorem groups_split {l : List (List Int)} (h : l ≠ []) : split ';' (groupsText l) = l.map commaText := by
  rw [groupsText, split_fields (by simpa using h)]
  intro t ht
  obtain ⟨a, -, rfl⟩ := List.mem_map.1 ht
  exact comma_clean (by decide) a

theorem groups_eq (l : List (List Int)) : str2list2Int (.text (groupsText l)) = some (l.filter fun g => g ≠ []) := by
  cases l with
  | nil => rfl
  | cons g l =>
    show ((split ';' (groupsText (g :: l))).filter fun y => y ≠ []).mapM (fun y => (split ',' y).mapM parseInt) = _
    rw [groups_split (by simp), List.filter_map]
    have e : ((fun y : Str => decide (y ≠ [])) ∘ commaText) = fun g : List Int => decide (g ≠ []) := by
      funext g
      simp only [Function.comp, ne_eq, commaText_nil]
    rw [e, List.mapM_map]
    have := mapM_some_map (fun g : List Int => (split ',' (commaText g)).mapM parseInt) id ((g :: l).filter fun g => decide (g ≠ []))
      (fun x hx => ints_split (by simpa using (List.mem_filter.1 hx).2))
    rw [List.map_id] at this
    exact this

theorem names_clean {ts : List Str} (h : ∀ t ∈ ts, ';' ∉ t) : ';' ∉ joinFields ',' ts := by
  induction ts with
  | nil => simp [joinFields]
  | cons t ts ih =>
    cases ts with
    | nil => exact h t (by simp)
    | cons u ts =>
      show ';' ∉ t ++ ',' :: joinFields ',' (u :: ts)
      rw [List.mem_append, List.mem_cons]
      rintro (hm | hm | hm)
      · exact h t (by simp) hm
      · exact absurd hm (by decide)
      · exact ih (fun t ht => h t (by simp [ht])) hm

theorem joinFields_nil {d : Char} {ts : List Str} : joinFields d ts = [] ↔ ts = [] ∨ ts = [[]] := by
  constructor
  · intro h
    match ts with
    | [] => exact Or.inl rfl
    | [a] =>
      have h' : a = [] := h
      exact Or.inr (by rw [h'])
    | a :: b :: l =>
      have h' : a ++ d :: joinFields d (b :: l) = [] := h
      simp at h'
  · rintro (rfl | rfl) <;> rfl

theorem names_eq {l : List (List Str)} (h : ∀ g ∈ l, ∀ t ∈ g, ';' ∉ t ∧ ',' ∉ t) :
    str2list2 (.text (namesText l)) = l.filter fun g => g ≠ [] ∧ g ≠ [[]] := by
  cases hl : l with
  | nil => rfl
  | cons g0 l0 =>
    rw [← hl]
    show ((split ';' (namesText l)).filter fun y => y ≠ []).map (fun y => split ',' y) = _
    rw [namesText, split_fields (by simp [hl]) (by
      intro t ht
      obtain ⟨g, hg, rfl⟩ := List.mem_map.1 ht
      exact names_clean fun t ht => (h g hg t ht).1), List.filter_map]
    have e : ((fun y : Str => decide (y ≠ [])) ∘ joinFields ',') = fun g : List Str => decide (g ≠ [] ∧ g ≠ [[]]) := by
      funext g
      simp only [Function.comp, ne_eq, joinFields_nil, not_or]
    rw [e, List.map_map]
    conv => rhs; rw [← List.map_id (l.filter _)]
    apply List.map_congr_left
    intro g hg
    obtain ⟨hm, hf⟩ := List.mem_filter.1 hg
    have hf := of_decide_eq_true hf
    exact split_fields hf.1 fun t ht => (h g hm t ht).2

theorem foldl_join (d : Char) : ∀ (ts : List Str) (t : Str), ts.foldl (fun acc u => acc ++ d :: u) t = joinFields d (t :: ts)
  | [], t => rfl
  | u :: ts, t => by
    rw [List.foldl_cons, foldl_join d ts]
    cases ts with
    | nil => rfl
    | cons v ts =>
      show (t ++ d :: u) ++ d :: joinFields d (v :: ts) = t ++ d :: (u ++ d :: joinFields d (v :: ts))
      simp

theorem join_eq (d : Char) (ts : List Str) : join d ts = joinFields d ts := by
  cases ts with
  | nil => rfl
  | cons t ts => exact foldl_join d ts t

theorem row_clean {ts : List Str} (h : ∀ t ∈ ts, ',' ∉ t) : ',' ∉ joinFields ' ' ts := by
  induction ts with
  | nil => simp [joinFields]
  | cons t ts ih =>
    cases ts with
    | nil => exact h t (by simp)
    | cons u ts =>
      show ',' ∉ t ++ ' ' :: joinFields ' ' (u :: ts)
      rw [List.mem_append, List.mem_cons]
      rintro (hm | hm | hm)
      · exact h t (by simp) hm
      · exact absurd hm (by decide)
      · exact ih (fun t ht => h t (by simp [ht])) hm

/-! Words -/

theorem upper_lower : ∀ n : Fin 91, 65 ≤ n.val → (Char.ofNat n.val).toLower.toUpper = Char.ofNat n.val := by decide +kernel

theorem lower_cases {c w : Char} (h : c.toLower = w) : c = w ∨ c = w.toUpper := by
  by_cases hc : c.val ≥ 'A'.val ∧ c.val ≤ 'Z'.val
  · right
    have h1 : 65 ≤ c.toNat := hc.1
    have h2 : c.toNat ≤ 90 := hc.2
    have := upper_lower ⟨c.toNat, by omega⟩ h1
    simp only [Char.ofNat_toNat] at this
    rw [← h, this]
  · left
    rw [← h]
    unfold Char.toLower
    rw [dif_neg hc]

/-- The letters of the words. -/
def letters : List Char := ['y', 'e', 's', 't', 'r', 'u', '1', 'n', 'o', 'f', 'a', 'l', '0']

theorem letters_lower : ∀ w ∈ letters, w.toLower = w ∧ w.toUpper.toLower = w := by decide +kernel

theorem spelling_iff {word s : Str} (hw : ∀ w ∈ word, w ∈ letters) : Spelling word s ↔ s.map Char.toLower = word := by
  constructor
  · rintro ⟨hl, h⟩
    apply List.ext_getElem? 
    intro i
    rw [List.getElem?_map]
    cases hs : s[i]? with
    | none =>
      rw [List.getElem?_eq_none_iff] at hs
      rw [List.getElem?_eq_none (by omega)]
      rfl
    | some c =>
      have hi := (List.getElem?_eq_some_iff.1 hs).1
      have hwi : word[i]? = some word[i] := List.getElem?_eq_getElem (by omega)
      have hm := letters_lower _ (hw _ (List.getElem_mem (by omega : i < word.length)))
      rw [hwi, Option.map_some]
      congr 1
      rcases h i c _ hs hwi with e | e
      · rw [e]; exact hm.1
      · rw [e]; exact hm.2
  · rintro rfl
    refine ⟨by simp, ?_⟩
    intro i c w hc hwi
    rw [List.getElem?_map, hc, Option.map_some, Option.some.injEq] at hwi
    exact lower_cases hwi

end DeepGNN.Args
