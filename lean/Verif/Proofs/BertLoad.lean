import Verif.Spec.BertLoad

/-!
# Names of checkpoint variables
-/

namespace DeepGNN

open BertLoad
open DeepGNN.Spec (LayerVar layerName layerParam KernelModel)

theorem bert_prefix_digit (pat : Name) (hpat : ∀ c ∈ pat, c.isDigit = false) (a r : Name) (d : Char)
    (hd : d.isDigit = true) : pat.isPrefixOf (a ++ d :: r) = pat.isPrefixOf a := by
  induction pat generalizing a with
  | nil => rfl
  | cons p ps ih =>
    have hp := hpat p (by simp)
    cases a with
    | nil =>
      have : p ≠ d := by rintro rfl; rw [hp] at hd; cases hd
      simp [List.isPrefixOf, this]
    | cons x xs =>
      simp only [List.cons_append, List.isPrefixOf]
      rw [ih (fun c hc => hpat c (by simp [hc]))]

theorem bert_pos_in_digits (pat : Name) (hne : pat ≠ []) (hpat : ∀ c ∈ pat, c.isDigit = false)
    (D B : Name) (hD : ∀ c ∈ D, c.isDigit = true) :
    pos pat (D ++ B) = (pos pat B).map (· + D.length) := by
  induction D with
  | nil => simp
  | cons d D ih =>
    have h := bert_prefix_digit pat hpat [] (D ++ B) d (hD d (by simp))
    have hnil : pat.isPrefixOf ([] : Name) = false := by
      cases pat with
      | nil => exact absurd rfl hne
      | cons => rfl
    simp only [List.nil_append] at h
    rw [hnil] at h
    rw [List.cons_append, pos, h, ih (fun c hc => hD c (by simp [hc]))]
    simp [Option.map_map, Function.comp_def, Nat.add_assoc]

/-- A text without digits does not reach over digits. -/
theorem bert_pos_digits (pat : Name) (hne : pat ≠ []) (hpat : ∀ c ∈ pat, c.isDigit = false)
    (A D B : Name) (hD : ∀ c ∈ D, c.isDigit = true) (hD0 : D ≠ []) (hA : pos pat A = none) :
    pos pat (A ++ (D ++ B)) = (pos pat B).map (· + (A.length + D.length)) := by
  induction A with
  | nil => rw [List.nil_append, bert_pos_in_digits pat hne hpat D B hD]; simp
  | cons a A ih =>
    obtain ⟨d, D', rfl⟩ := List.exists_cons_of_ne_nil hD0
    have h := bert_prefix_digit pat hpat (a :: A) (D' ++ B) d (hD d (by simp))
    rw [pos] at hA
    split at hA
    · cases hA
    · rename_i hpre
      rw [List.cons_append] at h ⊢
      rw [pos]
      simp only [List.cons_append] at h ih ⊢
      rw [h, if_neg hpre, ih (by simpa using hA)]
      simp [Option.map_map, Function.comp_def, Nat.add_comm, Nat.add_left_comm]

/-- What precedes the number of a layer. -/
def bertHead : Name := "bert.encoder.layer.".toList

theorem bert_digits (i : Nat) : (∀ c ∈ Nat.toDigits 10 i, c.isDigit = true) ∧ Nat.toDigits 10 i ≠ [] := by
  refine ⟨fun _ hc => Nat.isDigit_of_mem_toDigits (by decide) (by decide) hc, fun h => ?_⟩
  have := Nat.length_toDigits_pos (b := 10) (n := i)
  rw [h] at this
  simp at this

theorem bert_pos_layer (pat : Name) (hne : pat ≠ []) (hpat : ∀ c ∈ pat, c.isDigit = false)
    (hA : pos pat bertHead = none) (i : Nat) (B : Name) :
    pos pat (bertHead ++ Nat.toDigits 10 i ++ B) =
      (pos pat B).map (· + (bertHead.length + (Nat.toDigits 10 i).length)) := by
  rw [List.append_assoc]
  exact bert_pos_digits pat hne hpat _ _ _ (bert_digits i).1 (bert_digits i).2 hA

theorem bert_found_layer (pat : Name) (hne : pat ≠ []) (hpat : ∀ c ∈ pat, c.isDigit = false)
    (hA : pos pat bertHead = none) (i : Nat) (B : Name) :
    found pat (bertHead ++ Nat.toDigits 10 i ++ B) = (pos pat B).isSome := by
  rw [found, bert_pos_layer pat hne hpat hA]
  cases pos pat B with
  | none => rfl
  | some k =>
    obtain ⟨j, hj⟩ : ∃ j, k + (bertHead.length + (Nat.toDigits 10 i).length) = j + 1 :=
      ⟨k + (bertHead.length - 1 + (Nat.toDigits 10 i).length), by
        have : 0 < bertHead.length := by decide
        omega⟩
    simp [hj]

theorem bert_kernelPart (i : Nat) (B : Name) :
    kernelPart (bertHead ++ Nat.toDigits 10 i ++ B) =
      (kernelTable.find? fun x =>
        (pos x.1 B).isSome && (!x.2.1 || (pos "attention".toList B).isNone)).map (·.2.2) := by
  have hall : ∀ x ∈ kernelTable, x.1 ≠ [] ∧ (∀ c ∈ x.1, c.isDigit = false) ∧
      pos x.1 bertHead = none := by decide +kernel
  have hatt : (pos "attention".toList (bertHead ++ Nat.toDigits 10 i ++ B)).isNone =
      (pos "attention".toList B).isNone := by
    rw [bert_pos_layer _ (by decide) (by decide) (by decide)]
    cases pos "attention".toList B <;> rfl
  rw [kernelPart, hatt]
  congr 1
  generalize (pos "attention".toList B).isNone = b
  revert hall
  generalize kernelTable = t
  intro hall
  induction t with
  | nil => rfl
  | cons x t ih =>
    obtain ⟨h1, h2, h3⟩ := hall x (by simp)
    rw [List.find?_cons, List.find?_cons, bert_found_layer x.1 h1 h2 h3,
      ih (fun y hy => hall y (by simp [hy]))]

/-- The piece of the attention weights a variable is, if any. -/
def bertKey : LayerVar → Option Key
  | .queryWeight => some .qw | .queryBias => some .qb | .keyWeight => some .kw
  | .keyBias => some .kb | .valueWeight => some .vw | .valueBias => some .vb
  | _ => none

/-- Where a variable goes: a piece of the attention weights or an attribute. -/
def bertPart (v : LayerVar) : Key ⊕ Name :=
  match bertKey v, v.own with
  | some k, _ => .inl k
  | none, some a => .inr a.toList
  | none, none => .inr []

theorem bert_kernelPart_layer (i : Nat) (v : LayerVar) :
    kernelPart (layerName i v) = some (bertPart v) := by
  refine Eq.trans (bert_kernelPart i v.suffix) ?_
  cases v <;> decide +kernel

theorem bert_dots (w r : Name) (h : '.' ∉ w) : dots (w ++ '.' :: r) = w :: dots r := by
  induction w with
  | nil => simp [dots]
  | cons c w ih =>
    have hc : c ≠ '.' := fun e => h (by simp [e])
    rw [List.cons_append, dots, if_neg hc, ih (fun e => h (by simp [e]))]

theorem bert_dots_layer (i : Nat) (v : LayerVar) :
    ∃ rest, dots (layerName i v) =
      "bert".toList :: "encoder".toList :: "layer".toList :: Nat.toDigits 10 i :: rest := by
  obtain ⟨B, hB⟩ : ∃ B, v.suffix = '.' :: B := ⟨v.suffix.tail, by cases v <;> decide +kernel⟩
  refine ⟨dots B, ?_⟩
  have hdot : '.' ∉ Nat.toDigits 10 i := by
    intro h
    have := (bert_digits i).1 _ h
    revert this; decide
  have hhead : ∀ X : Name, "bert.encoder.layer.".toList ++ X = "bert".toList ++ '.' ::
      ("encoder".toList ++ '.' :: ("layer".toList ++ '.' :: X)) := fun X => by
    have h : "bert.encoder.layer.".toList = "bert".toList ++ ('.' :: ("encoder".toList ++
      ('.' :: ("layer".toList ++ ['.'])))) := by decide
    refine Eq.trans (congrArg (· ++ X) h) ?_
    generalize "bert".toList = a
    generalize "encoder".toList = b
    generalize "layer".toList = c
    simp
  unfold layerName
  rw [hB, List.append_assoc, hhead]
  generalize Nat.toDigits 10 i = D at hdot
  rw [bert_dots _ _ (by decide), bert_dots _ _ (by decide), bert_dots _ _ (by decide),
    bert_dots _ _ hdot]

/-- The layer itself. -/
def bertLayer (i : Nat) : Path :=
  [.attr "bert".toList, .attr "encoder".toList, .attr "layer".toList, .item i]

theorem bert_walk_layer {m : Model} (hm : KernelModel m) {i : Nat} (hi : i < m.layers) (v : LayerVar) :
    walk m (layerName i v) false [] (dots (layerName i v)) =
      some (some (match v.own with
        | some a => (layerParam i a, none)
        | none => (bertLayer i, bertKey v))) := by
  obtain ⟨rest, hd⟩ := bert_dots_layer i v
  have hpool : (pos "bert.pooler.dense".toList (layerName i v)).isSome = false := by
    have : pos "bert.pooler.dense".toList (layerName i v) = _ :=
      bert_pos_layer _ (by decide) (by decide) (by decide) i v.suffix
    rw [this, Option.isSome_map]
    cases v <;> decide +kernel
  have hnum : isNumeric (Nat.toDigits 10 i) = true := by
    simp only [isNumeric, Bool.and_eq_true, Bool.not_eq_true', List.isEmpty_eq_false_iff,
      List.all_eq_true]
    exact ⟨(bert_digits i).2, (bert_digits i).1⟩
  have hnl : Nat.toDigits 10 i ≠ "layer".toList := by
    intro h
    have := (bert_digits i).1 'l' (by rw [h]; decide)
    revert this; decide
  rw [hd]
  simp only [walk, hpool, Bool.false_eq_true, false_and, if_false, List.nil_append, hm.bert, if_true,
    List.cons_append]
  rw [if_neg (by decide), if_neg (by simp)]
  simp only [List.cons_append, List.nil_append, hm.encoder, if_true]
  rw [if_neg (by decide), if_neg (by simp)]
  simp only [List.cons_append, List.nil_append, hm.layer, if_true]
  rw [if_neg hnl, hnum, Bool.and_true, if_pos rfl, Nat.ofDigitChars_ten_toDigits,
    if_neg (by omega), bert_kernelPart_layer]
  cases hown : v.own with
  | some a =>
    have hk : bertKey v = none := by cases v <;> first | rfl | cases hown
    have ha := hm.own i v a hi hown
    simp only [bertPart, hk, hown]
    simp only [layerParam] at ha
    rw [if_pos ha]; rfl
  | none =>
    have hk : ∃ k, bertKey v = some k := by cases v <;> first | exact ⟨_, rfl⟩ | cases hown
    obtain ⟨k, hk⟩ := hk
    simp only [bertPart, hk]
    rfl

theorem bert_no_embedding (i : Nat) (v : LayerVar) :
    (pos "embeddings.word_embeddings".toList (layerName i v)).isSome = false := by
  have : pos "embeddings.word_embeddings".toList (layerName i v) = _ :=
    bert_pos_layer _ (by decide) (by decide) (by decide) i v.suffix
  rw [this, Option.isSome_map]
  cases v <;> decide +kernel

end DeepGNN
