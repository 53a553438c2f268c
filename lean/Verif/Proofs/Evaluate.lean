import Verif.Spec.Evaluate
import Verif.Proofs.Csr
import Verif.Proofs.Mooc

/-
Lemmas about the evaluation of supervised models.
-/

namespace DeepGNN.Evaluate

open DeepGNN DeepGNN.Spec

theorem rat_max : ∀ l : List Rat, l ≠ [] → ∃ x ∈ l, ∀ y ∈ l, y ≤ x
  | [], h => absurd rfl h
  | [a], _ => ⟨a, by simp, by intro y hy; simp only [List.mem_singleton] at hy; grind⟩
  | a :: b :: l, _ => by
    obtain ⟨x, hx, hm⟩ := rat_max (b :: l) (by simp)
    by_cases h : a ≤ x
    · exact ⟨x, by simp only [List.mem_cons] at hx ⊢; exact Or.inr hx, fun y hy => by
        rcases List.mem_cons.1 hy with rfl | hy
        · exact h
        · exact hm y hy⟩
    · exact ⟨a, by simp, fun y hy => by
        rcases List.mem_cons.1 hy with rfl | hy
        · grind
        · have := hm y hy
          grind⟩

theorem greatest_of_argmax {row : List Rat} {i : Nat} (h : argmax row = some i) : FirstGreatest row i := by
  rw [argmax, List.findIdx?_eq_some_iff_getElem] at h
  obtain ⟨hi, hx, hj⟩ := h
  refine ⟨row[i], List.getElem?_eq_getElem hi, ?_, ?_⟩
  · intro y hy
    have := List.all_eq_true.1 hx y hy
    exact of_decide_eq_true this
  · intro j y hji hy
    obtain ⟨hjl, rfl⟩ := List.getElem?_eq_some_iff.1 hy
    have h1 := hj j hji
    have h2 : ∀ y ∈ row, y ≤ row[i] := fun y hy => of_decide_eq_true (List.all_eq_true.1 hx y hy)
    have h3 : ¬ ∀ y ∈ row, y ≤ row[j] := by
      intro hall
      apply h1
      rw [List.all_eq_true]
      exact fun y hy => decide_eq_true (hall y hy)
    have h4 := h2 row[j] (List.getElem_mem hjl)
    by_cases he : row[j] < row[i]
    · exact he
    · exact absurd (fun y hy => by have := h2 y hy; grind) h3

theorem argmax_some {row : List Rat} (h : row ≠ []) : ∃ i, argmax row = some i := by
  cases hp : argmax row with
  | some i => exact ⟨i, rfl⟩
  | none =>
    rw [argmax, List.findIdx?_eq_none_iff] at hp
    obtain ⟨x, hx, hm⟩ := rat_max row h
    have := hp x hx
    rw [← Bool.not_eq_true, List.all_eq_true] at this
    exact absurd (fun y hy => decide_eq_true (hm y hy)) this

theorem greatest_unique {row : List Rat} {i j : Nat} (hi : FirstGreatest row i) (hj : FirstGreatest row j) : i = j := by
  obtain ⟨x, hx, hxm, hxf⟩ := hi
  obtain ⟨y, hy, hym, hyf⟩ := hj
  have h1 := hxm y (List.mem_of_getElem? hy)
  have h2 := hym x (List.mem_of_getElem? hx)
  rcases Nat.lt_trichotomy i j with h | h | h
  · have := hyf i x h hx
    grind
  · exact h
  · have := hxf j y h hy
    grind

theorem greatest_lt {row : List Rat} {i : Nat} (h : FirstGreatest row i) : i < row.length := by
  obtain ⟨x, hx, -⟩ := h
  exact (List.getElem?_eq_some_iff.1 hx).1

/-- The class of a row. -/
def top (row : List Rat) : Nat := (argmax row).getD 0

theorem argmax_top {row : List Rat} (h : row ≠ []) : argmax row = some (top row) := by
  obtain ⟨i, hi⟩ := argmax_some h
  rw [top, hi]
  rfl

/-- What `_loss_inner` returns for a batch it accepts. -/
theorem lossInner_eq (nll : List Rat → Nat → Rat) {c : Nat} (hc : 2 ≤ c) {b : List Node} (hb : 2 ≤ b.length)
    (hs : ∀ n ∈ b, n.scores.length = c ∧ n.labels.length = c) :
    lossInner nll b = some (Metrics.mean (b.map fun n => nll n.scores (top n.labels)), b.map fun n => top n.scores, b.map fun n => top n.labels) := by
  have hne : ∀ n ∈ b, n.scores ≠ [] ∧ n.labels ≠ [] := by
    intro n hn
    obtain ⟨h1, h2⟩ := hs n hn
    constructor <;> (intro h; simp [h] at h1 h2; omega)
  have hl : (b.mapM fun n => argmax n.labels) = some (b.map fun n => top n.labels) :=
    mapM_some_map _ _ _ fun n hn => argmax_top (hne n hn).2
  have hp : (b.mapM fun n => argmax n.scores) = some (b.map fun n => top n.scores) :=
    mapM_some_map _ _ _ fun n hn => argmax_top (hne n hn).1
  have hx : crossEntropy nll (b.map (·.scores)) (b.map fun n => top n.labels) =
      some (Metrics.mean (b.map fun n => nll n.scores (top n.labels))) := by
    have hall : ((b.map (·.scores)).zip (b.map fun n => top n.labels)).all (fun p => decide (p.2 < p.1.length)) = true := by
      rw [List.all_eq_true, List.zip_map']
      intro p hp
      obtain ⟨n, hn, rfl⟩ := List.mem_map.1 hp
      have := greatest_lt (greatest_of_argmax (argmax_top (hne n hn).2))
      obtain ⟨h1, h2⟩ := hs n hn
      apply decide_eq_true
      show top n.labels < n.scores.length
      omega
    rw [crossEntropy, if_pos ⟨by simp, hall⟩]
    congr 2
    rw [List.zipWith_map]
    induction b with
    | nil => rfl
    | cons _ _ _ => rw [List.zipWith_self]
  have hw : ¬ (b.length = 1 ∨ ((b.map (·.labels)).headD []).length = 1) := by
    cases b with
    | nil => simp at hb
    | cons n b =>
      have := (hs n (by simp)).2
      simp only [List.map_cons, List.headD_cons]
      omega
  show (if b.length = 1 ∨ ((b.map (·.labels)).headD []).length = 1 then none else _) = _
  rw [if_neg hw, hl, Option.bind_some, hx, Option.bind_some, hp]
  rfl

theorem sum_append_rat (l r : List Rat) : (l ++ r).sum = l.sum + r.sum := by
  induction l with
  | nil => simp only [List.nil_append, List.sum_nil]; grind
  | cons a l ih => simp only [List.cons_append, List.sum_cons, ih]; grind

theorem sum_div_rat (l : List Rat) (c : Rat) : (l.map (· / c)).sum = l.sum / c := by
  induction l with
  | nil => simp only [List.map_nil, List.sum_nil, Rat.div_def, Rat.zero_mul]
  | cons a l ih =>
    rw [List.map_cons, List.sum_cons, ih, List.sum_cons]
    simp only [Rat.div_def, Rat.add_mul]

theorem sum_flatten_rat (l : List (List Rat)) : l.flatten.sum = (l.map List.sum).sum := by
  induction l with
  | nil => rfl
  | cons a l ih => simp only [List.flatten_cons, List.map_cons, List.sum_cons, sum_append_rat, ih]

theorem length_flatten_same {β : Type} {k : Nat} : ∀ {l : List (List β)}, (∀ b ∈ l, b.length = k) → l.flatten.length = l.length * k
  | [], _ => by simp
  | b :: l, h => by
    rw [List.flatten_cons, List.length_append, h b (by simp), length_flatten_same fun x hx => h x (by simp [hx]), List.length_cons]
    rw [Nat.succ_mul]
    omega

theorem div_div_rat (a b c : Rat) : a / b / c = a / (b * c) := by
  simp only [Rat.div_def, Rat.inv_mul_rev, Rat.mul_assoc]
  rw [Rat.mul_comm b⁻¹]

/-- The mean of the means of groups of the same size is the mean of all. -/
theorem average_groups {k : Nat} {l : List (List Rat)} (h : ∀ b ∈ l, b.length = k) :
    average (l.map average) = average l.flatten := by
  have h1 : l.map average = (l.map List.sum).map (· / (k : Rat)) := by
    rw [List.map_map]
    apply List.map_congr_left
    intro b hb
    show b.sum / (b.length : Rat) = b.sum / (k : Rat)
    rw [h b hb]
  rw [h1]
  unfold average
  rw [sum_div_rat, List.length_map, List.length_map, sum_flatten_rat, length_flatten_same h, div_div_rat]
  congr 1
  rw [Rat.natCast_mul, Rat.mul_comm]

/-- Groups of different sizes and different means. -/
theorem average_uneven {a b : List Rat} (ha : a ≠ []) (hb : b ≠ []) (hl : a.length ≠ b.length) (hm : average a ≠ average b) :
    average [average a, average b] ≠ average (a ++ b) := by
  intro h
  apply hm
  unfold average at h ⊢
  have hp : (0 : Rat) < (a.length : Rat) := by
    have : 0 < a.length := List.length_pos_iff.2 ha
    exact_mod_cast this
  have hq : (0 : Rat) < (b.length : Rat) := by
    have : 0 < b.length := List.length_pos_iff.2 hb
    exact_mod_cast this
  have hne : (a.length : Rat) ≠ (b.length : Rat) := fun h => hl (by exact_mod_cast h)
  simp only [sum_append_rat, List.length_append, List.sum_cons, List.sum_nil, List.length_cons, List.length_nil] at h
  have hc : ((a.length + b.length : Nat) : Rat) = (a.length : Rat) + (b.length : Rat) := Rat.natCast_add _ _
  rw [hc] at h
  generalize (a.length : Rat) = p at *
  generalize (b.length : Rat) = q at *
  have e1 : a.sum = a.sum / p * p := (Rat.div_mul_cancel (by grind)).symm
  have e2 : b.sum = b.sum / q * q := (Rat.div_mul_cancel (by grind)).symm
  have e3 : (a.sum + b.sum) / (p + q) * (p + q) = a.sum + b.sum := Rat.div_mul_cancel (by grind)
  have e4 : (a.sum / p + (b.sum / q + 0)) / ((0 + 1 + 1 : Nat) : Rat) * 2 = a.sum / p + b.sum / q := by
    have : ((0 + 1 + 1 : Nat) : Rat) = 2 := rfl
    rw [this, Rat.div_mul_cancel (by decide +kernel)]
    grind
  rw [h] at e4
  generalize (a.sum + b.sum) / (p + q) = z at *
  generalize a.sum / p = x at *
  generalize b.sum / q = y at *
  have h5 : (p - q) * (x - y) = 0 := by grind
  rcases Rat.mul_eq_zero.1 h5 with h | h <;> grind

theorem hitRate_average (hit : Node → Bool) (l : List Node) : hitRate hit l = average (l.map fun n => if hit n then 1 else 0) := by
  have : ∀ l : List Node, ((l.countP hit : Nat) : Rat) = (l.map fun n => if hit n then (1 : Rat) else 0).sum := by
    intro l
    induction l with
    | nil => rfl
    | cons n l ih =>
      rw [List.countP_cons, Rat.natCast_add, ih, List.map_cons, List.sum_cons]
      cases hit n
      · simp only [Bool.false_eq_true, if_false]
        show _ + (0 : Rat) = _
        grind
      · simp only [if_true]
        show _ + (1 : Rat) = _
        grind
  unfold hitRate average
  rw [this, List.length_map]

/-! The metrics -/

theorem sum_one_class (x : Nat) (q : Bool) : ∀ {cs : List Nat}, cs.Nodup → x ∈ cs →
    (cs.map fun c => if (x == c && q) = true then 1 else 0).sum = if q = true then 1 else 0
  | [], _, h => by simp at h
  | c :: cs, hn, h => by
    rw [List.map_cons, List.sum_cons]
    obtain ⟨h1, h2⟩ := List.nodup_cons.1 hn
    by_cases hx : x = c
    · subst hx
      have : ∀ {l : List Nat}, x ∉ l → (l.map fun c => if (x == c && q) = true then 1 else 0).sum = 0 := by
        intro l hl
        induction l with
        | nil => rfl
        | cons d l ih =>
          rw [List.map_cons, List.sum_cons, ih (fun h => hl (by simp [h]))]
          have : x ≠ d := fun h => hl (by simp [h])
          simp [this]
      rw [this h1]
      simp
    · rw [sum_one_class x q h2 (by simpa [hx] using h)]
      simp [hx]

theorem sum_map_add_nat {β : Type} (f g : β → Nat) : ∀ l : List β, (l.map fun c => f c + g c).sum = (l.map f).sum + (l.map g).sum
  | [] => rfl
  | c :: l => by simp only [List.map_cons, List.sum_cons, sum_map_add_nat f g l]; omega

theorem sum_classes {β : Type} (f : β → Nat) (Q : β → Bool) {cs : List Nat} (hn : cs.Nodup) : ∀ {l : List β}, (∀ p ∈ l, f p ∈ cs) →
    (cs.map fun c => l.countP fun p => f p == c && Q p).sum = l.countP Q
  | [], _ => by
    simp only [List.countP_nil]
    induction cs with
    | nil => rfl
    | cons c cs ih => simp [ih (List.nodup_cons.1 hn).2]
  | p :: l, h => by
    simp only [List.countP_cons]
    rw [sum_map_add_nat, sum_classes f Q hn fun x hx => h x (by simp [hx]), sum_one_class (f p) (Q p) hn (h p (by simp))]

theorem f1_accuracy {preds labels : List Nat} (hl : preds.length = labels.length) : f1Score preds labels = accuracyScore preds labels := by
  unfold f1Score accuracyScore
  have hn : ((preds ++ labels).eraseDups).Nodup := Mooc.eraseDups_distinct _ _ (Nat.le_refl _)
  have h1 : ∀ p ∈ preds.zip labels, p.1 ∈ (preds ++ labels).eraseDups := fun p hp =>
    List.mem_eraseDups.2 (List.mem_append_left _ (List.of_mem_zip hp).1)
  have h2 : ∀ p ∈ preds.zip labels, p.2 ∈ (preds ++ labels).eraseDups := fun p hp =>
    List.mem_eraseDups.2 (List.mem_append_right _ (List.of_mem_zip hp).2)
  have etp : (((preds ++ labels).eraseDups).map fun c => (preds.zip labels).countP fun p => p.1 == c && p.2 == c).sum =
      (preds.zip labels).countP fun p => p.1 == p.2 := by
    rw [← sum_classes (fun p : Nat × Nat => p.1) (fun p => p.1 == p.2) hn h1]
    congr 2
    funext c
    congr 1
    funext p
    rw [Bool.eq_iff_iff]
    simp
    omega
  have efp : (((preds ++ labels).eraseDups).map fun c => (preds.zip labels).countP fun p => p.1 == c && p.2 != c).sum =
      (preds.zip labels).countP fun p => !(p.1 == p.2) := by
    rw [← sum_classes (fun p : Nat × Nat => p.1) (fun p => !(p.1 == p.2)) hn h1]
    congr 2
    funext c
    congr 1
    funext p
    rw [Bool.eq_iff_iff]
    simp
    omega
  have efn : (((preds ++ labels).eraseDups).map fun c => (preds.zip labels).countP fun p => p.1 != c && p.2 == c).sum =
      (preds.zip labels).countP fun p => !(p.1 == p.2) := by
    rw [← sum_classes (fun p : Nat × Nat => p.2) (fun p => !(p.1 == p.2)) hn h2]
    congr 2
    funext c
    congr 1
    funext p
    rw [Bool.eq_iff_iff]
    simp
    omega
  have hall := List.length_eq_countP_add_countP (fun p : Nat × Nat => p.1 == p.2) (l := preds.zip labels)
  rw [List.length_zip, hl, Nat.min_self] at hall
  simp only [etp, efp, efn]
  have e : (List.countP (fun p : Nat × Nat => !(p.1 == p.2)) (preds.zip labels)) = List.countP (fun a : Nat × Nat => decide ¬(a.1 == a.2) = true) (preds.zip labels) := by
    congr 1
    funext p
    rw [Bool.eq_iff_iff]
    simp
  rw [e]
  generalize List.countP (fun a : Nat × Nat => decide ¬(a.1 == a.2) = true) (preds.zip labels) = w at *
  generalize List.countP (fun p : Nat × Nat => p.1 == p.2) (preds.zip labels) = t at *
  have : 2 * t + w + w = 2 * labels.length := by omega
  rw [this, Rat.natCast_mul, Rat.natCast_mul]
  simp only [Rat.div_def, Rat.inv_mul_rev]
  rw [← Rat.mul_assoc, Rat.mul_comm (2 : Nat), Rat.mul_assoc (t : Rat), Rat.mul_comm ((2 : Nat) : Rat), Rat.mul_assoc, Rat.mul_assoc,
    Rat.mul_inv_cancel _ (by decide +kernel), Rat.mul_one]

/-- The metric of nodes. -/
theorem compute_eq (m : Metric) {hit : Node → Bool} {c : Nat} (hc : 2 ≤ c) {l : List Node} (hs : ∀ n ∈ l, n.scores.length = c ∧ n.labels.length = c)
    (hh : Hits hit l) : m.compute (l.map fun n => top n.scores) (l.map fun n => top n.labels) = hitRate hit l := by
  have hacc : accuracyScore (l.map fun n => top n.scores) (l.map fun n => top n.labels) = hitRate hit l := by
    unfold accuracyScore hitRate
    rw [List.length_map, List.zip_map', List.countP_map]
    congr 2
    apply List.countP_congr
    intro n hn
    have h0 : n.scores ≠ [] ∧ n.labels ≠ [] := by
      obtain ⟨h1, h2⟩ := hs n hn
      constructor <;> (intro h; simp [h] at h1 h2; omega)
    have := hh n hn _ _ (greatest_of_argmax (argmax_top h0.1)) (greatest_of_argmax (argmax_top h0.2))
    rw [this]
    simp
  cases m with
  | accuracy => exact hacc
  | f1 =>
    show f1Score _ _ = _
    rw [f1_accuracy (by simp), hacc]

end DeepGNN.Evaluate
