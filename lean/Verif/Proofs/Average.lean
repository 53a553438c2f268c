import Verif.Proofs.Han

/-
Sums weighted by a softmax are averages.
-/

namespace DeepGNN.Han

open DeepGNN.Sage DeepGNN.Gat

variable [Spec.RealFuns]

theorem foldl_rat : ∀ (l : List Rat) (a : Rat), l.foldl (· + ·) a = a + l.foldl (· + ·) 0
  | [], a => by simp; grind
  | x :: l, a => by
    rw [List.foldl_cons, List.foldl_cons, foldl_rat l (a + x), foldl_rat l (0 + x)]
    grind

theorem total_nil : total ([] : List Rat) = 0 := rfl

theorem total_cons (x : Rat) (l : List Rat) : total (x :: l) = x + total l := by
  show (x :: l).foldl (· + ·) (0 : Rat) = x + l.foldl (· + ·) (0 : Rat)
  rw [List.foldl_cons, foldl_rat]
  grind

theorem total_pos : ∀ {l : List Rat}, l ≠ [] → (∀ x ∈ l, 0 < x) → 0 < total l
  | [], h, _ => absurd rfl h
  | [x], _, h => by
    have := h x List.mem_cons_self
    rw [total_cons, total_nil]
    grind
  | x :: y :: l, _, h => by
    have h1 := h x List.mem_cons_self
    have h2 := total_pos (l := y :: l) (by simp) fun z hz => h z (List.mem_cons_of_mem _ hz)
    rw [total_cons]
    grind

theorem total_div (z : Rat) : ∀ l : List Rat, total (l.map fun e => e / z) = total l / z
  | [] => by
    show (0 : Rat) = 0 / z
    rw [Rat.div_def, Rat.zero_mul]
  | x :: l => by
    rw [List.map_cons, total_cons, total_cons, total_div z l, Rat.div_def, Rat.div_def, Rat.div_def, Rat.add_mul]

/-- The numbers of a softmax are positive and their sum is 1. -/
theorem softmax_weights {l : List Rat} (hne : l ≠ []) : (∀ c ∈ Spec.softmax l, 0 ≤ c) ∧ total (Spec.softmax l) = 1 := by
  cases l with
  | nil => exact absurd rfl hne
  | cons x xs =>
    show (∀ c ∈ (((x :: xs).map fun v => Spec.RealFuns.exp (v - xs.foldl Arith.max x)).map fun e => e / total _), 0 ≤ c) ∧ total (((x :: xs).map fun v =>
      Spec.RealFuns.exp (v - xs.foldl Arith.max x)).map fun e => e / total _) = 1
    generalize hes : ((x :: xs).map fun v => Spec.RealFuns.exp (v - xs.foldl Arith.max x)) = es
    have hp : ∀ e ∈ es, 0 < e := by
      intro e he
      rw [← hes] at he
      obtain ⟨v, -, rfl⟩ := List.mem_map.mp he
      exact Spec.RealFuns.exp_pos _
    have hz : 0 < total es := total_pos (by rw [← hes]; simp) hp
    constructor
    · intro c hc
      obtain ⟨e, he, rfl⟩ := List.mem_map.mp hc
      rw [Rat.div_def]
      exact Rat.mul_nonneg (Rat.le_of_lt (hp e he)) (Rat.le_of_lt (Rat.inv_pos.mpr hz))
    · rw [total_div, Rat.div_def, Rat.mul_inv_cancel _ (by grind)]

theorem softmax_length (l : List Rat) : (Spec.softmax l).length = l.length := by
  rw [softmax_eq, List.length_map]

/-- A sum with weights that are not negative and have the sum 1 is between the bounds of its terms. -/
theorem average_between (lo hi : Rat) : ∀ {xs cs : List Rat}, xs.length = cs.length → (∀ c ∈ cs, 0 ≤ c) → (∀ x ∈ xs, lo ≤ x ∧ x ≤ hi) →
    lo * total cs ≤ total (List.zipWith (· * ·) xs cs) ∧ total (List.zipWith (· * ·) xs cs) ≤ hi * total cs
  | [], [], _, _, _ => by
    show lo * 0 ≤ 0 ∧ (0 : Rat) ≤ hi * 0
    rw [Rat.mul_zero, Rat.mul_zero]
    exact ⟨by decide, by decide⟩
  | [], _ :: _, h, _, _ => by simp at h
  | _ :: _, [], h, _, _ => by simp at h
  | x :: xs, c :: cs, hl, hc, hx => by
    obtain ⟨h1, h2⟩ := average_between lo hi (xs := xs) (cs := cs) (by simpa using hl) (fun d hd => hc d (List.mem_cons_of_mem _ hd))
      fun y hy => hx y (List.mem_cons_of_mem _ hy)
    have h0 := hc c List.mem_cons_self
    obtain ⟨h3, h4⟩ := hx x List.mem_cons_self
    have h5 := Rat.mul_le_mul_of_nonneg_right h3 h0
    have h6 := Rat.mul_le_mul_of_nonneg_right h4 h0
    rw [List.zipWith_cons_cons, total_cons, total_cons, Rat.mul_add, Rat.mul_add]
    constructor <;> grind

/-- The semantic average is between the bounds of the vectors. -/
theorem semanticAverage_between (s : Semantic Rat) {w q : Nat} (hq : q < w) {rows : List (Vec Rat)} (hne : rows ≠ []) (lo hi : Rat)
    (hb : ∀ row ∈ rows, lo ≤ row.getD q 0 ∧ row.getD q 0 ≤ hi) :
    lo ≤ (Spec.semanticAverage s w rows).getD q 0 ∧ (Spec.semanticAverage s w rows).getD q 0 ≤ hi := by
  obtain ⟨h1, h2⟩ := softmax_weights (l := rows.map (Spec.semanticScore s)) (by simpa using hne)
  have h3 := average_between lo hi (xs := rows.map (·.getD q 0)) (cs := Spec.softmax (rows.map (Spec.semanticScore s)))
    (by rw [softmax_length, List.length_map, List.length_map]) h1 fun x hx => by
      obtain ⟨row, hrow, rfl⟩ := List.mem_map.mp hx
      exact hb row hrow
  rw [h2, Rat.mul_one, Rat.mul_one] at h3
  have e : (Spec.semanticAverage s w rows).getD q 0 = total (List.zipWith (· * ·) (rows.map (·.getD q 0)) (Spec.softmax (rows.map (Spec.semanticScore s)))) := by
    unfold Spec.semanticAverage
    rw [List.getD_eq_getElem?_getD, List.getElem?_map, List.getElem?_range hq]
    rfl
  rw [e]
  exact h3

end DeepGNN.Han
