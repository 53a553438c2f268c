import Verif.Proofs.Toss

/-
C106: every element of a population can be drawn, with the right frequency.
-/

namespace DeepGNN

open Toss
open DeepGNN.Spec (hits)

namespace Toss

theorem pick_some {n x k : Nat} (h : pick n x = some k) : ∃ t, toss x = some t ∧ index n t = k := by
  unfold pick at h
  rw [Option.map_eq_some_iff] at h
  exact h

theorem filterMap_length (n : Nat) : ∀ l : List Nat, (l.filterMap (pick n)).length = (l.filter fun x => (toss x).isSome).length
  | [] => rfl
  | x :: l => by
    have ih := filterMap_length n l
    have e : pick n x = (toss x).map (index n) := rfl
    cases h : toss x with
    | none =>
      rw [List.filterMap_cons_none (by rw [e, h]; rfl), List.filter_cons_of_neg (by rw [h]; decide), ih]
    | some t =>
      rw [List.filterMap_cons_some (by rw [e, h]; rfl), List.filter_cons_of_pos (by rw [h]; rfl), List.length_cons, List.length_cons, ih]

theorem mapM_get {α : Type} (p : List α) : ∀ l : List Nat, (∀ i ∈ l, i < p.length) →
    ∃ out, (l.mapM fun i => p[i]?) = some out ∧ out.length = l.length ∧ ∀ a ∈ out, ∃ i ∈ l, p[i]? = some a
  | [], _ => ⟨[], rfl, rfl, by simp⟩
  | i :: l, h => by
    obtain ⟨out, h1, h2, h3⟩ := mapM_get p l fun j hj => h j (List.mem_cons_of_mem _ hj)
    have hi := h i List.mem_cons_self
    refine ⟨p[i] :: out, ?_, by simp [h2], ?_⟩
    · rw [List.mapM_cons, h1, List.getElem?_eq_getElem hi]; rfl
    · intro a ha
      rcases List.mem_cons.1 ha with rfl | ha
      · exact ⟨i, List.mem_cons_self, List.getElem?_eq_getElem hi⟩
      · obtain ⟨j, hj, e⟩ := h3 a ha
        exact ⟨j, List.mem_cons_of_mem _ hj, e⟩

end Toss

/-- Sampling from a population of any size never leaves it, whatever the generator returns: one element per number that is not
dropped. -/
theorem C106_in_range {α : Type} (population : List α) (hp : population ≠ []) (numbers : List Nat) :
    ∃ out, sample population numbers = some out ∧ (∀ a ∈ out, a ∈ population) ∧
      out.length = (numbers.filter fun x => (toss x).isSome).length := by
  have hn : 0 < population.length := List.length_pos_iff.2 hp
  obtain ⟨out, h1, h2, h3⟩ := mapM_get population (numbers.filterMap (pick population.length)) (by
    intro i hi
    obtain ⟨x, -, hx⟩ := List.mem_filterMap.1 hi
    obtain ⟨t, ht, rfl⟩ := pick_some hx
    exact index_lt hn (toss_le ht))
  refine ⟨out, h1, ?_, ?_⟩
  · intro a ha
    obtain ⟨i, -, e⟩ := h3 a ha
    exact List.mem_of_getElem? e
  · rw [h2, filterMap_length]

/-- Each of up to 2^23 elements is drawn for some number of the generator. -/
theorem C106_reachable_partial {n : Nat} (hn : n ≤ 2 ^ 23) {k : Nat} (hk : k < n) : ∃ x, x < 2 ^ 64 ∧ pick n x = some k := by
  have hn24 : round24 n = n := by unfold round24; rw [if_pos (by omega)]
  -- the least multiple of 1 / 2^24 not below `k / n`
  obtain ⟨a, a1, a2⟩ : ∃ a, k * 2 ^ 24 ≤ a * n ∧ a * n < k * 2 ^ 24 + n := by
    refine ⟨(k * 2 ^ 24 + n - 1) / n, ?_, ?_⟩
    · have := Nat.lt_div_mul_add (a := k * 2 ^ 24 + n - 1) (b := n) (by omega)
      omega
    · have := Nat.div_mul_le_self (k * 2 ^ 24 + n - 1) n
      omega
  have a3 : a < 2 ^ 24 := by
    apply Nat.lt_of_mul_lt_mul_right (a := n)
    have : (k + 1) * 2 ^ 24 ≤ n * 2 ^ 24 := Nat.mul_le_mul_right _ hk
    omega
  have hx : round24 (a * 2 ^ 40) = a * 2 ^ 40 := round24_float (by omega)
  refine ⟨a * 2 ^ 40, by omega, ?_⟩
  unfold pick toss
  rw [hx, if_pos (by omega), Option.map_some]
  congr 1
  unfold index
  rw [hn24]
  have e : a * 2 ^ 40 * n = (a * n) * 2 ^ 40 := by rw [Nat.mul_right_comm]
  rw [e]
  clear e hx hn24
  generalize a * n = y at *
  clear a3
  -- rounding keeps the product between `k` and `k + 1`
  have lo : k * 2 ^ 64 ≤ round24 (y * 2 ^ 40) := by
    have e : round24 (k * 2 ^ 64) = k * 2 ^ 64 := round24_float (by omega)
    have := round24_mono (show k * 2 ^ 64 ≤ y * 2 ^ 40 by
      have := Nat.mul_le_mul_right (2 ^ 40) a1
      rwa [Nat.mul_assoc, ← Nat.pow_add] at this)
    rwa [e] at this
  have hi : round24 (y * 2 ^ 40) < (k + 1) * 2 ^ 64 := by
    have h1 := (round24_near (y * 2 ^ 40)).1
    clear lo a1
    have hy : y ≤ 2 ^ 47 := by omega
    have h2 : (2 ^ 24 + 1) * y < (k + 1) * 2 ^ 48 := by omega
    have h3 := Nat.mul_lt_mul_of_pos_right h2 (show 0 < 2 ^ 40 by decide)
    rw [Nat.mul_assoc] at h3
    have h4 : (k + 1) * 2 ^ 48 * 2 ^ 40 = 2 ^ 24 * ((k + 1) * 2 ^ 64) := by
      rw [Nat.mul_assoc, ← Nat.pow_add, Nat.mul_left_comm, ← Nat.pow_add]
    rw [h4] at h3
    exact Nat.lt_of_mul_lt_mul_left (Nat.lt_of_le_of_lt h1 h3)
  omega

/-- A sample of one element: every element of a population up to 2^23 is what some number of the generator gives. -/
theorem C106_drawn_partial {α : Type} (population : List α) (hn : population.length ≤ 2 ^ 23) (a : α) (ha : a ∈ population) :
    ∃ x, x < 2 ^ 64 ∧ sample population [x] = some [a] := by
  obtain ⟨k, hk, rfl⟩ := List.mem_iff_getElem.1 ha
  obtain ⟨x, hx, h⟩ := C106_reachable_partial hn hk
  refine ⟨x, hx, ?_⟩
  unfold sample
  rw [List.filterMap_cons, h]
  simp [hk]

/-- With more than 2^24 elements some are never drawn: behind position 2^24 only every second element, behind position 2^25 only every
fourth and so on, for every size of the population and every number of the generator. -/
theorem C106_skipped_refuted (n j k : Nat) (hk : 2 ^ (24 + j) < k) (hd : ¬ 2 ^ (j + 1) ∣ k) (x : Nat) : pick n x ≠ some k := by
  intro h
  obtain ⟨t, -, h⟩ := pick_some h
  unfold index at h
  have h64 : round24 (t * round24 n) / 2 ^ 64 = k := h
  rcases Nat.lt_or_ge (t * round24 n) (2 ^ (24 + (j + 64))) with hy | hy
  · have := round24_mono (Nat.le_of_lt hy)
    rw [show (2 : Nat) ^ (24 + (j + 64)) = 2 ^ 24 * 2 ^ (j + 64) from Nat.pow_add _ _ _, round24_float (by decide)] at this
    have e : 2 ^ 24 * 2 ^ (j + 64) = 2 ^ (24 + j) * 2 ^ 64 := by rw [← Nat.pow_add, ← Nat.pow_add, Nat.add_assoc]
    rw [e] at this
    have := Nat.div_le_of_le_mul (by rw [Nat.mul_comm]; exact this)
    omega
  · obtain ⟨c, hc⟩ := round24_multiple hy
    rw [hc, show j + 64 + 1 = (j + 1) + 64 from by omega, Nat.pow_add, Nat.mul_assoc, Nat.mul_comm (2 ^ 64) c, ← Nat.mul_assoc,
      Nat.mul_div_cancel _ (by decide)] at h64
    exact hd ⟨c, h64.symm⟩

/-- In terms of samples: such an element is in none of them. -/
theorem C106_never_sampled_refuted {α : Type} (population : List α) (hd : population.Nodup) (numbers : List Nat) {out : List α}
    (h : sample population numbers = some out) {k : Nat} (hk : k < population.length) (h24 : 2 ^ 24 < k) (hodd : k % 2 = 1) :
    population[k] ∉ out := by
  intro hm
  unfold sample at h
  obtain ⟨i, hi, e⟩ : ∃ i ∈ numbers.filterMap (pick population.length), population[i]? = some population[k] := by
    have : ∀ (l : List Nat) (out : List α), (l.mapM fun i => population[i]?) = some out → population[k] ∈ out →
        ∃ i ∈ l, population[i]? = some population[k] := by
      intro l
      induction l with
      | nil => intro out h hm; cases h; cases hm
      | cons i l ih =>
        intro out h hm
        rw [List.mapM_cons, Option.bind_eq_bind, Option.bind_eq_some_iff] at h
        obtain ⟨a, h1, h⟩ := h
        rw [Option.bind_eq_bind, Option.bind_eq_some_iff] at h
        obtain ⟨r, h2, h⟩ := h
        cases h
        rcases List.mem_cons.1 hm with rfl | hm
        · exact ⟨i, List.mem_cons_self, h1⟩
        · obtain ⟨j, hj, e⟩ := ih r h2 hm
          exact ⟨j, List.mem_cons_of_mem _ hj, e⟩
    exact this _ _ h hm
  obtain ⟨hi', e⟩ := List.getElem?_eq_some_iff.1 e
  have : i = k := (List.getElem_inj hd).1 e
  subst this
  obtain ⟨x, -, hx⟩ := List.mem_filterMap.1 hi
  exact C106_skipped_refuted population.length 0 i h24 (by omega) x hx

/-! Frequencies. -/

namespace Toss

theorem count_ge {p : Nat → Bool} {A : Nat} (h : ∀ x, x < A → p x = true) : ∀ N, A ≤ N → A ≤ (List.range N).countP p
  | 0, h0 => by omega
  | N + 1, h0 => by
    rw [List.range_succ, List.countP_append]
    rcases Nat.lt_or_eq_of_le h0 with h1 | h1
    · have := count_ge h N (by omega); omega
    · subst h1
      have : ∀ M, M ≤ N + 1 → M ≤ (List.range M).countP p := by
        intro M
        induction M with
        | zero => omega
        | succ M ih =>
          intro hM
          rw [List.range_succ, List.countP_append]
          have := ih (by omega)
          have hp := h M (by omega)
          simp only [List.countP_cons, List.countP_nil, hp, if_true]
          omega
      have := this (N + 1) (Nat.le_refl _)
      rwa [List.range_succ, List.countP_append] at this

theorem count_le {p : Nat → Bool} {B : Nat} (h : ∀ x, p x = true → x < B) : ∀ N, (List.range N).countP p ≤ B
  | 0 => by simp
  | N + 1 => by
    by_cases hN : p N = true
    · have h1 : N < B := h N hN
      have := List.countP_le_length (p := p) (l := List.range (N + 1))
      rw [List.length_range] at this
      omega
    · rw [List.range_succ, List.countP_append]
      have := count_le h N
      simp only [List.countP_cons, List.countP_nil, hN]
      simpa using this

/-- Numbers that select an element before `k`. -/
def below (n k x : Nat) : Bool := match pick n x with
  | some i => decide (i < k)
  | none => false

theorem below_lower {n k : Nat} (hn : 0 < n) (hn24 : n ≤ 2 ^ 24) (hk : k ≤ n) :
    k * 2 ^ 64 ≤ n * (List.range (2 ^ 64)).countP (below n k) + k * 2 ^ 41 := by
  have hr : round24 n = n := by
    have := round24_float (q := n) (e := 0) hn24
    simpa using this
  let D := n * (2 ^ 24 + 1) ^ 2
  have hD : 0 < D := Nat.mul_pos hn (by decide)
  let A := (2 ^ 112 * k + D - 1) / D
  have A1 : 2 ^ 112 * k ≤ A * D := by
    have := Nat.lt_div_mul_add (a := 2 ^ 112 * k + D - 1) (b := D) hD
    show _ ≤ (2 ^ 112 * k + D - 1) / D * D
    omega
  have A2 : ∀ x, x < A → x * D < 2 ^ 112 * k := by
    intro x hx
    have h1 : (x + 1) * D ≤ 2 ^ 112 * k + D - 1 := Nat.le_trans (Nat.mul_le_mul_right _ hx) (Nat.div_mul_le_self _ _)
    rw [Nat.add_mul, Nat.one_mul] at h1
    omega
  have A3 : ∀ x, x < A → x * (2 ^ 24 + 1) ^ 2 < 2 ^ 112 := by
    intro x hx
    have h1 := A2 x hx
    have h2 : 2 ^ 112 * k ≤ 2 ^ 112 * n := Nat.mul_le_mul_left _ hk
    apply Nat.lt_of_mul_lt_mul_right (a := n)
    have e : x * (2 ^ 24 + 1) ^ 2 * n = x * D := by rw [Nat.mul_assoc, Nat.mul_comm _ n]
    rw [e]; omega
  have A4 : A ≤ 2 ^ 64 := by
    rcases Nat.eq_zero_or_pos A with h | h
    · omega
    · have := A3 (A - 1) (by omega)
      omega
  have hall : ∀ x, x < A → below n k x = true := by
    intro x hx
    have h1 := A2 x hx
    have h3 := A3 x hx
    obtain ⟨r1, -⟩ := round24_near x
    have hacc : round24 x < 2 ^ 64 := by omega
    unfold below pick toss
    rw [if_pos hacc, Option.map_some]
    simp only [decide_eq_true_eq]
    unfold index
    rw [hr]
    obtain ⟨s1, -⟩ := round24_near (round24 x * n)
    apply (Nat.div_lt_iff_lt_mul (by decide)).2
    have h5 : 2 ^ 24 * (round24 x * n) ≤ (2 ^ 24 + 1) * (x * n) := by
      rw [← Nat.mul_assoc, ← Nat.mul_assoc]
      exact Nat.mul_le_mul_right _ r1
    have e : x * D = (x * n) * (2 ^ 24 + 1) ^ 2 := by
      show x * (n * (2 ^ 24 + 1) ^ 2) = _
      rw [Nat.mul_assoc]
    rw [e] at h1
    generalize round24 (round24 x * n) = z at *
    generalize round24 x * n = w at *
    generalize x * n = v at *
    omega
  have hc := count_ge hall (2 ^ 64) A4
  generalize (List.range (2 ^ 64)).countP (below n k) = c at *
  have h6 : A * D ≤ (n * c) * (2 ^ 24 + 1) ^ 2 := by
    have := Nat.mul_le_mul_right D hc
    have e : c * D = (n * c) * (2 ^ 24 + 1) ^ 2 := by
      show c * (n * (2 ^ 24 + 1) ^ 2) = _
      rw [← Nat.mul_assoc, Nat.mul_comm c n]
    omega
  generalize n * c = w at *
  omega

theorem below_upper {n k : Nat} (hn : 0 < n) (hn24 : n ≤ 2 ^ 24) (hk : k ≤ n) :
    n * (List.range (2 ^ 64)).countP (below n k) ≤ k * 2 ^ 64 + k * 2 ^ 41 + n := by
  have hr : round24 n = n := by
    have := round24_float (q := n) (e := 0) hn24
    simpa using this
  let D := n * (2 ^ 24 - 1)
  have hD : 0 < D := Nat.mul_pos hn (by decide)
  let B := (2 ^ 88 * k + D - 1) / D
  have B1 : B * D < 2 ^ 88 * k + D := by
    have := Nat.div_mul_le_self (2 ^ 88 * k + D - 1) D
    show (2 ^ 88 * k + D - 1) / D * D < _
    omega
  have B2 : ∀ x, x * D < 2 ^ 88 * k → x < B := by
    intro x hx
    show x < (2 ^ 88 * k + D - 1) / D
    apply (Nat.le_div_iff_mul_le hD).2
    rw [Nat.succ_mul]
    omega
  have hall : ∀ x, below n k x = true → x < B := by
    intro x hx
    apply B2
    unfold below at hx
    split at hx
    · rename_i i hp
      obtain ⟨t, ht, rfl⟩ := pick_some hp
      obtain ⟨rfl, -⟩ := toss_some ht
      simp only [decide_eq_true_eq] at hx
      unfold index at hx
      rw [hr] at hx
      have h1 : round24 x * n < k * 2 ^ 64 := by
        rcases Nat.lt_or_ge (round24 x * n) (k * 2 ^ 64) with h | h
        · exact h
        · have := round24_mono h
          rw [round24_float (by omega)] at this
          have := (Nat.le_div_iff_mul_le (by decide : 0 < 2 ^ 64)).2 this
          omega
      obtain ⟨-, r2⟩ := round24_near x
      have h2 : x * D ≤ 2 ^ 24 * (round24 x * n) := by
        have := Nat.mul_le_mul_right n r2
        have e : x * D = (2 ^ 24 - 1) * x * n := by
          show x * (n * (2 ^ 24 - 1)) = _
          rw [Nat.mul_comm n, ← Nat.mul_assoc, Nat.mul_comm x]
        rw [e]
        rw [Nat.mul_assoc (2 ^ 24)] at this
        exact this
      omega
    · cases hx
  have hc := count_le hall (2 ^ 64)
  generalize (List.range (2 ^ 64)).countP (below n k) = c at *
  have h6 : (n * c) * (2 ^ 24 - 1) ≤ B * D := by
    have := Nat.mul_le_mul_right D hc
    have e : c * D = (n * c) * (2 ^ 24 - 1) := by
      show c * (n * (2 ^ 24 - 1)) = _
      rw [← Nat.mul_assoc, Nat.mul_comm c n]
    omega
  have e : D = n * (2 ^ 24 - 1) := rfl
  generalize n * c = w at *
  omega

theorem countP_split (n k N : Nat) : (List.range N).countP (below n (k + 1)) =
    (List.range N).countP (below n k) + (List.range N).countP fun x => pick n x == some k := by
  induction N with
  | zero => rfl
  | succ N ih =>
    simp only [List.range_succ, List.countP_append, ih, List.countP_cons, List.countP_nil]
    have : (if below n (k + 1) N = true then 1 else 0) = (if below n k N = true then 1 else 0) +
        (if (pick n N == some k) = true then 1 else 0) := by
      unfold below
      cases pick n N with
      | none => simp
      | some i =>
        simp only [decide_eq_true_eq, beq_iff_eq, Option.some.injEq]
        split <;> split <;> split <;> omega
    omega

end Toss

/-- Each of up to 2^24 elements is drawn by 2^64 / n of the 2^64 numbers of the generator, up to a relative error of about
(2 k + 1) / 2^23 for the element at position `k`. -/
theorem C106_frequency_partial {n : Nat} (hn : n ≤ 2 ^ 24) {k : Nat} (hk : k < n) :
    n * hits n k ≤ 2 ^ 64 + (2 * k + 1) * 2 ^ 41 + n ∧ 2 ^ 64 ≤ n * hits n k + (2 * k + 1) * 2 ^ 41 + n := by
  have h1 := below_lower (by omega) hn (show k ≤ n by omega)
  have h2 := below_upper (by omega) hn (show k ≤ n by omega)
  have h3 := below_lower (by omega) hn (show k + 1 ≤ n by omega)
  have h4 := below_upper (by omega) hn (show k + 1 ≤ n by omega)
  rw [countP_split, Nat.mul_add] at h3 h4
  unfold hits
  generalize n * (List.range (2 ^ 64)).countP (below n k) = a at *
  generalize n * (List.range (2 ^ 64)).countP (fun x => pick n x == some k) = b at *
  omega

/-- Even with fewer than 2^24 elements there are gaps: of 12588380 elements the one at position 8388608 is never drawn. -/
theorem C106_gap_refuted (x : Nat) : pick 12588380 x ≠ some 8388608 := by
  intro h
  obtain ⟨t, ht, h⟩ := pick_some h
  obtain ⟨rfl, -⟩ := toss_some ht
  have key : round24 x ≤ 11179952 * 2 ^ 40 ∨ 11179953 * 2 ^ 40 ≤ round24 x := by
    rcases Nat.lt_or_ge x (2 ^ 63) with hx | hx
    · have := round24_mono (Nat.le_of_lt hx)
      rw [show (2 : Nat) ^ 63 = 2 ^ 23 * 2 ^ 40 from by decide, round24_float (by decide)] at this
      omega
    · obtain ⟨c, hc⟩ := round24_multiple (a := x) (j := 39) hx
      rw [hc]
      omega
  unfold index at h
  rcases key with k | k
  · have := Nat.div_le_div_right (c := 2 ^ 64) (round24_mono (Nat.mul_le_mul_right (round24 12588380) k))
    rw [h] at this
    exact absurd this (by decide +kernel)
  · have := Nat.div_le_div_right (c := 2 ^ 64) (round24_mono (Nat.mul_le_mul_right (round24 12588380) k))
    rw [h] at this
    exact absurd this (by decide +kernel)

/-! Hypotheses are met. -/

/-- Three elements; the last number is dropped, as its float is 1. -/
example : sample ['a', 'b', 'c'] [0, 2 ^ 63, 2 ^ 64 - 2 ^ 40, 2 ^ 64 - 1] = some ['a', 'b', 'c'] := by decide +kernel

/-- Positions around 2^24 in a population of 2^24 + 4: the even ones are drawn. -/
example : pick (2 ^ 24 + 4) (2 ^ 64 - 2 ^ 40) = some (2 ^ 24 + 2) ∧ ∀ x, pick (2 ^ 24 + 4) x ≠ some (2 ^ 24 + 1) :=
  ⟨by decide +kernel, C106_skipped_refuted _ 0 _ (by decide) (by decide)⟩

/-- A population of that size. -/
example (numbers : List Nat) : ∃ out, sample (List.range (2 ^ 24 + 4)) numbers = some out ∧ 2 ^ 24 + 1 ∉ out := by
  obtain ⟨out, h, -⟩ := C106_in_range (List.range (2 ^ 24 + 4)) (by rw [ne_eq, List.range_eq_nil]; decide) numbers
  refine ⟨out, h, ?_⟩
  have := C106_never_sampled_refuted _ List.nodup_range numbers h (k := 2 ^ 24 + 1) (by rw [List.length_range]; decide) (by decide) (by decide)
  rwa [List.getElem_range] at this

/-- Of 1000 elements each is drawn with a probability between 0.999 and 1.001 of 1 / 1000. -/
example (k : Nat) (hk : k < 1000) : 999 * 2 ^ 64 ≤ 1000 * (1000 * hits 1000 k) ∧ 1000 * (1000 * hits 1000 k) ≤ 1001 * 2 ^ 64 := by
  obtain ⟨h1, h2⟩ := C106_frequency_partial (n := 1000) (by decide) hk
  generalize 1000 * hits 1000 k = c at *
  omega

end DeepGNN
