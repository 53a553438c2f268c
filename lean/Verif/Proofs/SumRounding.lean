import Verif.Proofs.Toss
import Verif.Proofs.NodeQuery
import Verif.Proofs.Metadata
import Verif.Proofs.CountAt
import Verif.Spec.Rounding

/-
Rounding errors of running sums of weights.
-/

namespace DeepGNN

open Toss

theorem f32_toNat {x : Int} (h : 0 ≤ x) : f32 x = (round24 x.toNat : Nat) := by
  unfold f32
  rw [if_neg (by omega), show x.natAbs = x.toNat by omega]

theorem f32_ge_zero {x : Int} (h : 0 ≤ x) : 0 ≤ f32 x := by rw [f32_toNat h]; omega

theorem f32_le_f32 {x y : Int} (h : 0 ≤ x) (hxy : x ≤ y) : f32 x ≤ f32 y := by
  rw [f32_toNat h, f32_toNat (by omega)]
  have := round24_mono (a := x.toNat) (b := y.toNat) (by omega)
  omega

theorem f32_close {x : Int} (h : 0 ≤ x) : 2 ^ 24 * f32 x ≤ (2 ^ 24 + 1) * x ∧ (2 ^ 24 - 1) * x ≤ 2 ^ 24 * f32 x := by
  rw [f32_toNat h]
  have := round24_near x.toNat
  omega

theorem fsum_snoc (a : Int) (l : List Int) (w : Int) : fsum a (l ++ [w]) = f32 (fsum a l + w) := by
  simp [fsum, List.foldl_append]

theorem sum_ge_zero : ∀ {l : List Int}, (∀ w ∈ l, 0 ≤ w) → 0 ≤ l.sum
  | [], _ => by simp
  | w :: l, h => by
    have h1 := sum_ge_zero fun v hv => h v (List.mem_cons_of_mem _ hv)
    have h2 := h w List.mem_cons_self
    rw [List.sum_cons]
    omega

theorem snoc_induct {α} {P : List α → Prop} (h0 : P []) (hs : ∀ l a, P l → P (l ++ [a])) (l : List α) : P l := by
  rw [← l.reverse_reverse]
  induction l.reverse with
  | nil => exact h0
  | cons a l ih => rw [List.reverse_cons]; exact hs _ _ ih

theorem fsum_ge_zero {l : List Int} (h : ∀ w ∈ l, 0 ≤ w) : 0 ≤ fsum 0 l ∧ f32 (fsum 0 l) = fsum 0 l := by
  revert h
  refine snoc_induct (P := fun l => (∀ w ∈ l, 0 ≤ w) → 0 ≤ fsum 0 l ∧ f32 (fsum 0 l) = fsum 0 l) ?_ ?_ l
  · intro _; exact ⟨by simp [fsum], by simp [fsum]⟩
  · intro l w ih h
    obtain ⟨h1, -⟩ := ih fun v hv => h v (by simp [hv])
    have h2 := h w (by simp)
    rw [fsum_snoc]
    exact ⟨f32_ge_zero (by omega), f32_idem _⟩

theorem fsum_grows {l : List Int} (h : ∀ w ∈ l, 0 ≤ w) {w : Int} (hw : 0 ≤ w) : fsum 0 l ≤ fsum 0 (l ++ [w]) := by
  obtain ⟨h1, h2⟩ := fsum_ge_zero h
  rw [fsum_snoc]
  calc fsum 0 l = f32 (fsum 0 l) := h2.symm
    _ ≤ _ := f32_le_f32 h1 (by omega)

/-- The running sum of `k` weights is within `k / 2^24` of the sum. -/
theorem fsum_close {l : List Int} (h : ∀ w ∈ l, 0 ≤ w) (hl : l.length ≤ 2 ^ 24) :
    (2 ^ 24 - (l.length : Int)) * l.sum ≤ 2 ^ 24 * fsum 0 l ∧ (2 ^ 24 - (l.length : Int)) * fsum 0 l ≤ 2 ^ 24 * l.sum := by
  revert h hl
  refine snoc_induct (P := fun l => (∀ w ∈ l, 0 ≤ w) → l.length ≤ 2 ^ 24 →
    (2 ^ 24 - (l.length : Int)) * l.sum ≤ 2 ^ 24 * fsum 0 l ∧ (2 ^ 24 - (l.length : Int)) * fsum 0 l ≤ 2 ^ 24 * l.sum) ?_ ?_ l
  · intro _ _; simp [fsum]
  · intro l w ih h hl
    have h0 : ∀ v ∈ l, 0 ≤ v := fun v hv => h v (by simp [hv])
    rw [List.length_append, List.length_singleton] at hl ⊢
    obtain ⟨i1, i2⟩ := ih h0 (by omega)
    obtain ⟨c1, -⟩ := fsum_ge_zero h0
    have s1 := sum_ge_zero h0
    have w0 := h w (by simp)
    obtain ⟨e1, e2⟩ := f32_close (x := fsum 0 l + w) (by omega)
    rw [fsum_snoc, List.sum_append, List.sum_singleton]
    generalize fsum 0 l = c at *
    generalize l.sum = S at *
    generalize f32 (c + w) = d at *
    obtain ⟨k, hk⟩ : ∃ k : Int, k = l.length := ⟨_, rfl⟩
    rw [← hk] at i1 i2
    rw [show ((l.length + 1 : Nat) : Int) = k + 1 by omega]
    have hk0 : 0 ≤ k := by omega
    have hk1 : 0 ≤ 2 ^ 24 - (k + 1) := by omega
    clear hl ih h h0 hk
    have d0 : 0 ≤ d := by omega
    constructor
    · -- (M - k - 1) (S + w) ≤ (M - 1) (c + w) ≤ M d
      have a1 : (2 ^ 24 - (k + 1)) * w ≤ (2 ^ 24 - 1) * w := Int.mul_le_mul_of_nonneg_right (by omega) w0
      have a2 : (2 ^ 24 - (k + 1)) * S * 2 ^ 24 ≤ (2 ^ 24 - 1) * c * 2 ^ 24 := by
        have b1 : (2 ^ 24 - (k + 1)) * 2 ^ 24 ≤ (2 ^ 24 - 1) * (2 ^ 24 - k) := by omega
        have b2 := Int.mul_le_mul_of_nonneg_right b1 s1
        have b3 := Int.mul_le_mul_of_nonneg_left i1 (show (0 : Int) ≤ 2 ^ 24 - 1 by decide)
        have b4 : (2 ^ 24 - (k + 1)) * 2 ^ 24 * S = (2 ^ 24 - (k + 1)) * S * 2 ^ 24 := by ac_rfl
        have b5 : (2 ^ 24 - 1) * (2 ^ 24 - k) * S = (2 ^ 24 - 1) * ((2 ^ 24 - k) * S) := by ac_rfl
        omega
      rw [Int.mul_add]
      rw [Int.mul_add] at e2
      omega
    · have a1 : (2 ^ 24 - (k + 1)) * (2 ^ 24 * d) ≤ (2 ^ 24 - (k + 1)) * ((2 ^ 24 + 1) * (c + w)) :=
        Int.mul_le_mul_of_nonneg_left e1 hk1
      have a2 : (2 ^ 24 - (k + 1)) * (2 ^ 24 + 1) ≤ 2 ^ 24 * (2 ^ 24 - k) := by omega
      have a3 := Int.mul_le_mul_of_nonneg_right a2 (c := c + w) (by omega)
      have a4 : (2 ^ 24 - k) * w ≤ 2 ^ 24 * w := Int.mul_le_mul_of_nonneg_right (by omega) w0
      have a5 : (2 ^ 24 - (k + 1)) * (2 ^ 24 + 1) * (c + w) = (2 ^ 24 - (k + 1)) * ((2 ^ 24 + 1) * (c + w)) := by ac_rfl
      have a6 : 2 ^ 24 * (2 ^ 24 - k) * (c + w) = 2 ^ 24 * ((2 ^ 24 - k) * c) + 2 ^ 24 * ((2 ^ 24 - k) * w) := by
        rw [Int.mul_add]; ac_rfl
      have a7 : (2 ^ 24 - (k + 1)) * (2 ^ 24 * d) = 2 ^ 24 * ((2 ^ 24 - (k + 1)) * d) := by ac_rfl
      omega

/-- The weight reported for an edge, with at most 2^23 edges of its type. -/
theorem seenWeight_close {ws : List Int} (h : ∀ w ∈ ws, 0 ≤ w) (hl : ws.length ≤ 2 ^ 23) (i : Nat) (hi : i < ws.length) :
    0 ≤ seenWeight ws i ∧ 2 ^ 22 * (seenWeight ws i - ws[i]) ≤ ws.sum ∧ 2 ^ 22 * (ws[i] - seenWeight ws i) ≤ ws.sum := by
  have hp : ∀ j, ∀ w ∈ ws.take j, 0 ≤ w := fun j w hw => h w (List.mem_of_mem_take hw)
  have hd : ∀ w ∈ ws.drop (i + 1), 0 ≤ w := fun w hw => h w (List.mem_of_mem_drop hw)
  have hw := h ws[i] (List.getElem_mem hi)
  have hs : ws.sum = (ws.take i).sum + ws[i] + (ws.drop (i + 1)).sum := by
    conv => lhs; rw [← List.take_append_drop (i + 1) ws, List.sum_append, List.take_succ_eq_append_getElem hi, List.sum_append]
    simp
  have s1 := sum_ge_zero (hp i)
  have s2 := sum_ge_zero hd
  have ht : ws.take (i + 1) = ws.take i ++ [ws[i]] := List.take_succ_eq_append_getElem hi
  unfold seenWeight
  split
  · subst i
    have : fsum 0 (ws.take 1) = f32 ws[0] := by
      rw [show (1 : Nat) = 0 + 1 from rfl, ht]; simp [fsum]
    rw [this]
    obtain ⟨e1, e2⟩ := f32_close hw
    have := f32_ge_zero hw
    omega
  · obtain ⟨a0, -⟩ := fsum_ge_zero (hp i)
    have g := fsum_grows (hp i) hw
    rw [← ht] at g
    obtain ⟨-, u⟩ := fsum_close (hp (i + 1)) (by rw [List.length_take]; omega)
    rw [List.length_take, Nat.min_eq_left (by omega)] at u
    have e := f32_close (x := fsum 0 (ws.take i) + ws[i]) (by omega)
    rw [← fsum_snoc, ← ht] at e
    have e' := f32_close (x := fsum 0 (ws.take (i + 1)) - fsum 0 (ws.take i)) (by omega)
    have p := f32_ge_zero (x := fsum 0 (ws.take (i + 1)) - fsum 0 (ws.take i)) (by omega)
    have hs' : (ws.take (i + 1)).sum = (ws.take i).sum + ws[i] := by rw [ht, List.sum_append]; simp
    rw [hs'] at u
    have c2 : fsum 0 (ws.take (i + 1)) ≤ 2 * ((ws.take i).sum + ws[i]) := by
      have := Int.mul_le_mul_of_nonneg_right (a := 2 ^ 23) (b := 2 ^ 24 - ((i + 1 : Nat) : Int)) (c := fsum 0 (ws.take (i + 1)))
        (by omega) (by omega)
      omega
    rw [hs]
    generalize f32 (fsum 0 (ws.take (i + 1)) - fsum 0 (ws.take i)) = v at *
    generalize fsum 0 (ws.take (i + 1)) = c at *
    generalize fsum 0 (ws.take i) = a at *
    generalize ws[i] = w at *
    generalize (ws.take i).sum = S at *
    generalize (ws.drop (i + 1)).sum = R at *
    clear u h hl hi hp hd hs hs' ht g
    omega

/-- A float times a power of two is a float. -/
theorem round24_scaled {a : Nat} (h : round24 a = a) (k : Nat) : round24 (a * 2 ^ k) = a * 2 ^ k := by
  have hr := round24_rup a
  rw [h] at hr
  obtain ⟨q, hq⟩ := rup_dvd (a.log2 - 23) a
  rw [← hr] at hq
  have hl : a < 2 ^ (a.log2 + 1) := Nat.lt_log2_self
  have hqs : q ≤ 2 ^ 24 := by
    rcases Nat.lt_or_ge a.log2 23 with h1 | h1
    · rw [show a.log2 - 23 = 0 by omega] at hq
      have : 2 ^ (a.log2 + 1) ≤ 2 ^ 24 := Nat.pow_le_pow_right (by omega) (by omega)
      omega
    · rw [show a.log2 + 1 = (a.log2 - 23) + 24 by omega, Nat.pow_add] at hl
      refine Nat.le_of_lt (Nat.lt_of_mul_lt_mul_left (a := 2 ^ (a.log2 - 23)) ?_)
      omega
  generalize a.log2 - 23 = e at *
  rw [hq, Nat.mul_comm _ q, Nat.mul_assoc, ← Nat.pow_add]
  exact round24_float hqs

/-- The numbers for which the draw is at most `c`. -/
def under (W c x : Nat) : Bool := match toss x with
  | some t => decide (round24 (W * t) ≤ c * 2 ^ 64)
  | none => false

theorem countP_range_ge {p : Nat → Bool} {A : Nat} (h : ∀ x, x < A → p x = true) {N : Nat} (hN : A ≤ N) : A ≤ (List.range N).countP p := by
  have h1 : (List.range A).countP p = A := by
    rw [List.countP_eq_length.2 (by intro x hx; exact h x (List.mem_range.1 hx)), List.length_range]
  have h2 : (List.range A).Sublist (List.range N) := List.range_sublist.2 hN
  have := h2.countP_le (p := p)
  omega

theorem countP_range_le {p : Nat → Bool} {B : Nat} (h : ∀ x, p x = true → x < B) : ∀ N, (List.range N).countP p ≤ B
  | 0 => by simp
  | N + 1 => by
    by_cases hN : p N = true
    · have h1 : N < B := h N hN
      have := List.countP_le_length (p := p) (l := List.range (N + 1))
      rw [List.length_range] at this
      omega
    · rw [List.range_succ, List.countP_append, List.countP_cons_of_neg (by simpa using hN), List.countP_nil]
      exact countP_range_le h N

theorem under_lower {W c : Nat} (hW : 0 < W) (hc : c ≤ W) :
    c * 2 ^ 64 ≤ W * (List.range (2 ^ 64)).countP (under W c) + c * 2 ^ 41 := by
  let D := W * (2 ^ 24 + 1) ^ 2
  have hD : 0 < D := Nat.mul_pos hW (by decide)
  let A := 2 ^ 112 * c / D + 1
  have A1 : 2 ^ 112 * c ≤ A * D := Nat.le_of_lt (by
    have := Nat.lt_div_mul_add (a := 2 ^ 112 * c) (b := D) hD
    show _ < (2 ^ 112 * c / D + 1) * D
    rw [Nat.add_mul, Nat.one_mul]; exact this)
  have A2 : ∀ x, x < A → x * D ≤ 2 ^ 112 * c := by
    intro x hx
    exact Nat.le_trans (Nat.mul_le_mul_right _ (Nat.lt_succ_iff.1 hx)) (Nat.div_mul_le_self _ _)
  have A3 : ∀ x, x < A → x * (2 ^ 24 + 1) ^ 2 ≤ 2 ^ 112 := by
    intro x hx
    have h1 := A2 x hx
    have h2 : 2 ^ 112 * c ≤ 2 ^ 112 * W := Nat.mul_le_mul_left _ hc
    refine Nat.le_of_mul_le_mul_left (a := x * (2 ^ 24 + 1) ^ 2) (c := W) ?_ hW
    have e : W * (x * (2 ^ 24 + 1) ^ 2) = x * D := by
      show _ = x * (W * (2 ^ 24 + 1) ^ 2)
      rw [← Nat.mul_assoc, ← Nat.mul_assoc, Nat.mul_comm W x]
    rw [e, Nat.mul_comm W]; exact Nat.le_trans h1 h2
  have A4 : A ≤ 2 ^ 64 := by
    have := A3 (A - 1) (by show A - 1 < A; have : 0 < A := Nat.succ_pos _; omega)
    omega
  have hall : ∀ x, x < A → under W c x = true := by
    intro x hx
    have h1 := A2 x hx
    have h3 := A3 x hx
    obtain ⟨r1, -⟩ := round24_near x
    have hacc : round24 x < 2 ^ 64 := by omega
    unfold under toss
    rw [if_pos hacc]
    simp only [decide_eq_true_eq]
    obtain ⟨s1, -⟩ := round24_near (W * round24 x)
    have h5 : 2 ^ 24 * (W * round24 x) ≤ (2 ^ 24 + 1) * (W * x) := by
      rw [Nat.mul_left_comm, Nat.mul_left_comm _ W]
      exact Nat.mul_le_mul_left _ r1
    have e : x * D = (W * x) * (2 ^ 24 + 1) ^ 2 := by
      show x * (W * (2 ^ 24 + 1) ^ 2) = _
      rw [← Nat.mul_assoc, Nat.mul_comm x W]
    rw [e] at h1
    generalize round24 (W * round24 x) = z at *
    generalize W * round24 x = w at *
    generalize W * x = v at *
    clear A1 A2 A3 A4 hx e r1 h3 hacc
    omega
  have hcnt := countP_range_ge hall A4
  generalize (List.range (2 ^ 64)).countP (under W c) = n at *
  have h6 : A * D ≤ (W * n) * (2 ^ 24 + 1) ^ 2 := by
    have := Nat.mul_le_mul_right D hcnt
    have e : n * D = (W * n) * (2 ^ 24 + 1) ^ 2 := by
      show n * (W * (2 ^ 24 + 1) ^ 2) = _
      rw [← Nat.mul_assoc, Nat.mul_comm n W]
    rw [e] at this; exact this
  generalize W * n = w at *
  have h7 := Nat.le_trans A1 h6
  clear A1 h6 A2 A3 hall hc
  omega

theorem under_upper {W c : Nat} (hW : 0 < W) :
    W * (List.range (2 ^ 64)).countP (under W c) ≤ c * 2 ^ 64 + c * 2 ^ 42 + W := by
  let D := W * (2 ^ 24 - 1) ^ 2
  have hD : 0 < D := Nat.mul_pos hW (by decide)
  let B := 2 ^ 112 * c / D + 1
  have hall : ∀ x, under W c x = true → x < B := by
    intro x hx
    show x < 2 ^ 112 * c / D + 1
    apply Nat.lt_succ_of_le
    apply (Nat.le_div_iff_mul_le hD).2
    unfold under at hx
    split at hx
    · rename_i t ht
      obtain ⟨rfl, -⟩ := toss_some ht
      rw [decide_eq_true_eq] at hx
      obtain ⟨-, r2⟩ := round24_near x
      obtain ⟨-, s2⟩ := round24_near (W * round24 x)
      have h5 : (2 ^ 24 - 1) * (W * x) ≤ 2 ^ 24 * (W * round24 x) := by
        rw [Nat.mul_left_comm, Nat.mul_left_comm _ W]
        exact Nat.mul_le_mul_left _ r2
      have e : x * D = (W * x) * (2 ^ 24 - 1) ^ 2 := by
        show x * (W * (2 ^ 24 - 1) ^ 2) = _
        rw [← Nat.mul_assoc, Nat.mul_comm x W]
      rw [e]
      generalize round24 (W * round24 x) = z at *
      generalize W * round24 x = w at *
      generalize W * x = v at *
      clear ht r2 e
      omega
    · simp at hx
  have hcnt := countP_range_le hall (2 ^ 64)
  generalize (List.range (2 ^ 64)).countP (under W c) = n at *
  have h6 : (W * n) * (2 ^ 24 - 1) ^ 2 ≤ 2 ^ 112 * c + W * (2 ^ 24 - 1) ^ 2 := by
    have h1 := Nat.mul_le_mul_right D hcnt
    have e : n * D = (W * n) * (2 ^ 24 - 1) ^ 2 := by
      show n * (W * (2 ^ 24 - 1) ^ 2) = _
      rw [← Nat.mul_assoc, Nat.mul_comm n W]
    have h2 := Nat.div_mul_le_self (2 ^ 112 * c) D
    have h3 : B * D = 2 ^ 112 * c / D * D + D := by
      show (2 ^ 112 * c / D + 1) * D = _
      rw [Nat.add_mul, Nat.one_mul]
    rw [e, h3] at h1
    exact Nat.le_trans h1 (Nat.add_le_add_right h2 _)
  generalize W * n = w at *
  clear hall hcnt
  omega

end DeepGNN
