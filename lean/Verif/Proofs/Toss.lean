import Verif.Spec.Toss

namespace DeepGNN.Toss

open DeepGNN

/-! Rounding. -/

/-- Rounding to a multiple of `2 ^ e`. -/
def rup (e a : Nat) : Nat :=
  (if 2 * (a % 2 ^ e) > 2 ^ e ∨ (2 * (a % 2 ^ e) = 2 ^ e ∧ (a / 2 ^ e) % 2 = 1) then a / 2 ^ e + 1 else a / 2 ^ e) * 2 ^ e

theorem rup_zero (a : Nat) : rup 0 a = a := by
  unfold rup
  rw [Nat.pow_zero, Nat.mod_one, Nat.div_one, if_neg (by omega), Nat.mul_one]

theorem round24_rup (a : Nat) : round24 a = rup (a.log2 - 23) a := by
  unfold round24
  split
  · rename_i h
    have : a.log2 - 23 = 0 := by
      by_cases ha : a = 0
      · subst ha; decide
      · have := (Nat.log2_lt ha).2 h
        omega
    rw [this, rup_zero]
  · rfl

theorem rup_dvd (e a : Nat) : 2 ^ e ∣ rup e a := by
  unfold rup; exact Nat.dvd_mul_left _ _

theorem rup_mono (e : Nat) {a b : Nat} (h : a ≤ b) : rup e a ≤ rup e b := by
  unfold rup
  apply Nat.mul_le_mul_right
  have hq : a / 2 ^ e ≤ b / 2 ^ e := Nat.div_le_div_right h
  have ha := Nat.div_add_mod a (2 ^ e)
  have hb := Nat.div_add_mod b (2 ^ e)
  rcases Nat.lt_or_eq_of_le hq with hq | hq
  · split <;> split <;> omega
  · have hr : a % 2 ^ e ≤ b % 2 ^ e := by rw [hq] at ha; omega
    rw [hq]
    split <;> split <;> omega

/-- Twice the error is at most one unit. -/
theorem rup_near (e a : Nat) : 2 * rup e a ≤ 2 * a + 2 ^ e ∧ 2 * a ≤ 2 * rup e a + 2 ^ e := by
  unfold rup
  have ha := Nat.div_add_mod a (2 ^ e)
  have hm := Nat.mod_lt a (Nat.two_pow_pos e)
  rw [Nat.mul_comm] at ha
  split
  · rw [Nat.add_mul, Nat.one_mul]; omega
  · omega

theorem rup_exact {e a : Nat} (h : 2 ^ e ∣ a) : rup e a = a := by
  unfold rup
  rw [Nat.mod_eq_zero_of_dvd h, if_neg (by have := Nat.two_pow_pos e; omega), Nat.div_mul_cancel h]

theorem log2_unit {a : Nat} (ha : a ≠ 0) : 2 ^ a.log2 ≤ a ∧ a < 2 ^ (a.log2 + 1) := ⟨Nat.log2_self_le ha, Nat.lt_log2_self⟩

theorem log2_eq {a L : Nat} (h1 : 2 ^ L ≤ a) (h2 : a < 2 ^ (L + 1)) : a.log2 = L := by
  have ha : a ≠ 0 := by have := Nat.two_pow_pos L; omega
  have a1 := (Nat.log2_lt ha).2 h2
  have a2 := (Nat.le_log2 ha).2 h1
  omega

theorem pow_split {e k : Nat} (h : k ≤ e) : 2 ^ e = 2 ^ k * 2 ^ (e - k) := by
  rw [← Nat.pow_add]; congr 1; omega

/-- A number with 24 significant bits is its own float. -/
theorem round24_float {q e : Nat} (hq : q ≤ 2 ^ 24) : round24 (q * 2 ^ e) = q * 2 ^ e := by
  rw [round24_rup]
  apply rup_exact
  by_cases h0 : q * 2 ^ e = 0
  · rw [h0]; exact Nat.dvd_zero _
  obtain ⟨h1, -⟩ := log2_unit h0
  generalize hL : (q * 2 ^ e).log2 = L at *
  rcases Nat.lt_or_eq_of_le hq with hq | hq
  · have : 2 ^ L < 2 ^ (24 + e) := by
      rw [Nat.pow_add]
      exact Nat.lt_of_le_of_lt h1 (Nat.mul_lt_mul_of_pos_right hq (Nat.two_pow_pos e))
    have := (Nat.pow_lt_pow_iff_right (by decide : 1 < 2)).1 this
    exact Nat.dvd_trans (Nat.pow_dvd_pow 2 (by omega : L - 23 ≤ e)) (Nat.dvd_mul_left _ _)
  · rw [hq, ← Nat.pow_add]
    apply Nat.pow_dvd_pow
    rw [hq, ← Nat.pow_add] at h1
    have := (Nat.pow_le_pow_iff_right (by decide : 1 < 2)).1 h1
    omega

theorem round24_mono {a b : Nat} (h : a ≤ b) : round24 a ≤ round24 b := by
  by_cases ha : a = 0
  · subst ha; exact Nat.zero_le _
  have hb : b ≠ 0 := by omega
  obtain ⟨a1, a2⟩ := log2_unit ha
  obtain ⟨b1, b2⟩ := log2_unit hb
  have hl : a.log2 ≤ b.log2 := (Nat.le_log2 hb).2 (Nat.le_trans a1 h)
  rw [round24_rup a, round24_rup b]
  generalize a.log2 = L at *
  generalize b.log2 = M at *
  rcases Nat.lt_or_ge (L - 23) (M - 23) with hlt | hge
  · have s1 : rup (L - 23) a ≤ 2 ^ (L + 1) := by
      rw [← rup_exact (Nat.pow_dvd_pow 2 (by omega : L - 23 ≤ L + 1))]
      exact rup_mono _ (Nat.le_of_lt a2)
    have s2 : 2 ^ M ≤ rup (M - 23) b := by
      rw [← rup_exact (Nat.pow_dvd_pow 2 (by omega : M - 23 ≤ M))]
      exact rup_mono _ b1
    have s3 : 2 ^ (L + 1) ≤ 2 ^ M := Nat.pow_le_pow_right (by decide) (by omega)
    omega
  · have e : L - 23 = M - 23 := by omega
    rw [e]
    exact rup_mono _ h

/-- The relative error is at most 1 / 2^24. -/
theorem round24_near (a : Nat) : 2 ^ 24 * round24 a ≤ (2 ^ 24 + 1) * a ∧ (2 ^ 24 - 1) * a ≤ 2 ^ 24 * round24 a := by
  by_cases hs : a < 2 ^ 24
  · have : round24 a = a := by unfold round24; rw [if_pos hs]
    rw [this]; omega
  have ha : a ≠ 0 := by omega
  obtain ⟨a1, a2⟩ := log2_unit ha
  have h24 : 24 ≤ a.log2 := (Nat.le_log2 ha).2 (by omega)
  rw [round24_rup]
  generalize a.log2 = L at *
  obtain ⟨h1, h2⟩ := rup_near (L - 23) a
  rw [pow_split (by omega : 23 ≤ L)] at a1
  generalize rup (L - 23) a = r at *
  generalize 2 ^ (L - 23) = u at *
  omega

theorem round24_multiple {a j : Nat} (h : 2 ^ (24 + j) ≤ a) : 2 ^ (j + 1) ∣ round24 a := by
  have ha : a ≠ 0 := by have := Nat.two_pow_pos (24 + j); omega
  have := (Nat.le_log2 ha).2 h
  rw [round24_rup]
  exact Nat.dvd_trans (Nat.pow_dvd_pow 2 (by omega)) (rup_dvd _ _)

theorem toss_some {x t : Nat} (h : toss x = some t) : t = round24 x ∧ t < 2 ^ 64 := by
  unfold toss at h
  split at h
  · cases h; exact ⟨rfl, by assumption⟩
  · cases h

/-- The largest float below 1. -/
theorem toss_le {x t : Nat} (h : toss x = some t) : t ≤ 2 ^ 64 - 2 ^ 40 := by
  obtain ⟨rfl, h⟩ := toss_some h
  rcases Nat.lt_or_ge x (2 ^ 63) with hx | hx
  · have := round24_mono (Nat.le_of_lt hx)
    rw [show (2 : Nat) ^ 63 = 2 ^ 23 * 2 ^ 40 from by decide, round24_float (by decide)] at this
    omega
  · obtain ⟨c, hc⟩ := round24_multiple (a := x) (j := 39) hx
    rw [hc] at h ⊢
    omega

theorem index_lt {n t : Nat} (hn : 0 < n) (ht : t ≤ 2 ^ 64 - 2 ^ 40) : index n t < n := by
  unfold index
  have near := (round24_near n).1
  have nearL := (round24_near n).2
  -- the float of `n` is positive and has 24 significant bits
  obtain ⟨q0, e0, hq0, hn'⟩ : ∃ q e, q ≤ 2 ^ 24 ∧ round24 n = q * 2 ^ e := by
    have hn0 : n ≠ 0 := by omega
    obtain ⟨n1, n2⟩ := log2_unit hn0
    obtain ⟨c, hc⟩ := rup_dvd (n.log2 - 23) n
    refine ⟨c, n.log2 - 23, ?_, by rw [round24_rup, hc, Nat.mul_comm]⟩
    rcases Nat.lt_or_ge n.log2 23 with h | h
    · have e : n.log2 - 23 = 0 := by omega
      rw [e, rup_zero, Nat.pow_zero, Nat.one_mul] at hc
      have : 2 ^ (n.log2 + 1) ≤ 2 ^ 24 := Nat.pow_le_pow_right (by decide) (by omega)
      omega
    · have s : rup (n.log2 - 23) n ≤ 2 ^ (n.log2 + 1) := by
        rw [← rup_exact (Nat.pow_dvd_pow 2 (by omega : n.log2 - 23 ≤ n.log2 + 1))]
        exact rup_mono _ (Nat.le_of_lt n2)
      have e : n.log2 + 1 = n.log2 - 23 + 24 := by omega
      rw [hc, e, Nat.pow_add] at s
      exact Nat.le_of_mul_le_mul_left s (Nat.two_pow_pos _)
  have hpos : 0 < round24 n := by
    rcases Nat.eq_zero_or_pos (round24 n) with h | h
    · rw [h] at nearL; omega
    · exact h
  generalize hm : round24 n = m at *
  have hF : 2 ^ 64 * m = q0 * 2 ^ (e0 + 64) := by rw [hn', Nat.pow_add, Nat.mul_comm, Nat.mul_assoc]
  -- normalize
  have hF1 : 2 ^ 64 * m - 1 ≠ 0 := by omega
  obtain ⟨l1, l2⟩ := log2_unit hF1
  generalize hL : (2 ^ 64 * m - 1).log2 = L at *
  have hL63 : 63 ≤ L := by
    rw [← hL]
    exact (Nat.le_log2 hF1).2 (by omega)
  have b1 : 2 ^ L < 2 ^ 64 * m := by omega
  have b2 : 2 ^ 64 * m ≤ 2 ^ (L + 1) := by omega
  have hdvd : 2 ^ (L - 23) ∣ 2 ^ 64 * m := by
    rw [hF]
    have : 2 ^ L < 2 ^ (24 + (e0 + 64)) := by
      rw [Nat.pow_add]
      refine Nat.lt_of_lt_of_le b1 ?_
      rw [hF]
      exact Nat.mul_le_mul_right _ hq0
    have := (Nat.pow_lt_pow_iff_right (by decide : 1 < 2)).1 this
    exact Nat.dvd_trans (Nat.pow_dvd_pow 2 (by omega)) (Nat.dvd_mul_left _ _)
  obtain ⟨q, hq⟩ := hdvd
  have p1 : 2 ^ L = 2 ^ 23 * 2 ^ (L - 23) := pow_split (by omega)
  have p2 : 2 ^ (L + 1) = 2 ^ 24 * 2 ^ (L - 23) := by rw [← Nat.pow_add]; congr 1; omega
  have hu := Nat.two_pow_pos (L - 23)
  have q1 : 2 ^ 23 < q := by
    rw [p1, hq, Nat.mul_comm (2 ^ (L - 23))] at b1
    exact Nat.lt_of_mul_lt_mul_right b1
  have q2 : q ≤ 2 ^ 24 := by
    rw [p2, hq, Nat.mul_comm (2 ^ (L - 23))] at b2
    exact Nat.le_of_mul_le_mul_right b2 hu
  generalize hgu : 2 ^ (L - 23) = u at *
  -- the largest product
  have hy : t * m ≤ 2 ^ 64 * m - 2 ^ 40 * m := by
    rw [← Nat.sub_mul]
    exact Nat.mul_le_mul_right _ ht
  have g1 : u * 2 ^ 23 < u * q := Nat.mul_lt_mul_of_pos_left q1 hu
  have g2 : u * q ≤ u * 2 ^ 24 := Nat.mul_le_mul_left _ q2
  have hY : round24 (2 ^ 64 * m - 2 ^ 40 * m) = (q - 1) * u := by
    have e1 : 2 ^ 64 * m - 2 ^ 40 * m = u * (q - 1) + (u - 2 ^ 40 * m) := by
      rw [Nat.mul_sub, Nat.mul_one]; omega
    have hd : u - 2 ^ 40 * m < u := by omega
    have d1 : (2 ^ 64 * m - 2 ^ 40 * m) / u = q - 1 := by
      rw [e1, Nat.mul_add_div hu, Nat.div_eq_of_lt hd, Nat.add_zero]
    have d2 : (2 ^ 64 * m - 2 ^ 40 * m) % u = u - 2 ^ 40 * m := by
      rw [e1, Nat.mul_add_mod, Nat.mod_eq_of_lt hd]
    have g3 : u * 2 ^ 23 ≤ u * (q - 1) := Nat.mul_le_mul_left _ (by omega)
    have hl : (2 ^ 64 * m - 2 ^ 40 * m).log2 = L := by
      apply log2_eq
      · rw [p1]; omega
      · rw [p2]; omega
    rw [round24_rup, hl]
    unfold rup
    rw [hgu, d1, d2, if_neg (by omega)]
  have hr := round24_mono hy
  rw [hY, Nat.sub_mul, Nat.one_mul, Nat.mul_comm q u, ← hq] at hr
  apply (Nat.div_lt_iff_lt_mul (by decide)).2
  omega

end DeepGNN.Toss
