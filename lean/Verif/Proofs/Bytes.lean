import Verif.Model.Bytes

namespace DeepGNN

@[simp] theorem length_leBytes (n v : Nat) : (leBytes n v).length = n := by
  induction n generalizing v with
  | zero => rfl
  | succ n ih => simp [leBytes, ih]

theorem leNat_leBytes (n v : Nat) : leNat (leBytes n v) = v % 256 ^ n := by
  induction n generalizing v with
  | zero => simp [leBytes, leNat, Nat.mod_one]
  | succ n ih =>
    simp only [leBytes, leNat, ih]
    rw [Nat.pow_succ, Nat.mul_comm (256 ^ n) 256, Nat.mod_mul]
    simp

theorem leNat_lt (b : Bytes) : leNat b < 256 ^ b.length := by
  induction b with
  | nil => simp [leNat]
  | cons x xs ih =>
    have hx := x.toNat_lt
    simp only [leNat, List.length_cons, Nat.pow_succ]
    omega

@[simp] theorem length_cU64 (v : Nat) : (cU64 v).length = 8 := length_leBytes 8 v
@[simp] theorem length_cU32 (v : Nat) : (cU32 v).length = 4 := length_leBytes 4 v

theorem rdU64_cU64 {v : Nat} (h : v < 2 ^ 64) : rdU64 (cU64 v) = v := by
  simp only [rdU64, cU64, leNat_leBytes]
  exact Nat.mod_eq_of_lt (by omega)

theorem packQ_eq_some {v : Int} {b : Bytes} :
    packQ v = some b ↔ (0 ≤ v ∧ v < 2 ^ 64) ∧ b = leBytes 8 v.toNat := by
  simp only [packQ]
  split
  · rename_i h; simp only [Option.some.injEq, h, true_and, and_self, eq_comm]
  · rename_i h; simp only [h, false_and, reduceCtorEq]

theorem packI32_eq_some {v : Int} {b : Bytes} :
    packI32 v = some b ↔ (-(2 ^ 31) ≤ v ∧ v < 2 ^ 31) ∧ b = leBytes 4 (v % 2 ^ 32).toNat := by
  simp only [packI32]
  split
  · rename_i h; simp only [Option.some.injEq, h, true_and, and_self, eq_comm]
  · rename_i h; simp only [h, false_and, reduceCtorEq]

theorem packI64_eq_some {v : Int} {b : Bytes} :
    packI64 v = some b ↔ (-(2 ^ 63) ≤ v ∧ v < 2 ^ 63) ∧ b = leBytes 8 (v % 2 ^ 64).toNat := by
  simp only [packI64]
  split
  · rename_i h; simp only [Option.some.injEq, h, true_and, and_self, eq_comm]
  · rename_i h; simp only [h, false_and, reduceCtorEq]

theorem rdU64_leBytes {v : Nat} (h : v < 2 ^ 64) : rdU64 (leBytes 8 v) = v := rdU64_cU64 h

theorem rdI64_leBytes_nat {v : Int} (h0 : 0 ≤ v) (h : v < 2 ^ 63) :
    rdI64 (leBytes 8 v.toNat) = v := by
  simp only [rdI64, leNat_leBytes, toSigned]
  omega

theorem rdI64_leBytes {v : Int} (h0 : -(2 ^ 63) ≤ v) (h : v < 2 ^ 63) :
    rdI64 (leBytes 8 (v % 2 ^ 64).toNat) = v := by
  simp only [rdI64, leNat_leBytes, toSigned]
  omega

theorem rdI32_leBytes {v : Int} (h0 : -(2 ^ 31) ≤ v) (h : v < 2 ^ 31) :
    rdI32 (leBytes 4 (v % 2 ^ 32).toNat) = v := by
  simp only [rdI32, leNat_leBytes, toSigned]
  omega

theorem records_nil (k : Nat) : records k [] = [] := by
  rw [records]; split
  · rfl
  · simp_all

theorem records_append {k : Nat} (hk : 0 < k) (a b : Bytes) (ha : a.length = k) :
    records k (a ++ b) = a :: records k b := by
  rw [records]
  have : ¬ (k = 0 ∨ (a ++ b).length < k) := by simp; omega
  rw [dif_neg this]
  simp [← ha]

/-- Reading back concatenated fixed-size records gives the records. -/
theorem records_flatMap {α} {k : Nat} (hk : 0 < k) (f : α → Bytes) (l : List α)
    (hf : ∀ a ∈ l, (f a).length = k) : records k (l.flatMap f) = l.map f := by
  induction l with
  | nil => simp [records_nil]
  | cons a l ih =>
    simp only [List.flatMap_cons, List.map_cons]
    rw [records_append hk _ _ (hf a (by simp)), ih (fun b hb => hf b (by simp [hb]))]

theorem length_flatMap_const {α} {k : Nat} (f : α → Bytes) (l : List α)
    (hf : ∀ a ∈ l, (f a).length = k) : (l.flatMap f).length = l.length * k := by
  induction l with
  | nil => simp
  | cons a l ih =>
    simp only [List.flatMap_cons, List.length_append, List.length_cons]
    rw [hf a (by simp), ih (fun b hb => hf b (by simp [hb])), Nat.add_mul]; omega

end DeepGNN
