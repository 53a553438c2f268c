import Verif.Spec.FocalLoss

/-
Lemmas about the focal loss.
-/

namespace DeepGNN.Focal
open Spec

theorem foldl_total : ∀ (l : List Int) (a : Int), l.foldl (· + ·) a = a + total l
  | [], a => by simp [total]
  | x :: xs, a => by rw [List.foldl_cons, foldl_total xs, total, Int.add_assoc]

theorem total_append : ∀ a b : List Int, total (a ++ b) = total a + total b
  | [], b => by simp [total]
  | x :: a, b => by rw [List.cons_append, total, total, total_append a b, Int.add_assoc]

theorem total_mul (x : Int) : ∀ l : List Int, total (l.map fun y => y * x) = total l * x
  | [] => by simp [total]
  | y :: l => by rw [List.map_cons, total, total, total_mul x l, Int.add_mul]

theorem total_zero : ∀ row : List Int, total (List.zipWith (· * ·) row (List.replicate row.length 0)) = 0
  | [] => rfl
  | x :: row => by simp [List.replicate_succ, total, total_zero row]

theorem prob_eq : ∀ (row : List Int) (t : Nat), t < row.length → prob row t = row.getD t 0 := by
  have key : ∀ (row : List Int) (t : Nat), t < row.length →
      total (List.zipWith (· * ·) row (maskRow row.length t)) = row.getD t 0 := by
    intro row
    induction row with
    | nil => intro t ht; simp at ht
    | cons x row ih =>
      intro t ht
      cases t with
      | zero => simp [maskRow, List.replicate_succ, total, total_zero]
      | succ t =>
        have := ih t (by simpa using ht)
        rw [maskRow] at this
        simp only [maskRow, List.length_cons, List.replicate_succ, List.set_cons_succ, List.zipWith_cons_cons, total, this]
        simp
  intro row t ht
  rw [prob, foldl_total, key row t ht, Int.zero_add]

theorem probs_eq {classes : Nat} : ∀ {batch : List (List Int × Nat)}, InRange classes batch →
    List.zipWith prob (batch.map (·.1)) (batch.map (·.2)) = batch.map fun e => e.1.getD e.2 0
  | [], _ => rfl
  | e :: batch, h => by
    have he := h e (by simp)
    simp only [List.map_cons, List.zipWith_cons_cons]
    rw [prob_eq e.1 e.2 (by omega), probs_eq fun x hx => h x (List.mem_cons_of_mem _ hx)]

theorem entry_eq (w p q : Int) : -w * p * q = w * -(p * q) := by
  rw [Int.mul_assoc, Int.neg_mul, Int.mul_neg]

theorem column_eq (w : List Int) (pow log : Int → Int) : ∀ batch : List (List Int × Nat),
    batchLoss (.column w) pow log (batch.map fun e => e.1.getD e.2 0) (batch.map (·.2)) = batch.map (documented w pow log)
  | [] => rfl
  | e :: batch => by
    have ih := column_eq w pow log batch
    simp only [batchLoss] at ih ⊢
    simp only [List.map_cons, List.zipWith_cons_cons]
    rw [ih, documented, bare, entry_eq]

theorem flat_total (w : List Int) (pow log : Int → Int) (ts : List Nat) : ∀ batch : List (List Int × Nat),
    total (batchLoss (.flat w) pow log (batch.map fun e => e.1.getD e.2 0) ts) =
      total (ts.map fun t => w.getD t 0) * total (batch.map (bare pow log)) ∧
    (batchLoss (.flat w) pow log (batch.map fun e => e.1.getD e.2 0) ts).length = batch.length * ts.length
  | [] => by simp [batchLoss, total]
  | e :: batch => by
    obtain ⟨h1, h2⟩ := flat_total w pow log ts batch
    simp only [batchLoss] at h1 h2 ⊢
    simp only [List.map_cons, List.flatMap_cons, total_append, List.length_append, h1, h2, total, List.length_map, List.length_cons]
    refine ⟨?_, by rw [Nat.succ_mul, Nat.add_comm]⟩
    have : (ts.map fun t => -(w.getD t 0) * pow (e.1.getD e.2 0) * log (e.1.getD e.2 0)) =
        (ts.map fun t => w.getD t 0).map fun y => y * bare pow log e := by
      rw [List.map_map]
      exact List.map_congr_left fun t _ => by rw [entry_eq]; rfl
    rw [this, total_mul, Int.mul_add]

theorem forward_eq {alpha : Alpha} {pow log : Int → Int} {batch : List (List Int × Nat)}
    (h : InRange alpha.weights.length batch) : forward alpha pow log (batch.map (·.1)) (batch.map (·.2)) =
      some (total (batchLoss alpha pow log (batch.map fun e => e.1.getD e.2 0) (batch.map (·.2))),
        (batchLoss alpha pow log (batch.map fun e => e.1.getD e.2 0) (batch.map (·.2))).length) := by
  rw [forward, if_neg (by simp), if_neg, probs_eq h]
  · simp only [foldl_total, Int.zero_add]
  · have hz : (batch.map (·.1)).zip (batch.map (·.2)) = batch := by
      rw [List.zip_map']; simp
    rw [hz, Bool.or_eq_true, not_or]
    constructor
    · rw [List.any_eq_true]
      rintro ⟨e, he, hd⟩
      have := h e he
      simp only [decide_eq_true_eq] at hd
      omega
    · rw [List.any_eq_true]
      rintro ⟨t, ht, hd⟩
      obtain ⟨e, he, rfl⟩ := List.mem_map.1 ht
      have := h e he
      simp only [decide_eq_true_eq] at hd
      omega

end DeepGNN.Focal
