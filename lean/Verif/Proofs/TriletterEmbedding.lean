import Verif.Spec.TriletterEmbedding

/-
Lemmas about the embeddings of letter groups.
-/

namespace DeepGNN.Letters
open Spec

theorem foldl_total : ∀ (l : List Int) (a : Int), l.foldl (· + ·) a = a + total l
  | [], a => by simp [total]
  | x :: xs, a => by rw [List.foldl_cons, foldl_total xs, total, Int.add_assoc]

theorem sumWord_eq (w : List Int) : sumWord w = total w := by rw [sumWord, foldl_total, Int.zero_add]

theorem mapM_lookup {table : List Int} : ∀ {l : List Nat}, (∀ c ∈ l, c < table.length) →
    l.mapM (lookupRow table) = some (l.map fun c => table.getD c 0)
  | [], _ => rfl
  | c :: l, h => by
    have hc := h c (by simp)
    have ih := mapM_lookup (table := table) (l := l) fun x hx => h x (List.mem_cons_of_mem _ hx)
    rw [List.mapM_cons, ih, lookupRow, List.getElem?_eq_getElem hc]
    simp [List.getD_eq_getElem?_getD, List.getElem?_eq_getElem hc]

theorem mapM_lookup_none {table : List Int} : ∀ {l : List Nat} {c : Nat}, c ∈ l → table.length ≤ c →
    l.mapM (lookupRow table) = none
  | a :: l, c, hc, hl => by
    rw [List.mapM_cons]
    rcases List.mem_cons.1 hc with rfl | hc
    · rw [lookupRow, List.getElem?_eq_none hl]; rfl
    · rw [mapM_lookup_none hc hl]
      cases lookupRow table a <;> rfl

theorem mapM_range (table : List Int) (n : Nat) : (List.range n).mapM (fun i => lookupRow table (i + 1)) =
    ((List.range n).map (· + 1)).mapM (lookupRow table) := by
  rw [List.mapM_map]; rfl

theorem groups_cons {α : Type} (n k : Nat) (r rest : List α) (hr : r.length = n) :
    groups n (k + 1) (r ++ rest) = r :: groups n k rest := by
  rw [groups, groups, List.range_succ_eq_map, List.map_cons, List.map_map]
  congr 1
  · simp [← hr]
  · refine List.map_congr_left fun i _ => ?_
    show ((r ++ rest).drop ((i + 1) * n)).take n = _
    rw [Nat.succ_mul, Nat.add_comm, ← List.drop_drop, ← hr, List.drop_left]

theorem groups_flatten {α : Type} (n : Nat) : ∀ rows : List (List α), (∀ r ∈ rows, r.length = n) →
    groups n rows.length rows.flatten = rows
  | [], _ => rfl
  | r :: rows, h => by
    rw [List.length_cons, List.flatten_cons, groups_cons n _ r _ (h r (by simp)),
      groups_flatten n rows fun x hx => h x (List.mem_cons_of_mem _ hx)]

theorem length_flatten {α : Type} (n : Nat) : ∀ rows : List (List α), (∀ r ∈ rows, r.length = n) →
    rows.flatten.length = rows.length * n
  | [], _ => by simp
  | r :: rows, h => by
    rw [List.flatten_cons, List.length_append, length_flatten n rows fun x hx => h x (List.mem_cons_of_mem _ hx),
      h r (by simp), List.length_cons, Nat.succ_mul, Nat.add_comm]

theorem total_filter (table : List Int) (h0 : table.getD 0 0 = 0) : ∀ l : List Nat,
    total ((l.filter (· ≠ 0)).map fun c => table.getD c 0) = total (l.map fun c => table.getD c 0)
  | [] => rfl
  | c :: l => by
    have ih := total_filter table h0 l
    by_cases hc : c = 0
    · rw [List.filter_cons_of_neg (by simp [hc]), ih, List.map_cons, total, hc, h0, Int.zero_add]
    · rw [List.filter_cons_of_pos (by simp [hc]), List.map_cons, total, ih, List.map_cons, total]

theorem total_perm {a b : List Int} (h : a.Perm b) : total a = total b := by
  induction h with
  | nil => rfl
  | cons x _ ih => rw [total, total, ih]
  | swap x y l => simp only [total]; omega
  | trans _ _ h1 h2 => exact h1.trans h2

theorem words_eq (letterTable posTable : List Int) (h0 : letterTable.getD 0 0 = 0) (letters n : Nat) (text : List Nat) :
    List.zipWith (· + ·) ((groups letters n (text.map fun c => letterTable.getD c 0)).map sumWord)
      (((List.range n).map (· + 1)).map fun c => posTable.getD c 0) =
    (List.range n).map (embed letterTable posTable letters text) := by
  rw [groups, List.map_map, List.map_map, List.zipWith_map, List.zipWith_self]
  refine List.map_congr_left fun i _ => ?_
  simp only [Function.comp]
  rw [embed, wordOf, total_filter letterTable h0, sumWord_eq, ← List.map_drop, ← List.map_take]

end DeepGNN.Letters
