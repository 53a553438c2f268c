import Verif.Spec.Citation
import Verif.Proofs.RawGraph
import Verif.Proofs.DenseAdj
import Verif.Proofs.Sage

/-! Lemmas about the citation datasets (C90). -/

namespace DeepGNN.Citation

open Spec

theorem insertSorted_perm (a : Nat) : ∀ l : List Nat, (insertSorted a l).Perm (a :: l)
  | [] => .refl _
  | b :: l => by
    rw [insertSorted]
    split
    · exact .refl _
    · exact ((insertSorted_perm a l).cons b).trans (List.Perm.swap a b l)

theorem sort_perm : ∀ l : List Nat, (sort l).Perm l
  | [] => .refl _
  | a :: l => (insertSorted_perm a _).trans ((sort_perm l).cons a)

theorem insertSorted_sorted (a : Nat) : ∀ l : List Nat, l.Pairwise (· ≤ ·) → (insertSorted a l).Pairwise (· ≤ ·)
  | [], _ => by simp [insertSorted]
  | b :: l, h => by
    obtain ⟨h1, h2⟩ := List.pairwise_cons.1 h
    rw [insertSorted]
    split
    · rename_i hab
      refine List.pairwise_cons.2 ⟨fun x hx => ?_, h⟩
      rcases List.mem_cons.1 hx with rfl | hx
      · exact hab
      · exact Nat.le_trans hab (h1 x hx)
    · rename_i hab
      refine List.pairwise_cons.2 ⟨fun x hx => ?_, insertSorted_sorted a l h2⟩
      rcases List.mem_cons.1 ((insertSorted_perm a l).mem_iff.1 hx) with rfl | hx
      · omega
      · exact h1 x hx

theorem sort_sorted : ∀ l : List Nat, (sort l).Pairwise (· ≤ ·)
  | [] => .nil
  | a :: l => insertSorted_sorted a _ (sort_sorted l)

theorem sort_strict {l : List Nat} (h : l.Nodup) : (sort l).Pairwise (· < ·) := by
  have h1 := (sort_perm l).nodup_iff.2 h
  exact (sort_sorted l).imp₂ (fun a b h1 h2 => Nat.lt_of_le_of_ne h1 h2) h1

theorem mem_sort {l : List Nat} {a : Nat} : a ∈ sort l ↔ a ∈ l := (sort_perm l).mem_iff

/-! Assignments to rows -/

theorem foldSet_length {α : Type} : ∀ (l : List (Nat × α)) (rows : List α), (l.foldl (fun r x => r.set x.1 x.2) rows).length = rows.length
  | [], _ => rfl
  | x :: l, rows => by rw [List.foldl_cons, foldSet_length l, List.length_set]

theorem foldSet_other {α : Type} {i : Nat} : ∀ (l : List (Nat × α)) (rows : List α), i ∉ l.map (·.1) →
    (l.foldl (fun r x => r.set x.1 x.2) rows)[i]? = rows[i]?
  | [], _, _ => rfl
  | x :: l, rows, h => by
    rw [List.map_cons, List.mem_cons, not_or] at h
    rw [List.foldl_cons, foldSet_other l _ h.2, List.getElem?_set_ne (Ne.symm h.1)]

theorem foldSet_mem {α : Type} {i : Nat} {v : α} : ∀ (l : List (Nat × α)) (rows : List α), (l.map (·.1)).Nodup → (i, v) ∈ l → i < rows.length →
    (l.foldl (fun r x => r.set x.1 x.2) rows)[i]? = some v
  | [], _, _, h, _ => absurd h List.not_mem_nil
  | x :: l, rows, hn, h, hi => by
    obtain ⟨h1, h2⟩ := List.nodup_cons.1 (List.map_cons ▸ hn : (x.1 :: l.map (·.1)).Nodup)
    rw [List.foldl_cons]
    rcases List.mem_cons.1 h with h | h
    · subst h
      rw [foldSet_other l _ h1, List.getElem?_set_self hi]
    · exact foldSet_mem l _ h2 h (by rw [List.length_set]; exact hi)

theorem foldSet_same {α : Type} {i : Nat} {v : α} : ∀ (l : List Nat) (rows : List α), i < rows.length → (i ∈ l ∨ rows[i]? = some v) →
    ((l.zip (l.map fun _ => v)).foldl (fun r x => r.set x.1 x.2) rows)[i]? = some v
  | [], rows, _, h => by
    rcases h with h | h
    · exact absurd h List.not_mem_nil
    · exact h
  | a :: l, rows, hi, h => by
    rw [List.map_cons, List.zip_cons_cons, List.foldl_cons]
    refine foldSet_same l _ (by rw [List.length_set]; exact hi) ?_
    by_cases ha : a = i
    · subst ha
      exact .inr (List.getElem?_set_self hi)
    · rcases h with h | h
      · rcases List.mem_cons.1 h with h | h
        · exact absurd h.symm ha
        · exact .inl h
      · exact .inr (by rw [List.getElem?_set_ne ha]; exact h)

/-- An assignment with distinct indices. -/
theorem assign_ok {α : Type} {rows vals : List α} {idx : List Nat} (hl : idx.length = vals.length) (hi : ∀ i ∈ idx, i < rows.length)
    (hn : idx.Nodup) : ∃ out, assign rows idx vals = some out ∧ out.length = rows.length ∧ (∀ i, i ∉ idx → out[i]? = rows[i]?) ∧
      ∀ (j i : Nat), idx[j]? = some i → out[i]? = vals[j]? := by
  have hmap : (idx.zip vals).map (·.1) = idx := List.map_fst_zip (by omega)
  refine ⟨_, ?_, foldSet_length (idx.zip vals) rows, fun i h => foldSet_other _ _ (by rw [hmap]; exact h), fun j i hj => ?_⟩
  · rw [assign, if_pos]
    exact ⟨hl, List.all_eq_true.2 fun x hx => decide_eq_true (hi x hx)⟩
  · obtain ⟨h1, h2⟩ := List.getElem?_eq_some_iff.1 hj
    have hv : vals[j]? = some vals[j] := List.getElem?_eq_getElem (by omega)
    rw [hv]
    refine foldSet_mem _ _ (by rw [hmap]; exact hn) ?_ (hi i (List.mem_of_getElem? hj))
    exact List.mem_of_getElem? (i := j) (List.getElem?_zip_eq_some.2 ⟨hj, hv⟩)

theorem sampleMask_eq {idx : List Nat} {size : Nat} (h : ∀ i ∈ idx, i < size) :
    sampleMask idx size = some ((List.range size).map fun i => decide (i ∈ idx)) := by
  rw [sampleMask, assign, if_pos ⟨by rw [List.length_map], List.all_eq_true.2 fun x hx => decide_eq_true (by
    rw [List.length_replicate]; exact h x hx)⟩]
  congr 1
  apply List.ext_getElem?
  intro i
  by_cases hi : i < size
  · rw [List.getElem?_map, List.getElem?_range hi, Option.map_some]
    by_cases hm : i ∈ idx
    · rw [foldSet_same idx _ (by rw [List.length_replicate]; exact hi) (.inl hm), decide_eq_true hm]
    · rw [foldSet_other _ _ (by rw [List.map_fst_zip (by rw [List.length_map]; omega)]; exact hm), decide_eq_false hm,
        List.getElem?_replicate, if_pos hi]
  · rw [List.getElem?_eq_none (by rw [foldSet_length, List.length_replicate]; omega), List.getElem?_eq_none (by simp; omega)]

theorem sampleMask_none {idx : List Nat} {size i : Nat} (h : i ∈ idx) (hi : size ≤ i) : sampleMask idx size = none := by
  rw [sampleMask, assign, if_neg]
  rintro ⟨-, h2⟩
  have := of_decide_eq_true (List.all_eq_true.1 h2 i h)
  rw [List.length_replicate] at this
  omega

/-! Reordering -/

theorem sorted_head {l : List Nat} (h : l.Pairwise (· < ·)) {a : Nat} (ha : a ∈ l) (hmin : ∀ b ∈ l, a ≤ b) : l.head? = some a := by
  cases l with
  | nil => exact absurd ha List.not_mem_nil
  | cons b l =>
    rcases List.mem_cons.1 ha with rfl | hm
    · rfl
    · have := (List.pairwise_cons.1 h).1 a hm
      have := hmin b (by simp)
      omega

theorem sorted_last {a : Nat} : ∀ {l : List Nat}, l.Pairwise (· < ·) → a ∈ l → (∀ b ∈ l, b ≤ a) → l.getLast? = some a
  | [], _, ha, _ => absurd ha List.not_mem_nil
  | [b], _, ha, _ => by rw [List.mem_singleton.1 ha]; rfl
  | b :: c :: l, h, ha, hmax => by
    rw [List.getLast?_cons_cons]
    obtain ⟨h1, h2⟩ := List.pairwise_cons.1 h
    refine sorted_last h2 ?_ fun x hx => hmax x (by simp [hx])
    rcases List.mem_cons.1 ha with rfl | hm
    · have := h1 c (by simp)
      have := hmax c (by simp)
      omega
    · exact hm

/-- The rows before they are put in order: those of `allx`, then row `j` of `tx` at the index that is number `j` in order. -/
theorem extend_ok {α : Type} {isolated : Bool} {n N : Nat} {test : List Nat} (h : IndexOk isolated n N test) (zero : α) {tx : List α}
    (hl : tx.length = test.length) : ∃ tail, (if isolated then extend zero (sort test) tx else some tx) = some tail ∧ tail.length = N - n ∧
      (∀ (j t : Nat), (sort test)[j]? = some t → tail[t - n]? = tx[j]?) ∧
      ∀ i, n ≤ i → i < N → i ∉ test → tail[i - n]? = some zero := by
  have hs := sort_strict h.nodup
  have hle := h.le
  cases isolated with
  | false =>
    have heq : sort test = List.range' n (N - n) := by
      apply Gat.sorted_unique_nat hs List.pairwise_lt_range'
      intro a
      rw [mem_sort, List.mem_range'_1]
      constructor
      · intro ha
        have := h.range a ha
        omega
      · intro ha
        exact h.all rfl a (by omega) (by omega)
    have hlen := (sort_perm test).length_eq
    rw [heq, List.length_range'] at hlen
    refine ⟨tx, rfl, by omega, fun j t hj => ?_, fun i h1 h2 h3 => absurd (h.all rfl i h1 h2) h3⟩
    rw [heq, List.getElem?_range'] at hj
    · simp only [Option.some.injEq] at hj
      rw [show t - n = j by omega]
    · obtain ⟨h1, -⟩ := List.getElem?_eq_some_iff.1 hj
      rw [List.length_range'] at h1
      exact h1
  | true =>
    obtain ⟨h1, h2⟩ := h.ends rfl
    have hhead : (sort test).head? = some n := sorted_head hs (mem_sort.2 h1) fun b hb => (h.range b (mem_sort.1 hb)).1
    have hlast : (sort test).getLast? = some (N - 1) := sorted_last hs (mem_sort.2 h2) fun b hb => by
      have := h.range b (mem_sort.1 hb)
      omega
    have hidx : ∀ i ∈ (sort test).map (fun i => i - n), i < (List.replicate (N - 1 + 1 - n) zero).length := by
      intro i hi
      obtain ⟨a, ha, rfl⟩ := List.mem_map.1 hi
      have := h.range a (mem_sort.1 ha)
      rw [List.length_replicate]
      omega
    have hnd : ((sort test).map fun i => i - n).Nodup := by
      rw [List.Nodup, List.pairwise_map]
      refine hs.imp_of_mem fun {a b} ha hb hab => ?_
      have := h.range a (mem_sort.1 ha)
      have := h.range b (mem_sort.1 hb)
      omega
    obtain ⟨out, e1, e2, e3, e4⟩ := assign_ok (vals := tx) (by rw [List.length_map, (sort_perm test).length_eq, hl]) hidx hnd
    refine ⟨out, ?_, by rw [e2, List.length_replicate]; omega, fun j t hj => e4 j _ (by rw [List.getElem?_map, hj]; rfl), fun i h3 h4 h5 => ?_⟩
    · simp only [if_true, extend, hhead, hlast]
      exact e1
    · rw [e3 (i - n), List.getElem?_replicate, if_pos (by omega)]
      intro hm
      obtain ⟨a, ha, hae⟩ := List.mem_map.1 hm
      have := h.range a (mem_sort.1 ha)
      have : a = i := by omega
      subst this
      exact h5 (mem_sort.1 ha)

theorem reorder_ok {α : Type} {isolated : Bool} {N : Nat} {test : List Nat} {allx tx : List α} (h : IndexOk isolated allx.length N test)
    (zero : α) (hl : tx.length = test.length) : ∃ rows, reorder isolated zero allx tx test = some rows ∧ rows.length = N ∧
      (∀ i < allx.length, rows[i]? = allx[i]?) ∧ (∀ (j t : Nat), test[j]? = some t → rows[t]? = tx[j]?) ∧
      ∀ i, allx.length ≤ i → i < N → i ∉ test → rows[i]? = some zero := by
  obtain ⟨tail, e1, e2, e3, e4⟩ := extend_ok h zero hl
  have hle := h.le
  have hlen : (allx ++ tail).length = N := by rw [List.length_append, e2]; omega
  have hmem : ∀ i ∈ sort test, (allx ++ tail)[i]? = some ((allx ++ tail).getD i zero) := by
    intro i hi
    have := h.range i (mem_sort.1 hi)
    rw [List.getD_eq_getElem?_getD, List.getElem?_eq_getElem (by omega)]
    rfl
  have hvals := Sage.mapM_map (f := fun i => (allx ++ tail)[i]?) (g := fun i => (allx ++ tail).getD i zero) (l := sort test) hmem
  obtain ⟨rows, f1, f2, f3, f4⟩ := assign_ok (rows := allx ++ tail) (vals := (sort test).map fun i => (allx ++ tail).getD i zero) (idx := test)
    (by rw [List.length_map, (sort_perm test).length_eq]) (fun i hi => by rw [hlen]; exact (h.range i hi).2) h.nodup
  refine ⟨rows, ?_, by rw [f2, hlen], fun i hi => ?_, fun j t hj => ?_, fun i h1 h2 h3 => ?_⟩
  · rw [reorder]
    simp only [e1, Option.bind_some, hvals, f1]
  · rw [f3 i (fun hm => by have := h.range i hm; omega), List.getElem?_append_left hi]
  · obtain ⟨hj1, -⟩ := List.getElem?_eq_some_iff.1 hj
    obtain ⟨s, hs⟩ : ∃ s, (sort test)[j]? = some s := ⟨_, List.getElem?_eq_getElem (by rw [(sort_perm test).length_eq]; exact hj1)⟩
    have hm := List.mem_of_getElem? hs
    have := h.range s (mem_sort.1 hm)
    rw [f4 j t hj, List.getElem?_map, hs, Option.map_some, ← hmem s hm, List.getElem?_append_right (by omega), e3 j s hs]
  · rw [f3 i h3, List.getElem?_append_right h1, e4 i h1 h2 h3]

theorem reorder_eq {α : Type} {isolated : Bool} {N : Nat} {test : List Nat} {allx tx : List α} (h : IndexOk isolated allx.length N test)
    (zero : α) (hl : tx.length = test.length) :
    reorder isolated zero allx tx test = some ((List.range N).map (citationRow zero allx tx test)) := by
  obtain ⟨rows, e1, e2, e3, e4, e5⟩ := reorder_ok h zero hl
  rw [e1]
  congr 1
  apply List.ext_getElem?
  intro i
  by_cases hi : i < N
  · rw [List.getElem?_map, List.getElem?_range hi, Option.map_some, citationRow]
    split
    · rename_i h1
      rw [e3 i h1, List.getD_eq_getElem?_getD, List.getElem?_eq_getElem h1]; rfl
    · rename_i h1
      split
      · rename_i h2
        have hlt := List.idxOf_lt_length_iff.2 h2
        rw [e4 (test.idxOf i) i (by rw [List.getElem?_eq_getElem hlt, List.getElem_idxOf]), List.getD_eq_getElem?_getD,
          List.getElem?_eq_getElem (by omega)]; rfl
      · rename_i h2
        exact e5 i (by omega) hi h2
  · rw [List.getElem?_eq_none (by omega), List.getElem?_eq_none (by simp; omega)]

/-! The largest value of a row -/

theorem exists_max : ∀ l : List Int, l ≠ [] → ∃ x ∈ l, ∀ y ∈ l, y ≤ x
  | [], h => absurd rfl h
  | [a], _ => ⟨a, by simp, by simp⟩
  | a :: b :: l, _ => by
    obtain ⟨x, hx, hm⟩ := exists_max (b :: l) (by simp)
    by_cases hax : a ≤ x
    · refine ⟨x, List.mem_cons_of_mem _ hx, fun y hy => ?_⟩
      rcases List.mem_cons.1 hy with rfl | hy
      · exact hax
      · exact hm y hy
    · refine ⟨a, by simp, fun y hy => ?_⟩
      rcases List.mem_cons.1 hy with rfl | hy
      · exact Int.le_refl _
      · have := hm y hy
        omega

theorem argmax_spec {row : List Int} {p : Nat} (h : argmax row = some p) : FirstMax row p := by
  rw [argmax, List.findIdx?_eq_some_iff_getElem] at h
  obtain ⟨h1, h2, h3⟩ := h
  refine ⟨row[p], List.getElem?_eq_getElem h1, fun y hy => of_decide_eq_true (List.all_eq_true.1 h2 y hy), fun q y hq hy => ?_⟩
  apply Classical.byContradiction
  intro hlt
  obtain ⟨h4, h5⟩ := List.getElem?_eq_some_iff.1 hq
  refine h3 q (by omega) (List.all_eq_true.2 fun z hz => decide_eq_true ?_)
  rw [h5]
  exact hy z hz

theorem argmax_exists {row : List Int} (h : row ≠ []) : ∃ p, argmax row = some p := by
  cases hp : argmax row with
  | some p => exact ⟨p, rfl⟩
  | none =>
    rw [argmax, List.findIdx?_eq_none_iff] at hp
    obtain ⟨x, hx, hm⟩ := exists_max row h
    have := hp x hx
    rw [List.all_eq_true.2 fun y hy => decide_eq_true (hm y hy)] at this
    cases this

theorem firstMax_unique {row : List Int} {p q : Nat} (hp : FirstMax row p) (hq : FirstMax row q) : p = q := by
  obtain ⟨x, h1, h2, h3⟩ := hp
  obtain ⟨y, h4, h5, h6⟩ := hq
  exact Nat.le_antisymm (h3 q y h4 h5) (h6 p x h1 h2)

/-! Masks -/

theorem count_mask (idx : List Nat) (n : Nat) (hn : idx.Nodup) (h : ∀ i ∈ idx, i < n) :
    ((List.range n).map fun i => decide (i ∈ idx)).count true = idx.length := by
  rw [List.count_eq_countP, List.countP_map, List.countP_eq_length_filter]
  apply List.Perm.length_eq
  rw [List.perm_ext_iff_of_nodup (List.nodup_range.filter _) hn]
  intro a
  rw [List.mem_filter, List.mem_range]
  simp only [Function.comp, beq_true, decide_eq_true_eq]
  exact ⟨fun h => h.2, fun ha => ⟨h a ha, ha⟩⟩

theorem get_mask {p : Nat → Bool} {n i : Nat} : ((List.range n).map p)[i]? = some true ↔ i < n ∧ p i = true := by
  by_cases h : i < n
  · rw [List.getElem?_map, List.getElem?_range h, Option.map_some, Option.some.injEq]
    exact ⟨fun e => ⟨h, e⟩, fun e => e.2⟩
  · rw [List.getElem?_eq_none (by simp; omega)]
    exact ⟨fun e => (by cases e), fun e => absurd e.1 h⟩

theorem members_nodup (labels : List Nat) (c : Nat) : (members labels c).Nodup := List.nodup_range.filter _

theorem mem_members {labels : List Nat} {c i : Nat} : i ∈ members labels c ↔ labels[i]? = some c := by
  rw [members, List.mem_filter, List.mem_range, decide_eq_true_eq]
  exact ⟨fun h => h.2, fun h => ⟨(List.getElem?_eq_some_iff.1 h).1, h⟩⟩

theorem members_length (labels : List Nat) (c : Nat) : (members labels c).length = labels.count c := by
  have : labels = (List.range labels.length).map fun i => labels.getD i 0 := by
    apply List.ext_getElem?
    intro i
    by_cases hi : i < labels.length
    · rw [List.getElem?_map, List.getElem?_range hi, Option.map_some, List.getD_eq_getElem?_getD, List.getElem?_eq_getElem hi]; rfl
    · rw [List.getElem?_eq_none (by omega), List.getElem?_eq_none (by simp; omega)]
  conv => rhs; rw [this]
  rw [List.count_eq_countP, List.countP_map, List.countP_eq_length_filter, members]
  congr 1
  apply List.filter_congr
  intro i hi
  have hi := List.mem_range.1 hi
  simp only [Function.comp, List.getD_eq_getElem?_getD, List.getElem?_eq_getElem hi, Option.getD_some, Option.some.injEq]
  rfl

/-- The training nodes of a random split. -/
def trainOf (perm : Nat → List Nat → List Nat) (labels : List Nat) (classes : Nat) : List Nat :=
  (List.range classes).flatMap fun cl => (perm cl (members labels cl)).take 20

section
variable {perm : Nat → List Nat → List Nat} (hp : ∀ k l, (perm k l).Perm l) (labels : List Nat) (classes : Nat)
include hp

theorem perm_label {c i : Nat} (h : i ∈ (perm c (members labels c)).take 20) : labels[i]? = some c :=
  mem_members.1 ((hp c _).mem_iff.1 (List.mem_of_mem_take h))

theorem train_lt {i : Nat} (h : i ∈ trainOf perm labels classes) : i < labels.length := by
  obtain ⟨c, -, hc⟩ := List.mem_flatMap.1 h
  exact (List.getElem?_eq_some_iff.1 (perm_label hp labels hc)).1

theorem train_mem {i c : Nat} (hc : c < classes) :
    (i ∈ trainOf perm labels classes ∧ labels[i]? = some c) ↔ i ∈ (perm c (members labels c)).take 20 := by
  constructor
  · rintro ⟨h1, h2⟩
    obtain ⟨d, -, hd⟩ := List.mem_flatMap.1 h1
    have := perm_label hp labels hd
    rw [h2, Option.some.injEq] at this
    rw [this]
    exact hd
  · intro h
    exact ⟨List.mem_flatMap.2 ⟨c, List.mem_range.2 hc, h⟩, perm_label hp labels h⟩

theorem take_nodup (c : Nat) : ((perm c (members labels c)).take 20).Nodup :=
  ((hp c _).nodup_iff.2 (members_nodup labels c)).sublist (List.take_sublist _ _)

theorem train_nodup : (trainOf perm labels classes).Nodup := by
  rw [trainOf, List.Nodup, List.pairwise_flatMap]
  refine ⟨fun c _ => take_nodup hp labels c, List.nodup_range.imp_of_mem fun {c d} _ _ hcd x hx y hy => ?_⟩
  rintro rfl
  have h1 := perm_label hp labels hx
  rw [perm_label hp labels hy, Option.some.injEq] at h1
  exact hcd h1.symm

/-- What a random split is. -/
theorem randomSplit_eq (hc : 0 < classes) (perClass numVal numTest : Nat) : ∃ rest : List Nat,
    rest.Perm ((List.range labels.length).filter fun i => decide (i ∉ trainOf perm labels classes)) ∧
    randomSplit perm labels classes perClass numVal numTest = some
      ⟨(List.range labels.length).map fun i => decide (i ∈ trainOf perm labels classes),
       (List.range labels.length).map fun i => decide (i ∈ rest.take numVal),
       (List.range labels.length).map fun i => decide (i ∈ (rest.drop numVal).take numTest)⟩ := by
  have hpos : positions (((List.range labels.length).map fun i => decide (i ∈ trainOf perm labels classes)).map (! ·)) =
      (List.range labels.length).filter fun i => decide (i ∉ trainOf perm labels classes) := by
    rw [positions, List.length_map, List.length_map, List.length_range]
    apply List.filter_congr
    intro i hi
    rw [List.map_map]
    by_cases h : i ∈ trainOf perm labels classes
    · rw [decide_eq_false (p := ¬i ∈ trainOf perm labels classes) (fun hh => hh h)]
      apply decide_eq_false
      rw [get_mask]
      simp [h]
    · rw [decide_eq_true h]
      apply decide_eq_true
      rw [get_mask]
      exact ⟨List.mem_range.1 hi, by simp [h]⟩
  refine ⟨_, hp classes _, ?_⟩
  rw [randomSplit, if_neg (by omega)]
  have h1 := sampleMask_eq (idx := trainOf perm labels classes) (size := labels.length) fun i => train_lt hp labels classes
  have hlt : ∀ i ∈ perm classes ((List.range labels.length).filter fun i => decide (i ∉ trainOf perm labels classes)), i < labels.length :=
    fun i hi => List.mem_range.1 (List.mem_filter.1 ((hp classes _).mem_iff.1 hi)).1
  rw [trainOf] at h1 hpos hlt
  simp only [h1, hpos, Option.bind_some, trainOf]
  rw [sampleMask_eq fun i hi => hlt i (List.mem_of_mem_take hi), sampleMask_eq fun i hi => hlt i (List.mem_of_mem_drop (List.mem_of_mem_take hi))]
  rfl

end

/-! The dictionary of lists -/

theorem eraseDups_nodup {l : List Nat} (h : l.Nodup) : l.eraseDups = l := by
  induction l with
  | nil => rfl
  | cons a l ih =>
    obtain ⟨h1, h2⟩ := List.nodup_cons.1 h
    rw [List.eraseDups_cons, List.filter_eq_self.2, ih h2]
    intro x hx
    have : x ≠ a := fun e => h1 (e ▸ hx)
    simp [this]

theorem order_eq {graph : Dict} {N : Nat} (hk : graph.map (·.1) = List.range N) (hn : ∀ e ∈ graph, ∀ b ∈ e.2, b < N) : order graph = List.range N := by
  rw [order, hk, List.eraseDups_append, eraseDups_nodup List.nodup_range]
  have : (graph.flatMap (·.2)).removeAll (List.range N) = [] := by
    rw [List.removeAll, List.filter_eq_nil_iff]
    intro b hb
    obtain ⟨e, he, hbe⟩ := List.mem_flatMap.1 hb
    simp [hn e he b hbe]
  rw [this]
  simp

theorem linked_iff {graph : Dict} {a b : Nat} : linked graph a b = true ↔ CitesEither graph a b := by
  rw [linked, List.any_eq_true]
  simp only [Bool.or_eq_true, Bool.and_eq_true, decide_eq_true_eq, List.contains_iff_mem]
  rfl

theorem mem_adjRow {graph : Dict} {N : Nat} (hk : graph.map (·.1) = List.range N) (hn : ∀ e ∈ graph, ∀ b ∈ e.2, b < N) {i : Nat} (hi : i < N) {j : Nat} :
    j ∈ adjRow graph i ↔ CitesEither graph i j := by
  have ho := order_eq hk hn
  rw [adjRow, ho, List.length_range, List.mem_filter, List.mem_range, List.getElem?_range hi]
  constructor
  · rintro ⟨h1, h2⟩
    rw [List.getElem?_range h1] at h2
    exact linked_iff.1 h2
  · intro h
    have hj : j < N := by
      obtain ⟨e, he, (⟨-, h2⟩ | ⟨rfl, -⟩)⟩ := h
      · exact hn e he j h2
      · have : e.1 ∈ graph.map (·.1) := List.mem_map.2 ⟨e, he, rfl⟩
        rw [hk] at this
        exact List.mem_range.1 this
    refine ⟨hj, ?_⟩
    rw [List.getElem?_range hj]
    exact linked_iff.2 h

theorem adjRow_nodup (graph : Dict) (i : Nat) : (adjRow graph i).Nodup := List.nodup_range.filter _

end DeepGNN.Citation
