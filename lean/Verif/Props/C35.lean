import Verif.Proofs.Samplers

/-
C35: CSV node sampler.
-/

namespace DeepGNN

open Samplers Files

theorem pyRange_append {s m e n : Nat} (hn : 0 < n) (hm : m ≤ e) : ∀ k, m = s + k * n →
    pyRange s m n ++ pyRange m e n = pyRange s e n := by
  intro k
  induction k generalizing s with
  | zero => intro h; rw [pyRange_nil (by omega) hn, show m = s by omega]; rfl
  | succ k ih =>
    intro h
    rw [Nat.succ_mul] at h
    rw [pyRange_cons (by omega) hn, pyRange_cons (start := s) (stop := e) (by omega) hn, List.cons_append,
      ih (by omega)]

theorem csv_yields {α : Type} (it : CsvIter α) (hb : 0 < it.batch) (hn : 0 < it.num) : ∀ (fuel cur : Nat),
    it.rows.length ≤ cur * it.batch * it.num + it.index + fuel →
    ∃ out, Yields it.next cur out ∧ (∀ b ∈ out, b ≠ [] ∧ b.length ≤ it.batch) ∧
      out.length = ceilDiv (it.rows.length - (cur * it.batch * it.num + it.index)) (it.batch * it.num) ∧
      out.flatten = (pyRange (cur * it.batch * it.num + it.index) it.rows.length it.num).filterMap fun i => it.rows[i]? := by
  have hbn : 0 < it.batch * it.num := Nat.mul_pos hb hn
  intro fuel
  induction fuel with
  | zero =>
    intro cur h
    refine ⟨[], .stop (by rw [CsvIter.next, if_pos (by omega)]), by simp, ?_, ?_⟩
    · rw [show it.rows.length - (cur * it.batch * it.num + it.index) = 0 by omega, ceilDiv, Nat.div_eq_of_lt (by omega)]; rfl
    · rw [pyRange_nil (by omega) hn]; rfl
  | succ fuel ih =>
    intro cur h
    by_cases hs : cur * it.batch * it.num + it.index ≥ it.rows.length
    · refine ⟨[], .stop (by rw [CsvIter.next, if_pos hs]), by simp, ?_, ?_⟩
      · rw [show it.rows.length - (cur * it.batch * it.num + it.index) = 0 by omega, ceilDiv, Nat.div_eq_of_lt (by omega)]; rfl
      · rw [pyRange_nil (by omega) hn]; rfl
    · have e : (cur + 1) * it.batch * it.num = cur * it.batch * it.num + it.batch * it.num := by
        rw [Nat.add_mul, Nat.add_mul, Nat.one_mul]
      obtain ⟨out, h1, h2, h3, h4⟩ := ih (cur + 1) (by omega)
      generalize hst : (if (cur + 1) * it.batch * it.num + it.index ≥ it.rows.length then it.rows.length
        else (cur + 1) * it.batch * it.num + it.index) = stop
      have hle : stop ≤ it.rows.length := by rw [← hst]; split <;> omega
      have hlt : cur * it.batch * it.num + it.index < stop := by rw [← hst]; split <;> omega
      have hle2 : stop ≤ cur * it.batch * it.num + it.index + it.batch * it.num := by rw [← hst]; split <;> omega
      have hnext : it.next cur = some ((pyRange (cur * it.batch * it.num + it.index) stop it.num).filterMap
          (fun i => it.rows[i]?), cur + 1) := by
        rw [CsvIter.next, if_neg hs]
        simp only [hst]
      refine ⟨_ :: out, .more hnext h1, ?_, ?_, ?_⟩
      · intro b hm
        rcases List.mem_cons.1 hm with rfl | hm
        · constructor
          · rw [pyRange_cons hlt hn, List.filterMap_cons, List.getElem?_eq_getElem (by omega)]
            simp
          · refine Nat.le_trans (List.length_filterMap_le _ _) ?_
            rw [length_pyRange]
            refine Nat.le_of_lt_succ ((Nat.div_lt_iff_lt_mul hn).2 ?_)
            rw [Nat.succ_mul]
            omega
        · exact h2 b hm
      · rw [List.length_cons, h3, e]
        simp only [ceilDiv]
        by_cases hd : it.rows.length - (cur * it.batch * it.num + it.index) < it.batch * it.num
        · rw [show it.rows.length - (cur * it.batch * it.num + it.batch * it.num + it.index) = 0 by omega,
            Nat.div_eq_of_lt (by omega)]
          rw [show it.rows.length - (cur * it.batch * it.num + it.index) + it.batch * it.num - 1 =
            (it.rows.length - (cur * it.batch * it.num + it.index) - 1) + it.batch * it.num by omega,
            Nat.add_div_right _ hbn, Nat.div_eq_of_lt (by omega)]
        · rw [show it.rows.length - (cur * it.batch * it.num + it.index) + it.batch * it.num - 1 =
            (it.rows.length - (cur * it.batch * it.num + it.batch * it.num + it.index) + it.batch * it.num - 1) +
              it.batch * it.num by omega, Nat.add_div_right _ hbn]
      · rw [List.flatten_cons, h4, ← List.filterMap_append]
        refine congrArg _ ?_
        by_cases hd : (cur + 1) * it.batch * it.num + it.index ≥ it.rows.length
        · rw [if_pos hd] at hst
          subst hst
          rw [pyRange_nil (start := (cur + 1) * it.batch * it.num + it.index) hd hn, List.append_nil]
        · rw [if_neg hd] at hst
          subst hst
          exact pyRange_append hn hle it.batch (by omega)

theorem filterMap_range {α : Type} : ∀ l : List α, (List.range l.length).filterMap (fun i => l[i]?) = l
  | [] => rfl
  | a :: l => by
    rw [List.length_cons, List.range_succ_eq_map, List.filterMap_cons, List.filterMap_map]
    exact congrArg (a :: ·) (filterMap_range l)

/-- All data-parallel workers together yield every row of the file exactly once, in non-empty batches of at most the batch
size, without padding. -/
theorem C35_rows {α : Type} (rows : List α) {batch num : Nat} (epoch : Nat) (hb : 0 < batch) (hn : 0 < num) :
    ∃ outs : Nat → List (List α), (∀ w < num, Yields (CsvIter.mk rows batch epoch num w).next 0 (outs w)) ∧
      (∀ w < num, ∀ b ∈ outs w, b ≠ [] ∧ b.length ≤ batch) ∧
      ((List.range num).flatMap fun w => (outs w).flatten).Perm rows := by
  have key := fun w => csv_yields (CsvIter.mk rows batch epoch num w) hb hn rows.length 0 (by simp only; omega)
  refine ⟨fun w => Classical.choose (key w), fun w _ => (Classical.choose_spec (key w)).1,
    fun w _ => (Classical.choose_spec (key w)).2.1, ?_⟩
  have e : (List.range num).flatMap (fun w => (Classical.choose (key w)).flatten) =
      ((List.range num).flatMap fun w => pyRange w rows.length num).filterMap fun i => rows[i]? := by
    rw [List.filterMap_flatMap]
    rw [List.flatMap_def, List.flatMap_def]
    refine congrArg _ (List.map_congr_left fun w _ => ?_)
    rw [(Classical.choose_spec (key w)).2.2.2]
    simp
  rw [e]
  refine ((pyRange_split num rows.length hn).filterMap _).trans ?_
  rw [filterMap_range]

/-- Without data-parallel workers and with one epoch the sampler reports the number of its batches.  Missing: several
epochs or data-parallel workers (`C35_len_refuted`). -/
theorem C35_len_partial {α : Type} (rows : List α) {batch : Nat} (hb : 0 < batch) :
    ∃ out, Yields (CsvIter.mk rows batch 1 1 0).next 0 out ∧ out.length = (CsvIter.mk rows batch 1 1 0).len := by
  obtain ⟨out, h1, -, h2, -⟩ := csv_yields (CsvIter.mk rows batch 1 1 0) hb Nat.one_pos rows.length 0 (by simp only; omega)
  refine ⟨out, h1, ?_⟩
  rw [h2, CsvIter.len]
  simp [ceilDiv]

/-- The state after a loop over an iterator. -/
inductive Exhausts {β σ : Type} (next : σ → Option (β × σ)) : σ → σ → Prop
  | stop {s} : next s = none → Exhausts next s s
  | more {s s' e x} : next s = some (x, s') → Exhausts next s' e → Exhausts next s e

/-- A second loop over the same sampler yields nothing. -/
theorem C35_second_pass {α : Type} (it : CsvIter α) {s e : Nat} (h : Exhausts it.next s e) : Yields it.next e [] := by
  induction h with
  | stop h => exact .stop h
  | more _ _ ih => exact ih

/-- Seven rows, two data-parallel workers. -/
def C35_example (index : Nat) : CsvIter Nat := ⟨[1, 2, 3, 4, 5, 6, 7], 2, 1, 2, index⟩

example : Yields (C35_example 0).next 0 [[1, 3], [5, 7]] ∧ Yields (C35_example 1).next 0 [[2, 4], [6]] ∧
    (C35_example 0).len = 2 ∧ Exhausts (C35_example 1).next 0 2 :=
  ⟨yields_of_check _ _ (by decide +kernel), yields_of_check _ _ (by decide +kernel), by decide +kernel,
    .more (x := [2, 4]) (s' := 1) (by decide +kernel)
      (.more (x := [6]) (s' := 2) (by decide +kernel) (.stop (by decide +kernel)))⟩

/-- One row and two data-parallel workers: there is a batch, none is reported.  Two epochs: two batches are reported, one
is yielded. -/
theorem C35_len_refuted :
    (∃ it : CsvIter Nat, it.epoch = 1 ∧ it.num = 2 ∧ it.index = 0 ∧ Yields it.next 0 [[1]] ∧ it.len = 0) ∧
    ∃ it : CsvIter Nat, it.epoch = 2 ∧ it.num = 1 ∧ it.index = 0 ∧ Yields it.next 0 [[1]] ∧ it.len = 2 :=
  ⟨⟨⟨[1], 2, 1, 2, 0⟩, rfl, rfl, rfl, yields_of_check _ _ (by decide +kernel), by decide +kernel⟩,
   ⟨⟨[1], 2, 2, 1, 0⟩, rfl, rfl, rfl, yields_of_check _ _ (by decide +kernel), by decide +kernel⟩⟩

end DeepGNN
