import Verif.Proofs.Samplers

/-
C33: array samplers (nodes, edges and tuples from files).
-/

namespace DeepGNN

open Samplers

/-- If all data-parallel workers use the same order in every epoch (no shuffling, or the same random numbers), then
together they yield every row once per epoch, and fewer than `batch` times the backfill value, in full batches.
Missing: workers that shuffle on their own (`C33_shuffle_refuted`). -/
theorem C33_epochs_partial {α : Type} (it : ArrayIter α) (hb : 0 < it.batch) (hn : 0 < it.num) (hd : it.dropLast = false)
    (ho : ∀ e, (it.order e).Perm (List.range it.data.length)) :
    ∃ outs : Nat → List (List α), (∀ w < it.num, Yields it.next (it.start w) (outs w)) ∧
      Spec.AllOnce it.num it.batch it.backfill outs (List.replicate it.epochs it.data).flatten := by
  refine ⟨it.out, fun w _ => it.yields hb hn ho w, fun w _ => it.out_length hb hn ho w,
    it.chunks * it.batch - it.epochs * it.data.length, ?_, ?_⟩
  · have := it.chunks_le hb
    omega
  · refine (it.out_perm hn).trans ?_
    have hg : (gather it.data it.backfill (buildIndex it.order it.epochs)).length = it.epochs * it.data.length := by
      rw [gather, List.length_map, length_buildIndex it.order ho]
    have h1 : it.epochs * it.data.length ≤ it.chunks * it.batch := by
      rw [ArrayIter.chunks, hd]
      rcases Nat.lt_or_ge (ceilDiv (it.epochs * it.data.length) it.batch * it.batch) (it.epochs * it.data.length) with h | h
      · have := (lt_ceilDiv hb).2 h; omega
      · simpa using h
    have h2 := it.chunks_le hb
    rw [ArrayIter.padded, List.take_append, List.take_of_length_le (by omega), List.take_replicate, hg, Nat.min_eq_left (by omega)]
    exact (gather_buildIndex it.data it.backfill it.order ho it.epochs).append (.refl _)

/-- With `drop_last` they yield only rows, each at most once per epoch, and fewer than `batch` of them are missing. -/
theorem C33_drop_last_partial {α : Type} (it : ArrayIter α) (hb : 0 < it.batch) (hn : 0 < it.num) (hd : it.dropLast = true)
    (ho : ∀ e, (it.order e).Perm (List.range it.data.length)) :
    ∃ outs : Nat → List (List α), (∀ w < it.num, Yields it.next (it.start w) (outs w)) ∧
      Spec.AllButLast it.num it.batch outs (List.replicate it.epochs it.data).flatten := by
  have hg : (gather it.data it.backfill (buildIndex it.order it.epochs)).length = it.epochs * it.data.length := by
    rw [gather, List.length_map, length_buildIndex it.order ho]
  have h1 : it.chunks * it.batch ≤ it.epochs * it.data.length := by
    rw [ArrayIter.chunks, hd]; exact Nat.div_mul_le_self _ _
  refine ⟨it.out, fun w _ => it.yields hb hn ho w, fun w _ => it.out_length hb hn ho w,
    (gather it.data it.backfill (buildIndex it.order it.epochs)).drop (it.chunks * it.batch), ?_, ?_⟩
  · rw [List.length_drop, hg, ArrayIter.chunks, hd, if_pos rfl]
    have h2 := Nat.div_add_mod (it.epochs * it.data.length) it.batch
    have h3 := Nat.mod_lt (it.epochs * it.data.length) hb
    rw [Nat.mul_comm] at h2
    omega
  · refine List.Perm.trans ?_ (gather_buildIndex it.data it.backfill it.order ho it.epochs)
    refine ((it.out_perm hn).append (.refl _)).trans ?_
    rw [ArrayIter.padded, List.take_append_of_le_length (by omega), List.take_append_drop]

/-- A single worker sees as many batches as the sampler reports.  Missing: several data-parallel workers, where the
number may be off by one (`C33_len_bounds`, `C33_len_refuted`). -/
theorem C33_len_partial {α : Type} (it : ArrayIter α) (hb : 0 < it.batch) (hn : it.num = 1)
    (ho : ∀ e, (it.order e).Perm (List.range it.data.length)) :
    ∃ out, Yields it.next (it.start 0) out ∧ out.length = it.len := by
  refine ⟨_, it.yields hb (by omega) ho 0, ?_⟩
  rw [ArrayIter.out, List.length_map, length_pyRange, ArrayIter.chunks, ArrayIter.len, hn, Nat.mul_one,
    Nat.mul_comm it.data.length]
  split <;> simp

/-- Without `drop_last` a data-parallel worker sees at most one batch less than reported, with it at most one more. -/
theorem C33_len_bounds {α : Type} (it : ArrayIter α) (hb : 0 < it.batch) (hn : 0 < it.num)
    (ho : ∀ e, (it.order e).Perm (List.range it.data.length)) {w : Nat} (hw : w < it.num) :
    ∃ out, Yields it.next (it.start w) out ∧
      if it.dropLast then it.len ≤ out.length ∧ out.length ≤ it.len + 1
      else out.length ≤ it.len ∧ it.len ≤ out.length + 1 := by
  refine ⟨_, it.yields hb hn ho w, ?_⟩
  rw [ArrayIter.out, List.length_map, length_pyRange, ArrayIter.chunks, ArrayIter.len, Nat.mul_comm it.data.length]
  generalize it.epochs * it.data.length = t
  cases hd : it.dropLast with
  | true =>
    simp only [if_true]
    rw [← Nat.div_div_eq_div_mul]
    generalize t / it.batch = c
    refine ⟨Nat.div_le_div_right (by omega), ?_⟩
    rw [← Nat.add_div_right _ hn]
    exact Nat.div_le_div_right (by omega)
  | false =>
    simp only [Bool.false_eq_true, if_false]
    have e : ceilDiv t (it.batch * it.num) = ceilDiv (ceilDiv t it.batch) it.num := by
      have hp : 0 < it.batch * it.num := Nat.mul_pos hb hn
      have hx : ∀ c, c < ceilDiv t (it.batch * it.num) ↔ c < ceilDiv (ceilDiv t it.batch) it.num := by
        intro c
        rw [lt_ceilDiv hp, lt_ceilDiv hn, lt_ceilDiv hb, Nat.mul_assoc, Nat.mul_comm it.num]
      have h1 := hx (ceilDiv t (it.batch * it.num))
      have h2 := hx (ceilDiv (ceilDiv t it.batch) it.num)
      omega
    rw [e]
    generalize ceilDiv t it.batch = c
    rw [ceilDiv]
    refine ⟨Nat.div_le_div_right (by omega), ?_⟩
    rw [← Nat.add_div_right _ hn]
    exact Nat.div_le_div_right (by omega)

/-- Five rows, two epochs of which the second is shuffled, three data-parallel workers. -/
def C33_example (dropLast : Bool) : ArrayIter Int :=
  ⟨[10, 11, 12, 13, 14], fun e => if e = 1 then [4, 2, 0, 3, 1] else List.range 5, 3, 2, -1, dropLast, 3⟩

example : (∀ e, ((C33_example false).order e).Perm (List.range (C33_example false).data.length)) ∧
    Yields (C33_example false).next ((C33_example false).start 0) [[10, 11, 12], [11, -1, -1]] ∧
    Yields (C33_example false).next ((C33_example false).start 1) [[13, 14, 14]] ∧
    Yields (C33_example false).next ((C33_example false).start 2) [[12, 10, 13]] ∧
    Yields (C33_example true).next ((C33_example true).start 0) [[10, 11, 12]] ∧
    (C33_example false).len = 2 ∧ (C33_example true).len = 1 := by
  refine ⟨fun e => ?_, yields_of_check _ _ (by decide +kernel),
    yields_of_check _ _ (by decide +kernel), yields_of_check _ _ (by decide +kernel),
    yields_of_check _ _ (by decide +kernel), by decide +kernel, by decide +kernel⟩
  simp only [C33_example]
  split
  · decide
  · exact .refl _

/-- Two data-parallel workers that shuffle on their own: one element is seen twice, another never. -/
theorem C33_shuffle_refuted :
    ∃ a b : ArrayIter Int, b = { a with order := b.order } ∧
      (∀ e, (a.order e).Perm (List.range a.data.length)) ∧ (∀ e, (b.order e).Perm (List.range b.data.length)) ∧
      a.num = 2 ∧ a.epochs = 1 ∧ a.data = [10, 11] ∧
      Yields a.next (a.start 0) [[10]] ∧ Yields b.next (b.start 1) [[10]] := by
  refine ⟨⟨[10, 11], fun _ => [0, 1], 1, 1, -1, false, 2⟩, ⟨[10, 11], fun _ => [1, 0], 1, 1, -1, false, 2⟩, rfl,
    fun _ => .refl _, fun _ => (by decide : [1, 0].Perm (List.range 2)), rfl, rfl, rfl, yields_of_check _ _ (by decide +kernel),
    yields_of_check _ _ (by decide +kernel)⟩

/-- Two rows, batches of two, two data-parallel workers: the second sees no batch, one is reported; with four rows,
`drop_last` and three workers the first sees a batch, none is reported. -/
theorem C33_len_refuted :
    (∃ it : ArrayIter Int, it.dropLast = false ∧ it.num = 2 ∧ (∀ e, (it.order e).Perm (List.range it.data.length)) ∧
      Yields it.next (it.start 1) [] ∧ it.len = 1) ∧
    ∃ it : ArrayIter Int, it.dropLast = true ∧ it.num = 3 ∧ (∀ e, (it.order e).Perm (List.range it.data.length)) ∧
      Yields it.next (it.start 0) [[1, 2]] ∧ it.len = 0 :=
  ⟨⟨⟨[1, 2], fun _ => [0, 1], 2, 1, -1, false, 2⟩, rfl, rfl, fun _ => .refl _, yields_of_check _ _ (by decide +kernel), by decide +kernel⟩,
   ⟨⟨[1, 2, 3, 4], fun _ => [0, 1, 2, 3], 2, 1, -1, true, 3⟩, rfl, rfl, fun _ => .refl _,
    yields_of_check _ _ (by decide +kernel), by decide +kernel⟩⟩

/-- Edges with features: `drop_last` has no effect, the last batch is padded and the number of batches is wrong. -/
theorem C33_features_refuted :
    ∃ it : ArrayIter Int, it.dropLast = true ∧ it.num = 1 ∧ (∀ e, (it.order e).Perm (List.range it.data.length)) ∧
      Yields (fileEdgeIter 1 it).next ((fileEdgeIter 1 it).start 0) [[1, 2], [3, -1]] ∧ it.len = 1 :=
  ⟨⟨[1, 2, 3], fun _ => [0, 1, 2], 2, 1, -1, true, 1⟩, rfl, rfl, fun _ => .refl _,
    yields_of_check _ _ (by decide +kernel), by decide +kernel⟩

end DeepGNN
