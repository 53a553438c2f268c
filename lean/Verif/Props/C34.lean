import Verif.Proofs.Samplers

/-
C34: range samplers.
-/

namespace DeepGNN

open Samplers Files

theorem range_shift (a n : Nat) : (List.range n).map (fun i => a + i) = List.range' a n := by
  rw [List.range'_eq_map_range]

theorem take_range'_le (s : Nat) {k n : Nat} (h : k ≤ n) : (List.range' s n).take k = List.range' s k := by
  obtain ⟨m, rfl⟩ : ∃ m, n = k + m := ⟨n - k, by omega⟩
  rw [← List.range'_append_1, List.take_left' (by simp)]

/-- A batch of a range without data-parallel workers. -/
theorem next_single (it : RangeIter) (hn : it.num = 1) {first : Nat} (h : first < it.last) :
    it.next first = some ((((List.range' first (it.last - first)).map Int.ofNat ++ List.replicate it.batch it.backfill).take it.batch),
      first + it.workers * it.batch) := by
  have e : pyRange first (first + it.batch) 1 = List.range' first it.batch := by
    rw [pyRange, ← range_shift]
    simp
  rw [RangeIter.next, if_neg (by omega)]
  simp only [hn, Nat.mul_one, e, Nat.div_one]
  by_cases hb : first + it.batch > it.last
  · rw [if_pos hb, fillFrom, List.length_map, List.length_range', ← List.map_take, take_range'_le _ (by omega), List.take_append,
      List.take_of_length_le (by rw [List.length_map, List.length_range']; omega), List.take_replicate,
      List.length_map, List.length_range', Nat.min_eq_left (by omega)]
  · rw [if_neg hb, List.take_append_of_le_length (by rw [List.length_map, List.length_range']; omega), ← List.map_take,
      take_range'_le _ (by omega)]

/-- What a worker sees. -/
def rangeOut (it : RangeIter) (w : Nat) : List (List Int) :=
  (pyRange w (ceilDiv (it.last - it.first) it.batch) it.workers).map fun c =>
    ((((List.range' it.first (it.last - it.first)).map Int.ofNat ++ List.replicate it.batch it.backfill).drop
      (c * it.batch)).take it.batch)

theorem rangeOut_yields (it : RangeIter) (hb : 0 < it.batch) (hw : 0 < it.workers) (hn : it.num = 1) (w : Nat) :
    Yields it.next (it.first + w * it.batch) (rangeOut it w) := by
  refine yields_pyRange (pos := fun c => it.first + c * it.batch) hw ?_ ?_ (ceilDiv (it.last - it.first) it.batch) w (by omega)
  · intro c hc
    have : ¬ c * it.batch < it.last - it.first := fun h => by have := (lt_ceilDiv hb).2 h; omega
    rw [RangeIter.next, if_pos (by omega)]
  · intro c hc
    have := (lt_ceilDiv hb).1 hc
    rw [next_single it hn (by omega), List.drop_append_of_le_length (by rw [List.length_map, List.length_range']; omega),
      ← List.map_drop, List.drop_range', Nat.mul_one, Nat.sub_sub, Nat.add_mul, Nat.add_assoc]

/-- Without data-parallel workers, all workers together yield every id of the range once and fewer than `batch` backfill
values, in full batches, and each worker yields as many batches as it reports.  Data-parallel workers: `C34_parallel_partial`. -/
theorem C34_nodes_partial (it : RangeIter) (hb : 0 < it.batch) (hw : 0 < it.workers) (hn : it.num = 1) :
    ∃ outs : Nat → List (List Int),
      (∀ w < it.workers, ∀ s, it.start w 0 = some s → Yields it.next s (outs w) ∧ (outs w).length = it.len w) ∧
      Spec.AllOnce it.workers it.batch it.backfill outs ((List.range' it.first (it.last - it.first)).map Int.ofNat) := by
  refine ⟨rangeOut it, fun w hww s hs => ⟨?_, ?_⟩, ?_, ?_⟩
  · rw [RangeIter.start] at hs
    split at hs
    · injection hs with hs
      rw [← hs]
      exact rangeOut_yields it hb hw hn w
    · cases hs
  · rw [rangeOut, List.length_map, length_pyRange, RangeIter.len, hn, Nat.mul_one]
    have hx : ∀ c, c < (ceilDiv (it.last - it.first) it.batch - w + (it.workers - 1)) / it.workers ↔
        c < ceilDiv (it.last - (it.first + w * it.batch)) (it.batch * it.workers) := by
      intro c
      rw [lt_ceilDiv (Nat.mul_pos hb hw), Nat.lt_div_iff_mul_lt hw]
      have h1 : c * (it.batch * it.workers) < it.last - (it.first + w * it.batch) ↔
          (c * it.workers + w) * it.batch < it.last - it.first := by
        rw [Nat.add_mul, Nat.mul_assoc c it.workers, Nat.mul_comm it.workers]
        omega
      rw [h1, ← lt_ceilDiv hb]
      omega
    have h1 := hx ((ceilDiv (it.last - it.first) it.batch - w + (it.workers - 1)) / it.workers)
    have h2 := hx (ceilDiv (it.last - (it.first + w * it.batch)) (it.batch * it.workers))
    omega
  · intro w hww b hm
    obtain ⟨c, hc, rfl⟩ := List.mem_map.1 hm
    have h1 := (lt_ceilDiv hb).1 ((mem_pyRange hw).1 hc).2.1
    rw [List.length_take, List.length_drop, List.length_append, List.length_map, List.length_range', List.length_replicate]
    omega
  · have h1 : it.last - it.first ≤ ceilDiv (it.last - it.first) it.batch * it.batch := by
      rcases Nat.lt_or_ge (ceilDiv (it.last - it.first) it.batch * it.batch) (it.last - it.first) with h | h
      · have := (lt_ceilDiv hb).2 h; omega
      · exact h
    have h2 := Nat.div_mul_le_self (it.last - it.first + it.batch - 1) it.batch
    rw [← ceilDiv] at h2
    refine ⟨ceilDiv (it.last - it.first) it.batch * it.batch - (it.last - it.first), by omega, ?_⟩
    refine (flatMap_flatten_map _ _ _ hw).trans ?_
    rw [flatMap_chunks, List.take_append, List.take_of_length_le (by rw [List.length_map, List.length_range']; exact h1),
      List.take_replicate, List.length_map, List.length_range', Nat.min_eq_left (by omega)]

example : ∃ it : RangeIter, 0 < it.batch ∧ it.workers = 2 ∧ it.num = 1 ∧ it.start 1 0 = some 7 ∧
    Yields it.next 5 [[5, 6], [9, 10]] ∧ Yields it.next 7 [[7, 8], [11, -1]] :=
  ⟨⟨5, 12, 2, 2, -1, 1⟩, by decide, rfl, rfl, by decide, yields_of_check _ _ (by decide +kernel),
    yields_of_check _ _ (by decide +kernel)⟩

/-- The ids a data-parallel worker yields if there are no other workers. -/
theorem next_strided (it : RangeIter) (hb : 0 < it.batch) (hn : 0 < it.num) (hw : it.workers = 1) (s0 : Nat) {c : Nat}
    (hc : c * (it.batch * it.num) < it.last - s0) :
    it.next (s0 + c * (it.batch * it.num)) =
      some ((((((List.range ((it.last - s0) / it.num)).map fun k => Int.ofNat (s0 + k * it.num)) ++
        List.replicate it.batch it.backfill).drop (c * it.batch)).take it.batch), s0 + (c + 1) * (it.batch * it.num)) := by
  have hK : c * it.batch ≤ (it.last - s0) / it.num := by
    rw [Nat.le_div_iff_mul_le hn, Nat.mul_assoc]; omega
  have hres : (pyRange (s0 + c * (it.batch * it.num)) (s0 + c * (it.batch * it.num) + it.batch * it.num) it.num).map Int.ofNat =
      (List.range it.batch).map fun k => Int.ofNat (s0 + (c * it.batch + k) * it.num) := by
    rw [pyRange, Nat.add_sub_cancel_left, show (it.batch * it.num + (it.num - 1)) / it.num = it.batch by
      rw [Nat.mul_comm, Nat.mul_add_div hn, Nat.div_eq_of_lt (by omega), Nat.add_zero], List.map_map]
    refine List.map_congr_left fun k _ => ?_
    simp only [Function.comp, Nat.add_mul, Nat.mul_assoc, Nat.add_assoc]
  have hdrop : ∀ m, c * it.batch + m ≤ (it.last - s0) / it.num →
      (((List.range ((it.last - s0) / it.num)).map fun k => Int.ofNat (s0 + k * it.num)).drop (c * it.batch)).take m =
        (List.range m).map fun k => Int.ofNat (s0 + (c * it.batch + k) * it.num) := by
    intro m hm
    rw [← List.map_drop, ← List.map_take, List.range_eq_range', List.drop_range', take_range'_le _ (by omega), List.range'_eq_map_range,
      List.map_map]
    refine List.map_congr_left fun k _ => ?_
    simp
  have hlenD : (((List.range ((it.last - s0) / it.num)).map fun k => Int.ofNat (s0 + k * it.num)).drop (c * it.batch)).length =
      (it.last - s0) / it.num - c * it.batch := by simp
  rw [RangeIter.next, if_neg (by omega)]
  simp only [hres, hw, Nat.one_mul]
  refine congrArg some (Prod.ext ?_ (by simp only [Nat.add_mul, Nat.one_mul]; omega))
  simp only
  rw [List.drop_append_of_le_length (by simpa using hK)]
  have hq : (it.last - (s0 + c * (it.batch * it.num))) / it.num = (it.last - s0) / it.num - c * it.batch := by
    rw [← Nat.sub_sub, show c * (it.batch * it.num) = it.num * (c * it.batch) by rw [← Nat.mul_assoc, Nat.mul_comm], Nat.sub_mul_div]
  by_cases hl : s0 + c * (it.batch * it.num) + it.batch * it.num > it.last
  · rw [if_pos hl, fillFrom, hq]
    have hsmall : (it.last - s0) / it.num - c * it.batch < it.batch := by
      rw [← hq, Nat.div_lt_iff_lt_mul hn]; omega
    have hR : (((List.range ((it.last - s0) / it.num)).map fun k => Int.ofNat (s0 + k * it.num)).drop (c * it.batch)) =
        (List.range ((it.last - s0) / it.num - c * it.batch)).map fun k => Int.ofNat (s0 + (c * it.batch + k) * it.num) := by
      rw [← hdrop _ (by omega), List.take_of_length_le (by rw [hlenD]; omega)]
    rw [hR, ← List.map_take, List.take_range, Nat.min_eq_left (by omega), List.take_append, List.take_of_length_le (by simp; omega),
      List.take_replicate, List.length_map, List.length_range, List.length_map, List.length_range, Nat.min_eq_left (by omega)]
  · rw [if_neg hl]
    have hbig : it.batch ≤ (it.last - s0) / it.num - c * it.batch := by
      rw [← hq, Nat.le_div_iff_mul_le hn]; omega
    rw [List.take_append_of_le_length (by rw [hlenD]; exact hbig), hdrop _ (by omega)]

/-- What a data-parallel worker sees if there are no other workers. -/
def stridedOut (it : RangeIter) (i : Nat) : List (List Int) :=
  (List.range (ceilDiv (it.last - (it.first + i)) (it.batch * it.num))).map fun c =>
    (((((List.range ((it.last - (it.first + i)) / it.num)).map fun k => Int.ofNat (it.first + i + k * it.num)) ++
        List.replicate it.batch it.backfill).drop (c * it.batch)).take it.batch)

theorem stridedOut_yields (it : RangeIter) (hb : 0 < it.batch) (hn : 0 < it.num) (hw : it.workers = 1) (i : Nat) :
    Yields it.next (it.first + i) (stridedOut it i) := by
  have hp : pyRange 0 (ceilDiv (it.last - (it.first + i)) (it.batch * it.num)) 1 =
      List.range (ceilDiv (it.last - (it.first + i)) (it.batch * it.num)) := by
    rw [pyRange]; simp
  have hbn := Nat.mul_pos hb hn
  have := yields_pyRange (next := it.next) (pos := fun c => it.first + i + c * (it.batch * it.num)) (n := 1)
    (m := ceilDiv (it.last - (it.first + i)) (it.batch * it.num)) (by omega) (fun c hc => by
      have : ¬ c * (it.batch * it.num) < it.last - (it.first + i) := fun h => by have := (lt_ceilDiv hbn).2 h; omega
      rw [RangeIter.next, if_pos (by omega)])
    (fun c hc => next_strided it hb hn hw (it.first + i) ((lt_ceilDiv hbn).1 hc)) _ 0 (Nat.le_of_eq (Nat.zero_add _).symm)
  rw [hp] at this
  simpa [stridedOut] using this

theorem stridedOut_flatten (it : RangeIter) (hb : 0 < it.batch) (hn : 0 < it.num) (i : Nat) :
    ∃ k, k ≤ it.batch ∧ (stridedOut it i).flatten =
      ((pyRange i (it.last - it.first - (it.num - 1)) it.num).map fun x => Int.ofNat (it.first + x)) ++ List.replicate k it.backfill := by
  have hbn := Nat.mul_pos hb hn
  generalize hN : ceilDiv (it.last - (it.first + i)) (it.batch * it.num) = N
  generalize hK : (it.last - (it.first + i)) / it.num = K
  have h1 : K ≤ N * it.batch := by
    rcases Nat.lt_or_ge (N * it.batch) K with h | h
    · rw [← hK, lt_div' hn] at h
      have : N < ceilDiv (it.last - (it.first + i)) (it.batch * it.num) := (lt_ceilDiv hbn).2 (by rw [← Nat.mul_assoc]; omega)
      omega
    · exact h
  have h2 : N * it.batch ≤ K + it.batch := by
    cases hN0 : N with
    | zero => simp
    | succ M =>
      have : M * (it.batch * it.num) < it.last - (it.first + i) := (lt_ceilDiv hbn).1 (by omega)
      have h3 : M * it.batch ≤ K := by
        rw [← hK, Nat.le_div_iff_mul_le hn, Nat.mul_assoc]; omega
      rw [Nat.succ_mul]; omega
  refine ⟨N * it.batch - K, by omega, ?_⟩
  have hr : pyRange i (it.last - it.first - (it.num - 1)) it.num = (List.range K).map fun k => i + k * it.num := by
    rw [pyRange]
    congr 2
    rw [← hK]
    by_cases h : it.num ≤ it.last - (it.first + i)
    · congr 1; omega
    · rw [Nat.div_eq_of_lt (by omega), Nat.div_eq_of_lt (by omega)]
  rw [stridedOut, ← List.flatMap_def, flatMap_chunks, hN, hK, hr, List.take_append, List.take_of_length_le (by simpa using h1),
    List.take_replicate, List.length_map, List.length_range, Nat.min_eq_left (by omega), List.map_map]
  congr 1
  refine List.map_congr_left fun k _ => ?_
  simp only [Function.comp, Nat.add_assoc]

/-- Data-parallel workers without other workers: together they yield every id of the range but the last `num - 1` once, and
backfill values, in full batches.  (The last `num - 1` ids are lost, `C34_last_id_lost`.) -/
theorem C34_parallel_partial (it : RangeIter) (hb : 0 < it.batch) (hn : 0 < it.num) (hw : it.workers = 1) :
    ∃ outs : Nat → List (List Int),
      (∀ i < it.num, ∀ s, it.start 0 i = some s → Yields it.next s (outs i)) ∧
      (∀ i < it.num, ∀ b ∈ outs i, b.length = it.batch) ∧
      ∃ k, k ≤ it.num * it.batch ∧ ((List.range it.num).flatMap fun i => (outs i).flatten).Perm
        ((List.range' it.first (it.last - it.first - (it.num - 1))).map Int.ofNat ++ List.replicate k it.backfill) := by
  refine ⟨stridedOut it, fun i _ s hs => ?_, fun i _ b hm => ?_, ?_⟩
  · rw [RangeIter.start] at hs
    split at hs
    · injection hs with hs
      rw [← hs, Nat.zero_mul, Nat.add_zero]
      exact stridedOut_yields it hb hn hw i
    · cases hs
  · obtain ⟨c, hc, rfl⟩ := List.mem_map.1 hm
    have h1 := (lt_ceilDiv (Nat.mul_pos hb hn)).1 (List.mem_range.1 hc)
    have h2 : c * it.batch ≤ (it.last - (it.first + i)) / it.num := by
      rw [Nat.le_div_iff_mul_le hn, Nat.mul_assoc]; omega
    rw [List.length_take, List.length_drop, List.length_append, List.length_map, List.length_range, List.length_replicate]
    omega
  · have key : ∀ n : Nat, ∃ k, k ≤ n * it.batch ∧ ((List.range n).flatMap fun i => (stridedOut it i).flatten).Perm
        (((List.range n).flatMap fun i => pyRange i (it.last - it.first - (it.num - 1)) it.num).map (fun x => Int.ofNat (it.first + x)) ++
          List.replicate k it.backfill) := by
      intro n
      induction n with
      | zero => exact ⟨0, by omega, by simp⟩
      | succ n ih =>
        obtain ⟨k, h1, h2⟩ := ih
        obtain ⟨j, h3, h4⟩ := stridedOut_flatten it hb hn n
        refine ⟨k + j, by rw [Nat.succ_mul]; omega, ?_⟩
        rw [List.range_succ, List.flatMap_append, List.flatMap_append, List.map_append, ← List.replicate_append_replicate]
        simp only [List.flatMap_cons, List.flatMap_nil, List.append_nil]
        rw [h4]
        refine (h2.append_right _).trans ?_
        rw [List.append_assoc, List.append_assoc]
        refine List.Perm.append_left _ ?_
        rw [← List.append_assoc, ← List.append_assoc]
        exact List.perm_append_comm.append_right _
    obtain ⟨k, h1, h2⟩ := key it.num
    refine ⟨k, h1, h2.trans (List.Perm.append_right _ ?_)⟩
    have := (pyRange_split it.num (it.last - it.first - (it.num - 1)) hn).map fun x => Int.ofNat (it.first + x)
    refine this.trans ?_
    rw [List.range'_eq_map_range, List.map_map]
    exact List.Perm.refl _

/-- Two data-parallel workers over the ids 0 to 6 in batches of two: ids 0 to 5 are yielded. -/
example : ∃ it : RangeIter, 0 < it.batch ∧ it.num = 2 ∧ it.workers = 1 ∧ it.start 0 0 = some 0 ∧ it.start 0 1 = some 1 ∧
    Yields it.next 0 [[0, 2], [4, -1]] ∧ Yields it.next 1 [[1, 3], [5, -1]] :=
  ⟨⟨0, 7, 2, 1, -1, 2⟩, by decide, rfl, rfl, by decide, by decide, yields_of_check _ _ (by decide +kernel),
    yields_of_check _ _ (by decide +kernel)⟩

/-- Where a range is read by `num` data-parallel workers: position `c` of the iterator. -/
theorem next_parallel (it : RangeIter) (hn : 0 < it.num) {first : Nat} (h : first < it.last) :
    ∃ b, it.next first = some (b, first + it.workers * it.batch * it.num) ∧
      ∀ x : Int, x ∈ b → x = it.backfill ∨ ∃ i : Nat, x = i ∧ first ≤ i ∧ (i - first) % it.num = 0 ∧ i + it.num ≤ it.last := by
  rw [RangeIter.next, if_neg (by omega)]
  refine ⟨_, rfl, ?_⟩
  intro x hx
  have key : ∀ k i, first + k * it.num = i → k < (it.last - first) / it.num → i + it.num ≤ it.last := by
    intro k i hi hk
    have h1 := Nat.div_mul_le_self (it.last - first) it.num
    have h2 : (k + 1) * it.num ≤ (it.last - first) / it.num * it.num := Nat.mul_le_mul_right _ hk
    rw [Nat.succ_mul] at h2
    omega
  split at hx
  · rename_i hl
    rw [fillFrom, List.mem_append] at hx
    rcases hx with hx | hx
    · right
      rw [← List.map_take, List.mem_map] at hx
      obtain ⟨i, hi, rfl⟩ := hx
      rw [pyRange, ← List.map_take, List.take_range, List.mem_map] at hi
      obtain ⟨k, hk, rfl⟩ := hi
      rw [List.mem_range] at hk
      refine ⟨_, rfl, by omega, ?_, key k _ rfl (by omega)⟩
      rw [Nat.add_sub_cancel_left]; exact Nat.mul_mod_left _ _
    · left; exact List.eq_of_mem_replicate hx
  · rename_i hl
    right
    obtain ⟨i, hi, rfl⟩ := List.mem_map.1 hx
    rw [mem_pyRange hn] at hi
    refine ⟨i, rfl, hi.1, hi.2.2, ?_⟩
    have h1 := Nat.div_add_mod (i - first) it.num
    rw [hi.2.2] at h1
    refine key ((i - first) / it.num) i (by rw [Nat.mul_comm]; omega) ?_
    have h3 : it.num * ((i - first) / it.num) < it.num * it.batch := by rw [Nat.mul_comm it.num it.batch]; omega
    have h4 := Nat.lt_of_mul_lt_mul_left h3
    refine Nat.lt_of_lt_of_le h4 ((Nat.le_div_iff_mul_le hn).2 (by omega))

/-- With two or more data-parallel workers the last id of the range is never yielded, whatever the range, the batch size
and the workers: its place is taken by the backfill value. -/
theorem C34_last_id_lost (it : RangeIter) (hn : 2 ≤ it.num) (hf : it.backfill < 0) :
    ∀ s out, Yields it.next s out → ∀ b ∈ out, ((it.last - 1 : Nat) : Int) ∉ b := by
  intro s out h
  induction h with
  | stop _ => intro b hm; cases hm
  | @more s s' x out hx _ ih =>
    intro b hm
    rcases List.mem_cons.1 hm with rfl | hm
    · intro hmem
      have hs : s < it.last := by
        rcases Nat.lt_or_ge s it.last with h | h
        · exact h
        · rw [RangeIter.next, if_pos h] at hx; cases hx
      obtain ⟨b', e, hall⟩ := next_parallel it (by omega) hs
      rw [e] at hx
      injection hx with hx
      injection hx with hx1 hx2
      subst hx1
      rcases hall _ hmem with h1 | ⟨i, h1, -, -, h2⟩
      · omega
      · omega
    · exact ih b hm

/-- Ids 0 to 3, two data-parallel workers with batches of two: id 3 is lost. -/
theorem C34_parallel_refuted : ∃ it : RangeIter, it.first = 0 ∧ it.last = 4 ∧ it.workers = 1 ∧ it.num = 2 ∧
    it.start 0 0 = some 0 ∧ it.start 0 1 = some 1 ∧
    Yields it.next 0 [[0, 2]] ∧ Yields it.next 1 [[1, -1]] :=
  ⟨⟨0, 4, 2, 1, -1, 2⟩, rfl, rfl, rfl, rfl, by decide, by decide, yields_of_check _ _ (by decide +kernel),
    yields_of_check _ _ (by decide +kernel)⟩

/-- Two workers with two data-parallel workers each: id 2 is yielded twice. -/
theorem C34_overlap_refuted : ∃ it : RangeIter, it.first = 0 ∧ it.last = 8 ∧ it.workers = 2 ∧ it.num = 2 ∧
    it.start 0 0 = some 0 ∧ it.start 1 0 = some 2 ∧
    Yields it.next 0 [[0, 2]] ∧ Yields it.next 2 [[2, 4]] :=
  ⟨⟨0, 8, 2, 2, -1, 2⟩, rfl, rfl, rfl, rfl, by decide, by decide, yields_of_check _ _ (by decide +kernel),
    yields_of_check _ _ (by decide +kernel)⟩

theorem pairs_flat : ∀ (n : Nat) (l : List Int), l.length = 2 * n → ∃ e, pairs l = some e ∧ e.length = n ∧
    e.flatMap (fun p => [p.1, p.2]) = l
  | 0, [], _ => ⟨[], rfl, rfl, rfl⟩
  | n + 1, a :: b :: l, h => by
    obtain ⟨e, h1, h2, h3⟩ := pairs_flat n l (by simp at h; omega)
    exact ⟨(a, b) :: e, by rw [pairs, h1]; rfl, by simp [h2], by simp [h3]⟩
  | n + 1, [_], h => by simp at h; omega
  | n + 1, [], h => by simp at h
  | 0, _ :: _, h => by simp at h

theorem yields_pairs (it : RangeIter) {n : Nat} : ∀ (out : List (List Int)) (s : Nat), Yields it.next s out →
    (∀ b ∈ out, b.length = 2 * n) →
    ∃ es, Yields it.nextEdges s es ∧ (∀ e ∈ es, e.length = n) ∧ es.map (fun b => b.flatMap fun p => [p.1, p.2]) = out := by
  intro out s h hl
  induction h with
  | stop h => exact ⟨[], .stop (by rw [RangeIter.nextEdges, h]; rfl), by simp, rfl⟩
  | @more s s' x out hx _ ih =>
    obtain ⟨es, h1, h2, h3⟩ := ih (fun b hb => hl b (by simp [hb]))
    obtain ⟨e, p1, p2, p3⟩ := pairs_flat n x (hl x (by simp))
    refine ⟨e :: es, .more (by rw [RangeIter.nextEdges, hx]; simp [p1]) h1, ?_, by rw [List.map_cons, h3, p3]⟩
    intro b hb
    rcases List.mem_cons.1 hb with rfl | hb
    · exact p2
    · exact h2 b hb

/-- Range edges without data-parallel workers: the end points of the edges of all workers are the ids of the range, each
once, and backfill values; every batch has `n` edges (the batch size in ids is twice as large). -/
theorem C34_edges_partial (it : RangeIter) {n : Nat} (hb : it.batch = 2 * n) (hp : 0 < n) (hw : 0 < it.workers) (hn : it.num = 1) :
    ∃ outs : Nat → List (List (Int × Int)),
      (∀ w < it.workers, ∀ s, it.start w 0 = some s → Yields it.nextEdges s (outs w) ∧ ∀ e ∈ outs w, e.length = n) ∧
      ∃ ends : Nat → List (List Int), (∀ w < it.workers, ∀ s, it.start w 0 = some s →
        ends w = (outs w).map fun b => b.flatMap fun p => [p.1, p.2]) ∧
      Spec.AllOnce it.workers it.batch it.backfill ends ((List.range' it.first (it.last - it.first)).map Int.ofNat) := by
  obtain ⟨ends, h1, h2⟩ := C34_nodes_partial it (by omega) hw hn
  have key : ∀ w, ∃ es, w < it.workers → ∀ s, it.start w 0 = some s → Yields it.nextEdges s es ∧ (∀ e ∈ es, e.length = n) ∧
      es.map (fun b => b.flatMap fun p => [p.1, p.2]) = ends w := by
    intro w
    by_cases hww : w < it.workers
    · cases hs : it.start w 0 with
      | none => exact ⟨[], fun _ s e => by cases e⟩
      | some s =>
        obtain ⟨es, a1, a2, a3⟩ := yields_pairs it (n := n) (ends w) s (h1 w hww s hs).1 (fun b hm => by
          rw [h2.1 w hww b hm, hb])
        exact ⟨es, fun _ s' e => by injection e with e; subst e; exact ⟨a1, a2, a3⟩⟩
    · exact ⟨[], fun h => absurd h hww⟩
  refine ⟨fun w => Classical.choose (key w), fun w hww s hs => ?_, ends, fun w hww s hs => ?_, h2⟩
  · have := Classical.choose_spec (key w) hww s hs
    exact ⟨this.1, this.2.1⟩
  · exact (Classical.choose_spec (key w) hww s hs).2.2.symm

example : ∃ it : RangeIter, it.batch = 2 * 1 ∧ it.workers = 2 ∧ it.num = 1 ∧ it.start 0 0 = some 0 ∧
    Yields it.nextEdges 0 [[(0, 1)], [(4, -1)]] :=
  ⟨⟨0, 5, 2, 2, -1, 1⟩, rfl, rfl, rfl, by decide, yields_of_check _ _ (by decide +kernel)⟩

end DeepGNN
