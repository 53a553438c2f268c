import Verif.Proofs.Merge

/-
C18 Merging reservoirs without replacement.
A shard with `n` elements offers a sample of `min n k` of them; `(n, sample)` are the inputs of the merge.
-/

namespace DeepGNN

/-- For all draws, the merged result consists of elements from distinct places of the offered samples,
and as many slots are filled as there are elements in the shards. -/
theorem C18_distinct {α} (R : Draws) (shards : List (Nat × List α)) (out0 : List α)
    (hs : ∀ x ∈ shards, x.2.length = min x.1 out0.length) (s : Nat) :
    ∃ out seen s', shards.foldlM (fun st x => mergeAdd R (store x.2) out0.length x.1 st) (out0, 0, s) =
        some (out, seen, s') ∧ out.length = out0.length ∧ Spec.Selection (shards.flatMap (·.2)) out0 out := by
  obtain ⟨out, seen, s', h1, h2⟩ := mergeRun_inv R (all := []) (out0 := out0) (out := out0) (total := 0) (seen := 0)
    ⟨by omega, fun _ => rfl, [], by simp, by simp, ⟨rfl, by simp, by simp, rfl⟩⟩ shards hs s
  rw [List.nil_append, Nat.zero_add] at h2
  obtain ⟨ps, h3, h4, h5⟩ := h2.picked
  refine ⟨out, seen, s', h1, h5.len, out.take ps.length, ps, ?_, ?_, h5.nodup, h5.vals⟩
  · have := h5.length_le
    rw [List.length_take, Nat.min_eq_left this, ← h5.rest, List.take_append_drop]
  · have h6 := h5.length_le
    have h7 : min out0.length (shards.map (·.1)).sum = min out0.length (shards.flatMap (·.2)).length := by
      clear h1 h2 h3 h4 h5 h6
      induction shards with
      | nil => rfl
      | cons x shards ih =>
        have := ih (fun x hx => hs x (by simp [hx]))
        have hx := hs x (by simp)
        simp only [List.map_cons, List.sum_cons, List.flatMap_cons, List.length_append]
        omega
    rw [List.length_take]; omega

/-- Every offered element is in the result for some draws, if all shards but the last fit into the
reservoir together.  Missing for the full property: more than one shard beyond the capacity, see
`C18_reachable_refuted`. -/
theorem C18_reachable_partial {α} (earlier : List (Nat × List α)) (last : Nat × List α) (out0 : List α)
    (hs : ∀ x ∈ earlier, x.2.length = min x.1 out0.length) (hl : last.2.length = min last.1 out0.length)
    (hfit : (earlier.map (·.1)).sum ≤ out0.length) (x : α)
    (hx : x ∈ (earlier ++ [last]).flatMap (·.2)) (s : Nat) :
    ∃ (R : Draws) (out : List α) (seen s' : Nat),
      (earlier ++ [last]).foldlM (fun st x => mergeAdd R (store x.2) out0.length x.1 st) (out0, 0, s) =
        some (out, seen, s') ∧ x ∈ out := by
  have run : ∀ R : Draws, ∃ out1 out2 seen s', mergeRun R out0.length earlier (out0, 0, s) =
        some (out1, (earlier.flatMap (·.2)).length, s) ∧
      (earlier ++ [last]).foldlM (fun st x => mergeAdd R (store x.2) out0.length x.1 st) (out0, 0, s) =
        some (out2, seen, s') ∧
      (∀ j, j < (earlier.flatMap (·.2)).length → out1[j]? = (earlier.flatMap (·.2))[j]?) ∧
      ((earlier.flatMap (·.2)).length + last.1 ≤ out0.length →
        (∀ j, j < (earlier.flatMap (·.2)).length → out2[j]? = out1[j]?) ∧
        ∀ j, j < last.1 → out2[(earlier.flatMap (·.2)).length + j]? = last.2[j]?) ∧
      (out0.length < (earlier.flatMap (·.2)).length + last.1 → R = (fun _ => 0) →
        ∀ j, j < (earlier.flatMap (·.2)).length → out2[j]? = out1[j]?) ∧
      (out0.length < (earlier.flatMap (·.2)).length + last.1 → R = (fun _ => 1) →
        ∀ j, j < last.2.length → ∃ q : Nat, out2[q]? = last.2[j]?) := by
    intro R
    obtain ⟨out1, h1, h2, h3⟩ := mergeRun_fit R out0 earlier [] out0 s
      ⟨by simp, fun _ => rfl, [], by simp, by simp, ⟨rfl, by simp, by simp, rfl⟩⟩ (by simp) hs
      (by simpa using hfit)
    rw [List.nil_append] at h1 h2 h3
    obtain ⟨out2, seen2, s2, h4, -, h5, h6, h7⟩ := mergeAdd_inv R h2 last.1 last.2 hl s
    refine ⟨out1, out2, seen2, s2, h1, ?_, h3, fun hle => (h5 hle).2, h6, h7⟩
    have h1' : List.foldlM (fun st (x : Nat × List α) => mergeAdd R (store x.2) out0.length x.1 st) (out0, 0, s)
      earlier = _ := h1
    rw [List.foldlM_append, h1', Option.bind_eq_bind, Option.bind_some, List.foldlM_cons, h4]
    rfl
  have hmem : ∀ {l : List α} {j : Nat} {y : α}, l[j]? = some y → y ∈ l := fun h => List.mem_of_getElem? h
  rw [List.flatMap_append, List.mem_append] at hx
  rcases hx with hx | hx
  · obtain ⟨j, hj, hje⟩ := List.getElem_of_mem hx
    obtain ⟨out1, out2, seen, s', h1, h2, h3, h4, h5, -⟩ := run (fun _ => 0)
    refine ⟨_, out2, seen, s', h2, ?_⟩
    have : out2[j]? = out1[j]? := by
      by_cases hc : (earlier.flatMap (·.2)).length + last.1 ≤ out0.length
      · exact (h4 hc).1 j hj
      · exact h5 (by omega) rfl j hj
    rw [h3 j hj, List.getElem?_eq_getElem hj, hje] at this
    exact hmem this
  · have hx' : x ∈ last.2 := by simpa using hx
    obtain ⟨j, hj, hje⟩ := List.getElem_of_mem hx'
    obtain ⟨out1, out2, seen, s', h1, h2, h3, h4, -, h6⟩ := run (fun _ => 1)
    refine ⟨_, out2, seen, s', h2, ?_⟩
    by_cases hc : (earlier.flatMap (·.2)).length + last.1 ≤ out0.length
    · have := (h4 hc).2 j (by omega)
      rw [List.getElem?_eq_getElem hj, hje] at this
      exact hmem this
    · obtain ⟨q, hq⟩ := h6 (by omega) rfl j hj
      rw [List.getElem?_eq_getElem hj, hje] at hq
      exact hmem hq

/-- Non-vacuity: a shard with two elements and one with three, merged into three slots. -/
example : ∃ (R : Draws) (out : List Nat) (seen s' : Nat),
    [(2, [10, 11]), (3, [20, 21, 22])].foldlM (fun st x => mergeAdd R (store x.2) 3 x.1 st) ([0, 0, 0], 0, 0) =
      some (out, seen, s') ∧ 11 ∈ out :=
  C18_reachable_partial [(2, [10, 11])] (3, [20, 21, 22]) [0, 0, 0] (by decide) (by decide) (by decide) 11
    (by decide) 0

/-- Two shards with two elements each and one slot: for all draws the element offered by the first
shard is lost. -/
theorem C18_reachable_refuted (R : Draws) (s : Nat) :
    ∃ s', [(2, [10]), (2, [20])].foldlM (fun st x => mergeAdd R (store x.2) 1 x.1 st) ([0], 0, s) =
      some ([20], 0, s') := by
  have key : ∀ (v : Nat) (o s : Nat), ∃ s', mergeAdd R (store [v]) 1 2 ([o], 0, s) = some ([v], 0, s') := by
    intro v o s
    simp [mergeAdd, splitCounts, sampleN, replaceSlots, List.range_succ, store]
  obtain ⟨s1, h1⟩ := key 10 0 s
  obtain ⟨s2, h2⟩ := key 20 10 s1
  exact ⟨s2, by simp [h1, h2]⟩

end DeepGNN
