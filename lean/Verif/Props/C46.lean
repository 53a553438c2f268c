import Verif.Proofs.Checkpoint

/-
C46: checkpoint rotation.
-/

namespace DeepGNN

open Checkpoint

/-- For every sequence of saves with epochs below 1000 and steps below 1000000, starting with an empty folder, the files
left are those of the newest checkpoints saved.  Missing: larger numbers (`C46_newest_refuted`). -/
theorem C46_newest_partial {limit : Nat} (hl : 0 < limit) (history : List (Nat × Nat))
    (hf : ∀ x ∈ history, x.1 < 1000 ∧ x.2 < 1000000) :
    ∃ kept, history.foldl (save limit) [] = kept.map name ∧ Spec.NewestCheckpoint limit history kept := by
  have key : ∀ (rest saved kept : List (Nat × Nat)), (∀ x ∈ rest, Fits x) → (∀ x ∈ saved, Fits x) →
      Spec.NewestCheckpoint limit saved kept →
      ∃ kept', rest.foldl (save limit) (kept.map name) = kept'.map name ∧ Spec.NewestCheckpoint limit (rest.reverse ++ saved) kept' := by
    intro rest
    induction rest with
    | nil => intro saved kept _ _ h; exact ⟨kept, rfl, h⟩
    | cons x rest ih =>
      intro saved kept h1 h2 h
      have hx : ∀ y ∈ x :: saved, Fits y := by
        intro y hy
        rcases List.mem_cons.1 hy with rfl | hy
        · exact h1 _ (by simp)
        · exact h2 y hy
      obtain ⟨k, e, hk⟩ := newest_save hl hx h
      obtain ⟨k', e', hk'⟩ := ih (x :: saved) k (fun y hy => h1 y (by simp [hy])) hx hk
      refine ⟨k', by rw [List.foldl_cons, e, e'], ?_⟩
      rw [List.reverse_cons, List.append_assoc]
      exact hk'
  obtain ⟨k, e, hk⟩ := key history [] [] hf (by simp) ⟨.nil, by simp, by simp, by simp⟩
  refine ⟨k, e, ⟨hk.nodup, ?_, hk.bounded, ?_⟩⟩
  · intro x hx; simpa using hk.subset x hx
  · intro x hx hx2; exact hk.older x (by simpa using hx) hx2

/-- The checkpoint loaded is the newest one in the folder. -/
theorem C46_load_partial (kept : List (Nat × Nat)) (hf : ∀ x ∈ kept, x.1 < 1000 ∧ x.2 < 1000000) (hk : kept ≠ []) :
    ∃ x ∈ kept, load (kept.map name) = some (name x) ∧ ∀ y ∈ kept, y = x ∨ Spec.Older y x := by
  have hp := Files.sort_perm (kept.map name)
  have hs := Files.sort_sorted (kept.map name)
  have hne : Files.sort (kept.map name) ≠ [] := by
    intro e
    have := hp.length_eq
    rw [e, List.length_map] at this
    exact hk (List.eq_nil_of_length_eq_zero this.symm)
  have hl : (Files.sort (kept.map name)).getLast hne ∈ kept.map name := hp.mem_iff.1 (List.getLast_mem hne)
  obtain ⟨x, hx, e⟩ := List.mem_map.1 hl
  refine ⟨x, hx, by rw [load, sorted, List.getLast?_eq_some_getLast hne, e], fun y hy => ?_⟩
  have hm : name y ∈ Files.sort (kept.map name) := hp.mem_iff.2 (List.mem_map_of_mem hy)
  have hle : Files.le (name y) (name x) = true := by
    rw [e]
    rw [← List.dropLast_concat_getLast hne, List.pairwise_append] at hs
    rw [← List.dropLast_concat_getLast hne, List.mem_append] at hm
    rcases hm with h | h
    · exact hs.2.2 _ h _ (by simp)
    · simp only [List.mem_cons, List.not_mem_nil, or_false] at h
      rw [h]; exact Files.le_refl _
  rcases (name_le (hf y hy) (hf x hx)).2.1 hle with h | h
  · exact .inr h
  · exact .inl h

/-- Saves that go back and forth. -/
def C46_history : List (Nat × Nat) := [(1, 500), (2, 0), (1, 600), (2, 0), (10, 0), (9, 999999)]

example : (∀ x ∈ C46_history, x.1 < 1000 ∧ x.2 < 1000000) ∧
    C46_history.foldl (save 2) [] = [(10, 0), (9, 999999)].map name ∧ name (9, 70) = "009-000070".toList.map Char.toNat ∧
    load (C46_history.foldl (save 2) []) = some (name (10, 0)) :=
  ⟨by decide, by decide +kernel, by decide +kernel, by decide +kernel⟩

/-- Epoch 1000 sorts before epoch 999 and step 1000000 before step 999999: the newest checkpoint is deleted as soon as it
is saved, and the older one is loaded. -/
theorem C46_newest_refuted :
    [(999, 0), (1000, 0)].foldl (save 1) [] = [name (999, 0)] ∧
    [(1, 999999), (1, 1000000)].foldl (save 1) [] = [name (1, 999999)] ∧
    load ([(999, 0), (1000, 0)].map name) = some (name (999, 0)) := by
  decide +kernel

end DeepGNN
