import Verif.Spec.EncoderChunks

/-
Lemmas about the encoder with recomputed activations.
-/

namespace DeepGNN.EncoderChunks
open Spec

variable {S M : Type}

theorem runLayers_final (mask : M) : ∀ (layers : List (S → M → S)) (x : S), runLayers layers mask x = final mask layers x
  | [], x => rfl
  | layer :: layers, x => by
    have h := runLayers_final mask layers (layer x mask)
    rw [final] at h ⊢
    rw [after, List.getLastD_cons]
    exact h

theorem runLayers_append (mask : M) (a b : List (S → M → S)) (x : S) :
    runLayers (a ++ b) mask x = runLayers b mask (runLayers a mask x) := by
  simp [runLayers, List.foldl_append]

theorem find_range {p : Nat → Bool} {n k : Nat} (h : (List.range n).find? p = some k) : p k = true ∧ ∀ j < k, p j = false := by
  rw [List.find?_eq_some_iff_getElem] at h
  obtain ⟨h1, i, hi, h2, h3⟩ := h
  rw [List.getElem_range] at h2
  subst h2
  refine ⟨h1, fun j hj => ?_⟩
  have := h3 j hj
  simpa using this

theorem ceilSqrt_spec (n : Nat) : n ≤ ceilSqrt n * ceilSqrt n ∧ ∀ j < ceilSqrt n, j * j < n := by
  rw [ceilSqrt]
  cases h : (List.range (n + 1)).find? fun c => decide (n ≤ c * c) with
  | none =>
    have := List.find?_eq_none.1 h n (by simp)
    simp only [decide_eq_true_eq] at this
    cases n with
    | zero => exact absurd (Nat.zero_le _) this
    | succ n => exact absurd (Nat.le_mul_of_pos_left _ (by omega)) this
  | some k =>
    obtain ⟨h1, h2⟩ := find_range h
    refine ⟨by simpa using h1, fun j hj => ?_⟩
    have := h2 j hj
    simpa using this

theorem ceilSqrt_pos {n : Nat} (h : 0 < n) : 0 < ceilSqrt n := by
  have := (ceilSqrt_spec n).1
  cases h1 : ceilSqrt n with
  | zero => rw [h1] at this; omega
  | succ k => omega

/-- The loop ends, with the result of the remaining layers; its calls cover them, one after the other. -/
theorem chunkLoop_eq (layers : List (S → M → S)) (mask : M) {c : Nat} (hc : 0 < c) : ∀ (fuel l : Nat) (x : S),
    layers.length ≤ l + fuel → ∃ calls,
      chunkLoop layers mask c fuel l x = some (runLayers (layers.drop l) mask x, calls) ∧
      (calls.map fun b => (layers.take b.2).drop b.1).flatten = layers.drop l ∧
      (∀ b ∈ calls, ((layers.take b.2).drop b.1).length ≤ c) ∧ (calls = [] ∨ l + (calls.length - 1) * c < layers.length)
  | 0, l, x, hl => by
    have h1 : layers.drop l = [] := List.drop_eq_nil_of_le (by omega)
    refine ⟨[], ?_, ?_, ?_, Or.inl rfl⟩
    · rw [chunkLoop, if_neg (by omega), h1]; rfl
    · rw [h1]; rfl
    · simp
  | fuel + 1, l, x, hl => by
    by_cases h : l < layers.length
    · obtain ⟨calls, h1, h2, h3, h4⟩ := chunkLoop_eq layers mask hc fuel (l + c) (custom layers l (l + c) x mask) (by omega)
      have hsplit : (layers.take (l + c)).drop l ++ layers.drop (l + c) = layers.drop l := by
        rw [List.drop_take, Nat.add_sub_cancel_left, ← List.drop_drop]
        exact List.take_append_drop c (layers.drop l)
      refine ⟨(l, l + c) :: calls, ?_, ?_, ?_, Or.inr ?_⟩
      · rw [chunkLoop, if_pos h, h1, Option.map_some, custom, ← runLayers_append, hsplit]
      · rw [List.map_cons, List.flatten_cons, h2]; exact hsplit
      · intro b hb
        rcases List.mem_cons.1 hb with rfl | hb
        · rw [List.length_drop, List.length_take]; omega
        · exact h3 b hb
      · rcases h4 with rfl | h4
        · simpa using h
        · cases calls with
          | nil => simpa using h
          | cons b bs =>
            simp only [List.length_cons, Nat.add_sub_cancel] at h4 ⊢
            rw [Nat.succ_mul]; omega
    · have h1 : layers.drop l = [] := List.drop_eq_nil_of_le (by omega)
      refine ⟨[], ?_, ?_, ?_, Or.inl rfl⟩
      · rw [chunkLoop, if_neg h, h1]; rfl
      · rw [h1]; rfl
      · simp

theorem plainLoop_eq (all : Bool) (mask : M) : ∀ (layers : List (S → M → S)) (x : S) (out : List S),
    plainLoop all mask layers x out = (final mask layers x, if all then out ++ after mask layers x else out)
  | [], x, out => by cases all <;> simp [plainLoop, final, after]
  | layer :: layers, x, out => by
    rw [plainLoop, plainLoop_eq all mask layers, final, final, after, List.getLastD_cons]
    cases all <;> simp

theorem after_length (mask : M) : ∀ (layers : List (S → M → S)) (x : S), (after mask layers x).length = layers.length
  | [], _ => rfl
  | layer :: layers, x => by simp [after, after_length mask layers]

end DeepGNN.EncoderChunks
