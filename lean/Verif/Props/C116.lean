import Verif.Proofs.EncoderChunks

/-
C116 Recomputing activations does not change what the encoder returns.
-/

namespace DeepGNN
open EncoderChunks EncoderChunks.Spec

variable {S M P : Type}

theorem encoder_forward (layers : List (S → M → S)) (x : S) (mask : M) (all checkpoint : Bool) :
    EncoderChunks.forward layers x mask all checkpoint =
      some (if all && !checkpoint then after mask layers x else [final mask layers x]) := by
  rw [EncoderChunks.forward]
  cases checkpoint with
  | false => cases all <;> simp [plainLoop_eq]
  | true =>
    rw [if_pos rfl]
    have hres : ∃ calls, chunkLoop layers mask (ceilSqrt layers.length) layers.length 0 x =
        some (final mask layers x, calls) := by
      cases layers with
      | nil => exact ⟨[], rfl⟩
      | cons a r =>
        obtain ⟨calls, h, -⟩ := chunkLoop_eq (a :: r) mask (ceilSqrt_pos (n := (a :: r).length) (by simp)) (a :: r).length 0 x
          (by omega)
        exact ⟨calls, by rw [h, List.drop_zero, runLayers_final]⟩
    obtain ⟨calls, h⟩ := hres
    rw [h]
    cases all <;> rfl

/-- When only the last layer is asked for, the encoder ends and returns the input after all layers, one after the other,
for any number of layers, with recomputation or without. -/
theorem C116_last (layers : List (S → M → S)) (x : S) (mask : M) (checkpoint : Bool) :
    EncoderChunks.forward layers x mask false checkpoint = some [final mask layers x] := by
  rw [encoder_forward]; rfl

/-- The pooled output is the same with recomputation and without, whatever is asked for. -/
theorem C116_pooled (pooler : S → P) (layers : List (S → M → S)) (hl : layers ≠ []) (x : S) (mask : M) (all checkpoint : Bool) :
    (bertModel pooler layers x mask all checkpoint).map (·.2) = some (pooler (final mask layers x)) := by
  rw [bertModel, encoder_forward, Option.bind_some]
  have h1 : (after mask layers x).getLast? = some (final mask layers x) := by
    cases layers with
    | nil => exact absurd rfl hl
    | cons a r => rw [final, after, List.getLastD_cons, List.getLast?_cons, List.getLastD_eq_getLast?]
  cases all <;> cases checkpoint <;> simp [h1]

/-- Without recomputation, asking for all layers returns the hidden states after each of them.  Missing: with recomputation
(false, `C116_all_refuted`). -/
theorem C116_all_partial (layers : List (S → M → S)) (x : S) (mask : M) :
    EncoderChunks.forward layers x mask true false = some (after mask layers x) ∧
      (after mask layers x).length = layers.length := by
  refine ⟨?_, after_length mask layers x⟩
  rw [encoder_forward]; rfl

/-- With recomputation, asking for all of two or more layers returns only the last, so the result is never the one without
recomputation. -/
theorem C116_all_refuted (layers : List (S → M → S)) (h2 : 2 ≤ layers.length) (x : S) (mask : M) :
    EncoderChunks.forward layers x mask true true = some [final mask layers x] ∧
      EncoderChunks.forward layers x mask true true ≠ EncoderChunks.forward layers x mask true false := by
  have h : EncoderChunks.forward layers x mask true true = some [final mask layers x] := by rw [encoder_forward]; rfl
  refine ⟨h, ?_⟩
  rw [h, (C116_all_partial layers x mask).1]
  intro he
  have := congrArg List.length (Option.some.inj he)
  rw [after_length, List.length_singleton] at this
  omega

/-- What is kept in memory: the layers are cut into consecutive pieces, each layer in exactly one; the number of pieces, and
the number of layers in a piece, are at most the square root of the number of layers, rounded up. -/
theorem C116_pieces (layers : List (S → M → S)) (x : S) (mask : M) :
    ∃ c y calls, (layers.length ≤ c * c ∧ ∀ j < c, j * j < layers.length) ∧
      chunkLoop layers mask (ceilSqrt layers.length) layers.length 0 x = some (y, calls) ∧
      (calls.map fun b => (layers.take b.2).drop b.1).flatten = layers ∧
      calls.length ≤ c ∧ ∀ b ∈ calls, ((layers.take b.2).drop b.1).length ≤ c := by
  refine ⟨ceilSqrt layers.length, ?_⟩
  cases layers with
  | nil => exact ⟨x, [], ceilSqrt_spec 0, rfl, rfl, by simp, by simp⟩
  | cons a r =>
    obtain ⟨calls, h1, h2, h3, h4⟩ := chunkLoop_eq (a :: r) mask (ceilSqrt_pos (n := (a :: r).length) (by simp)) (a :: r).length 0 x
      (by omega)
    have hs := ceilSqrt_spec (a :: r).length
    refine ⟨_, calls, hs, h1, h2, ?_, h3⟩
    rcases h4 with rfl | h4
    · simp
    · rw [Nat.zero_add] at h4
      have := Nat.lt_of_mul_lt_mul_right (Nat.lt_of_lt_of_le h4 hs.1)
      omega

/-- Five layers: each appends its number. -/
def exampleLayers : List (List Nat → Nat → List Nat) := (List.range 5).map fun i x m => x ++ [i + m]

example : EncoderChunks.forward exampleLayers [] 10 false true = some [[10, 11, 12, 13, 14]] := by decide +kernel
example : EncoderChunks.forward exampleLayers [] 10 true false =
    some [[10], [10, 11], [10, 11, 12], [10, 11, 12, 13], [10, 11, 12, 13, 14]] := by decide +kernel
example : EncoderChunks.forward exampleLayers [] 10 true true = some [[10, 11, 12, 13, 14]] := by decide +kernel
example : chunkLoop exampleLayers 10 (ceilSqrt 5) 5 0 [] = some ([10, 11, 12, 13, 14], [(0, 3), (3, 6)]) := by decide +kernel
example : 2 ≤ exampleLayers.length ∧ exampleLayers ≠ [] := ⟨by decide, by simp [exampleLayers]⟩
example : (bertModel List.length exampleLayers [] 10 true true).map (·.2) = some 5 := by decide +kernel

end DeepGNN
