import Verif.Model.EncoderChunks

/-
Specification of the encoder.
-/

namespace DeepGNN.EncoderChunks.Spec

variable {S M : Type}

/-- The hidden states after each layer, the layers applied one after the other. -/
def after (mask : M) : List (S → M → S) → S → List S
  | [], _ => []
  | layer :: layers, x => layer x mask :: after mask layers (layer x mask)

/-- The hidden states at the end: those after the last layer, or the input if there is none. -/
def final (mask : M) (layers : List (S → M → S)) (x : S) : S := (after mask layers x).getLastD x

end DeepGNN.EncoderChunks.Spec
