/-
The encoder with recomputed activations
(src/python/deepgnn/pytorch/encoding/twinbert/deepspeed/nvidia_modeling_no_apex.py:538-574).
-/

namespace DeepGNN.EncoderChunks

variable {S M : Type}

/-- `for layer in layers: x_ = layer(x_, inputs[1])` (nvidia_modeling_no_apex.py:548-551). -/
def runLayers (layers : List (S → M → S)) (mask : M) (x : S) : S := layers.foldl (fun x layer => layer x mask) x

/-- `custom(start, end)` (nvidia_modeling_no_apex.py:545-553); `checkpoint.checkpoint` calls it with the same arguments. -/
def custom (layers : List (S → M → S)) (start stop : Nat) (x : S) (mask : M) : S :=
  runLayers ((layers.take stop).drop start) mask x

/-- `math.ceil(math.sqrt(n))`: the least number whose square is at least `n`.  Simplification: the square root is exact. -/
def ceilSqrt (n : Nat) : Nat := ((List.range (n + 1)).find? fun c => n ≤ c * c).getD n

/-- The loop `while l < num_layers` (nvidia_modeling_no_apex.py:559-563) with at most `fuel` rounds: the hidden states and
the bounds of the calls.  `none`: it has not ended.  Simplification: `attention_mask * 1` is the mask. -/
def chunkLoop (layers : List (S → M → S)) (mask : M) (c : Nat) : Nat → Nat → S → Option (S × List (Nat × Nat))
  | 0, l, x => if l < layers.length then none else some (x, [])
  | fuel + 1, l, x =>
    if l < layers.length then
      (chunkLoop layers mask c fuel (l + c) (custom layers l (l + c) x mask)).map fun r => (r.1, (l, l + c) :: r.2)
    else some (x, [])

/-- `for i, layer_module in enumerate(self.layer)` (nvidia_modeling_no_apex.py:566-570): the hidden states and the list
`all_encoder_layers`. -/
def plainLoop (all : Bool) (mask : M) : List (S → M → S) → S → List S → S × List S
  | [], x, out => (x, out)
  | layer :: layers, x, out => plainLoop all mask layers (layer x mask) (if all then out ++ [layer x mask] else out)

/-- `BertEncoder.forward` (nvidia_modeling_no_apex.py:538-574), also nvidia_modeling.py:547-583.  `none`: does not end. -/
def forward (layers : List (S → M → S)) (x : S) (mask : M) (all checkpoint : Bool) : Option (List S) :=
  if checkpoint then
    (chunkLoop layers mask (ceilSqrt layers.length) layers.length 0 x).map fun r => [] ++ [r.1]
  else
    let r := plainLoop all mask layers x []
    some (if !all then r.2 ++ [r.1] else r.2)

/-- The end of `BertModel.forward` (nvidia_modeling_no_apex.py:925-934): the encoded layers, a list of one for the tensor
`encoded_layers[-1]`, and the pooled output.  `none`: does not end, or `encoded_layers` is empty. -/
def bertModel {P : Type} (pooler : S → P) (layers : List (S → M → S)) (x : S) (mask : M) (all checkpoint : Bool) :
    Option (List S × P) :=
  (forward layers x mask all checkpoint).bind fun encoded =>
    encoded.getLast?.map fun sequence => (if !all then [sequence] else encoded, pooler sequence)

end DeepGNN.EncoderChunks
