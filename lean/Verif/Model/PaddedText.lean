/-
The encoding of a text with a mask: self-attention (nvidia_modeling_no_apex.py:404-433 with the mask of 913-922), and the
weighted mean of the words (pooler.py:16-22), in src/python/deepgnn/pytorch/encoding/twinbert/.
Simplifications: scores, weights and values are integers (multiples of a small unit), one coordinate of the vectors at a time;
dropout is off.
-/

namespace DeepGNN.Padded

variable {T : Type}

/-- The largest number of a list. -/
def maxL : List Int → Int
  | [] => 0
  | x :: xs => xs.foldl max x

/-- The sum of a list. -/
def sumL (l : List Int) : Int := l.foldr (· + ·) 0

/-- `softmax(scores)` times the values, summed: numerator and denominator.  As in PyTorch, the largest score is subtracted
before the exponential `e` is taken. -/
def softmaxSum (e : Int → Int) (l : List (Int × Int)) : Int × Int :=
  (sumL (l.map fun p => e (p.1 - maxL (l.map (·.1))) * p.2), sumL (l.map fun p => e (p.1 - maxL (l.map (·.1)))))

/-- A head of an attention layer, for one coordinate of the value: the score of a query and a key, and the value. -/
structure Head (T : Type) where
  score : T → T → Int
  value : T → Int

/-- A layer (nvidia_modeling_no_apex.py:404-500): the heads, and all that follows at the same position (dense layers, residual
connections, normalisations). -/
structure Layer (T : Type) where
  heads : List (Head T)
  post : T → List (Int × Int) → T

/-- `(1.0 - attention_mask) * -10000.0` for `k` = 10000 (nvidia_modeling_no_apex.py:922), and `(mask - 1) / weight_factor` for
`k` = 1 / weight_factor (pooler.py:18-20). -/
def masked (k : Int) (m : Bool) : Int := if m then 0 else -k

/-- One head at one position (nvidia_modeling_no_apex.py:413-428). -/
def attend (e : Int → Int) (k : Int) (x : T) (toks : List (T × Bool)) (h : Head T) : Int × Int :=
  softmaxSum e (toks.map fun t => (h.score x t.1 + masked k t.2, h.value t.1))

/-- One layer at all positions. -/
def layerStep (e : Int → Int) (k : Int) (toks : List (T × Bool)) (l : Layer T) : List (T × Bool) :=
  toks.map fun t => (l.post t.1 (l.heads.map (attend e k t.1 toks)), t.2)

/-- `WeightPooler.forward` (pooler.py:16-22), the coordinates given by `values`. -/
def pool (e : Int → Int) (k : Int) (weight : T → Int) (values : List (T → Int)) (toks : List (T × Bool)) : List (Int × Int) :=
  values.map fun v => softmaxSum e (toks.map fun t => (weight t.1 + masked k t.2, v t.1))

/-- `TwinBERTEncoder.forward` (encoder.py:83-105) from the embeddings to the pooled vector. -/
def encode (e : Int → Int) (k kp : Int) (layers : List (Layer T)) (weight : T → Int) (values : List (T → Int))
    (toks : List (T × Bool)) : List (Int × Int) :=
  pool e kp weight values (layers.foldl (layerStep e k) toks)

end DeepGNN.Padded
