/-
The focal loss (src/python/deepgnn/pytorch/encoding/twinbert/deepspeed/loss.py:7-60).  Simplification: exact integer arithmetic
in place of floats; the factor of `torch.pow(1 - p, gamma)` and the logarithm are parameters.
-/

namespace DeepGNN.Focal

/-- The class weights: a column (`torch.ones(class_num, 1)` or a tensor of that shape), or a tensor of one dimension, as the
documentation says (loss.py:16, 25-31). -/
inductive Alpha where
  | column (w : List Int)
  | flat (w : List Int)
deriving Repr

/-- The number of weights and their values. -/
def Alpha.weights : Alpha → List Int
  | .column w => w
  | .flat w => w

/-- `alpha=None` (loss.py:25-26). -/
def defaultAlpha (classNum : Nat) : Alpha := .column (List.replicate classNum 1)

/-- A row of `class_mask.scatter_(1, ids.data, 1.)` (loss.py:41-44). -/
def maskRow (c t : Nat) : List Int := (List.replicate c 0).set t 1

/-- A row of `(P * class_mask).sum(1)` (loss.py:50). -/
def prob (row : List Int) (t : Nat) : Int := (List.zipWith (· * ·) row (maskRow row.length t)).foldl (· + ·) 0

/-- `batch_loss` (loss.py:48-54), its entries in order: a column times a column has one entry for each example; a tensor of one
dimension times a column is broadcast to a square. -/
def batchLoss (alpha : Alpha) (pow log : Int → Int) (ps : List Int) (ts : List Nat) : List Int :=
  match alpha with
  | .column w => List.zipWith (fun p t => -(w.getD t 0) * pow p * log p) ps ts
  | .flat w => ps.flatMap fun p => ts.map fun t => -(w.getD t 0) * pow p * log p

/-- `FocalLoss.forward` (loss.py:36-60) for the rows of the softmax: the sum of the entries and, for `size_average`, their number.
`none`: an index is out of range, or the numbers of rows and targets differ. -/
def forward (alpha : Alpha) (pow log : Int → Int) (rows : List (List Int)) (targets : List Nat) : Option (Int × Nat) :=
  if rows.length ≠ targets.length then none
  else if (rows.zip targets).any (fun e => e.1.length ≤ e.2) || targets.any (fun t => alpha.weights.length ≤ t) then none
  else
    let l := batchLoss alpha pow log (List.zipWith prob rows targets) targets
    some (l.foldl (· + ·) 0, l.length)

end DeepGNN.Focal
