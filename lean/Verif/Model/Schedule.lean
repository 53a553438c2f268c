/-
Learning rate schedules (src/python/deepgnn/pytorch/common/optimization.py): the factor `lr_lambda(step)`.
Numbers are rational: rounding of floats is not modelled.  The number of warmup steps may be a fraction (the trainer
multiplies the number of training steps by a ratio, src/python/deepgnn/pytorch/training/trainer.py:426-433).  The cosine
schedules are not modelled; the power of the polynomial schedule is a natural number.
-/

namespace DeepGNN.Schedule

/-- python `max`. -/
def pyMax (a b : Rat) : Rat := if a < b then b else a

/-- `get_constant_schedule_with_warmup` (optimization.py:59-62). -/
def constant (warmup : Rat) (step : Nat) : Rat :=
  if (step : Rat) < warmup then step / pyMax 1 warmup else 1

/-- `get_linear_schedule_with_warmup` (optimization.py:90-97). -/
def linear (warmup : Rat) (training : Nat) (step : Nat) : Rat :=
  if (step : Rat) < warmup then step / pyMax 1 warmup
  else pyMax 0 ((training - step) / pyMax 1 (training - warmup))

/-- `get_polynomial_decay_schedule_with_warmup` (optimization.py:219-234); `none` is a division by zero. -/
def polynomial (lrInit lrEnd : Rat) (power : Nat) (warmup : Rat) (training : Nat) (step : Nat) : Option Rat :=
  if (step : Rat) < warmup then some (step / pyMax 1 warmup)
  else if step > training then some (lrEnd / lrInit)
  else if (training : Rat) - warmup = 0 then none
  else
    let remaining := 1 - (step - warmup) / (training - warmup)
    some (((lrInit - lrEnd) * remaining ^ power + lrEnd) / lrInit)

end DeepGNN.Schedule
