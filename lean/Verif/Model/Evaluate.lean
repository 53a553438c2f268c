import Verif.Model.Metrics

/-
Evaluation of supervised models of PyTorch: src/python/deepgnn/pytorch/modeling/base_model.py, the evaluation of
src/python/deepgnn/pytorch/training/trainer.py, trainer_ddp.py and trainer_hvd.py and the metrics of
src/python/deepgnn/pytorch/common/metrics.py.

A batch is a list of nodes, each with the scores the model gives it and its row of labels.  Numbers are rational, `none` is an
exception.  `f1_score` and `accuracy_score` of scikit-learn are modelled by their definitions.  Which batches are looked at before
the evaluation stops is property C56.
-/

namespace DeepGNN.Evaluate

/-- A node of a batch: scores and labels, by class. -/
structure Node where
  scores : List Rat
  labels : List Rat
deriving DecidableEq, Repr

/-- `argmax` of a row: the first of the greatest numbers. -/
def argmax (row : List Rat) : Option Nat := row.findIdx? fun x => row.all fun y => decide (y ≤ x)

/-- `CrossEntropyLoss` (base_model.py:49): the mean of the losses `nll` of the rows; a class out of range fails. -/
def crossEntropy (nll : List Rat → Nat → Rat) (scores : List (List Rat)) (labels : List Nat) : Option Rat :=
  if scores.length = labels.length ∧ (scores.zip labels).all (fun p => p.2 < p.1.length) then
    some (Metrics.mean (List.zipWith nll scores labels))
  else none

/-- `_loss_inner` (base_model.py:152-180).  The labels have the shape `[1, n, c]`, where the first dimension is added by the loader;
`squeeze` drops all dimensions of size 1, and `argmax(1)` fails without a second dimension. -/
def lossInner (nll : List Rat → Nat → Rat) (b : List Node) : Option (Rat × List Nat × List Nat) :=
  let c := ((b.map (·.labels)).headD []).length
  if b.length = 1 ∨ c = 1 then none
  else (b.mapM fun n => argmax n.labels).bind fun labels =>
    (crossEntropy nll (b.map (·.scores)) labels).bind fun loss =>
      (b.mapM fun n => argmax n.scores).map fun preds => (loss, preds, labels)

/-- `BaseMetric` (metrics.py). -/
inductive Metric where
  | accuracy
  | f1
deriving DecidableEq, Repr

/-- `accuracy_score`. -/
def accuracyScore (preds labels : List Nat) : Rat := ((preds.zip labels).countP fun p => p.1 == p.2 : Nat) / (labels.length : Rat)

/-- `f1_score(average="micro")`: from the numbers of true positives, false positives and false negatives of all classes. -/
def f1Score (preds labels : List Nat) : Rat :=
  let pairs := preds.zip labels
  let classes := (preds ++ labels).eraseDups
  let tp := (classes.map fun c => pairs.countP fun p => p.1 == c && p.2 == c).sum
  let fp := (classes.map fun c => pairs.countP fun p => p.1 == c && p.2 != c).sum
  let fn := (classes.map fun c => pairs.countP fun p => p.1 != c && p.2 == c).sum
  ((2 * tp : Nat) : Rat) / ((2 * tp + fp + fn : Nat) : Rat)

/-- `Accuracy.compute` and `F1Score.compute` (metrics.py:22-39). -/
def Metric.compute : Metric → List Nat → List Nat → Rat
  | .accuracy => accuracyScore
  | .f1 => f1Score

/-- `compute_metric` (base_model.py:91-97): `torch.cat` fails without tensors. -/
def computeMetric (m : Metric) (preds labels : List (List Nat)) : Option Rat :=
  if preds.isEmpty then none else some (m.compute preds.flatten labels.flatten)

/-- `np.mean(l) if len(l) > 0 else 0` (trainer.py:321-333). -/
def meanOrZero (l : List Rat) : Rat := if l.length > 0 then Metrics.mean l else 0

/-- `_evaluate` (trainer.py:289-333) of one worker: metric and loss. -/
def evaluate (nll : List Rat → Nat → Rat) (m : Metric) (perStep : Bool) (batches : List (List Node)) : Option (Rat × Rat) :=
  (batches.mapM (lossInner nll)).bind fun outs =>
    (if perStep then (outs.mapM fun o => computeMetric m [o.2.1] [o.2.2]).map meanOrZero
     else computeMetric m (outs.map (·.2.1)) (outs.map (·.2.2))).map fun metric =>
      (metric, meanOrZero (outs.map (·.1)))

/-- `_evaluate` of all workers (trainer_ddp.py:31-40, 93-97, trainer_hvd.py:22-31): the means of their results; when a worker fails
there is no result. -/
def evaluateAll (nll : List Rat → Nat → Rat) (m : Metric) (perStep : Bool) (workers : List (List (List Node))) : Option (Rat × Rat) :=
  (workers.mapM (evaluate nll m perStep)).map fun rs =>
    ((rs.map (·.1)).sum / (workers.length : Rat), (rs.map (·.2)).sum / (workers.length : Rat))

end DeepGNN.Evaluate
