/-
Alias tables (src/python/deepgnn/graph_engine/snark/alias.py).

Weights are exact numbers, integer multiples of a common unit.  The scaled weight
`w_i * len(weights) / sum(weights)` is kept as `w_i * len(weights)`, so that `1` becomes `sum(weights)`:
all numbers of the table are multiples of `1 / sum(weights)`.  Rounding of the scaled weights, and of
`prob` to single precision, is not modelled.
-/

namespace DeepGNN

/-- The arrays of `Vose` (alias.py:22-24). `none`: not written yet (`np.empty`). -/
structure VoseTable where
  w : List Int
  alias : List (Option Nat)
  prob : List (Option Int)
deriving DecidableEq, Repr

/-- The loop of `_generate_table` (alias.py:36-49). `one` stands for 1; the last element of a stack is
the head of the list. `none`: index out of range. -/
def voseLoop (one : Int) : (small large : List Nat) → VoseTable → Option (List Nat × List Nat × VoseTable)
  | s :: small, l :: large, t =>
    t.w[s]?.bind fun ws => t.w[l]?.bind fun wl =>
      if s < t.alias.length ∧ s < t.prob.length then
        let t' : VoseTable :=
          { w := t.w.set l ((wl + ws) - one), alias := t.alias.set s (some l), prob := t.prob.set s (some ws) }
        if (wl + ws) - one < one then voseLoop one (l :: small) large t'
        else voseLoop one small (l :: large) t'
      else none
  | small, large, t => some (small, large, t)
termination_by small large => small.length + large.length

/-- `while stack: self.prob[stack.pop()] = 1` (alias.py:51-55). -/
def voseRest (one : Int) (t : VoseTable) (stack : List Nat) : VoseTable :=
  { t with prob := stack.foldl (fun p i => p.set i (some one)) t.prob }

/-- `Vose.__init__` (alias.py:14-55). `none`: an index is out of range, or there are weights and
their sum is not positive (the scaled weights are then not numbers or have the wrong sign; if all are zero the
code sets all probabilities to 1, not modelled). -/
def vose (weights : List Int) : Option VoseTable :=
  if 0 < weights.sum ∨ weights = [] then
    let one := weights.sum
    let w := weights.map (· * (weights.length : Int))
    let small := (List.range w.length).filter fun i => decide (w.getD i 0 < one)
    let large := (List.range w.length).filter fun i => !decide (w.getD i 0 < one)
    let t : VoseTable := { w := w, alias := List.replicate w.length none, prob := List.replicate w.length none }
    (voseLoop one small.reverse large.reverse t).map fun (small, large, t) =>
      voseRest one (voseRest one t large) small
  else none

end DeepGNN
