import Verif.Spec.DataParallel
import Verif.Model.HorovodTf

/-!
What one process computes alone: it takes one batch after the other.
-/

namespace DeepGNN.Spec

open DeepGNN.DataParallel (Learner)

variable {P O D G : Type}

/-- Parameters and optimizer state of one process after some batches. -/
def trainAlone (L : Learner P O D G) (s : P × O) (batches : List D) : P × O :=
  batches.foldl (fun s d => L.update s.1 s.2 (L.grad s.1 d)) s

end DeepGNN.Spec
