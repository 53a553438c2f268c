/-
MRR metric (src/python/deepgnn/pytorch/common/metrics.py).  Scores are only compared, so they are integers here; the
arithmetic on ranks and reciprocals is exact (`Rat`): rounding is not modelled.  Tensors of two or three dimensions are
modelled as a list of matrices; a two dimensional tensor is a list of one matrix.  `torch.topk` leaves the order of equal
scores open: it is an arbitrary function satisfying `TopK`.
-/

namespace DeepGNN.Metrics

/-- Contract of `torch.topk(row, k=size)[1]`: all positions, by descending value. -/
def TopK (topk : List Int → List Nat) : Prop :=
  ∀ row, (topk row).Perm (List.range row.length) ∧ (topk row).Pairwise fun i j => row.getD j 0 ≤ row.getD i 0

/-- The two calls of `topk` (metrics.py:65-66) on one row. -/
def ranks (topk : List Int → List Nat) (row : List Int) : List Nat :=
  topk ((topk row).map fun (i : Nat) => -(i : Int))

/-- One entry of `torch.matmul` (metrics.py:69). -/
def dot (a : List Nat) (b : List Int) : Int := (List.zipWith (fun (x : Nat) (y : Int) => (x : Int) * y) a b).sum

/-- `torch.matmul(ranks, torch.transpose(labels, -2, -1))` on one matrix (metrics.py:69): an entry for every row of ranks
and every row of labels. -/
def matmulT (r : List (List Nat)) (l : List (List Int)) : List (List Int) :=
  r.map fun a => l.map fun b => dot a b

/-- `torch.mean`. -/
def mean (l : List Rat) : Rat := l.sum / l.length

/-- `MRR.compute` (metrics.py:57-71). -/
def mrr (topk : List Int → List Nat) (ascending : Bool) (batch : List (List (List Int) × List (List Int))) : Rat :=
  mean (batch.flatMap fun m =>
    let scores := if ascending then m.1.map fun row => row.map fun x => -1 * x else m.1
    (matmulT (scores.map (ranks topk)) m.2).flatten.map fun (x : Int) => 1 / ((x : Rat) + 1))

end DeepGNN.Metrics
