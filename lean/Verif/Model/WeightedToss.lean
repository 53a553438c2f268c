import Verif.Model.Toss
import Verif.Model.Temporal

/-
The choice of one neighbour by weight in single precision (src/cc/lib/graph/partition.cc:1110, 1320, 1330-1335).  `Model/Weighted.lean` has
the loops around it, with an exact product.
-/

namespace DeepGNN.Toss

/-- `type_weight * real(gen)` is rounded to `float`, then `std::lower_bound` on the running sums of the type (partition.cc:1330-1335); `t` is
the draw, a multiple of 1 / 2^64. -/
def weightedAt (sums : List Int) (t : Nat) : Option Nat :=
  sums.getLast?.map fun total => bsearch (fun c => decide (c * 2 ^ 64 < f32 (total * t))) sums 0 sums.length

/-- Position of the neighbour for one number of the generator; `none` if the number is dropped. -/
def weighted (sums : List Int) (x : Nat) : Option Nat := (toss x).bind (weightedAt sums)

end DeepGNN.Toss
