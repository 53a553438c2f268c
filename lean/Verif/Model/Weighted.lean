import Verif.Model.Sampling

/-
Weighted neighbour sampling without timestamps (src/cc/lib/graph/partition.cc:1102-1348, graph.cc:428-477).
Timestamps (1154-1187, 1244-1319): see `Model/WeightedTime.lean`.  Creation times: see `Model/CreatedWeighted.lean`.
The three output arrays, always written together, are one list of neighbours.
The product of a type's weight and a random draw (1330) is exact here, as is the comparison with the
stored sums; sums and differences of weights are rounded to single precision.
-/

namespace DeepGNN

/-- The random draws of one call of `Partition::SampleNeighbor`: each call has its own generator
(partition.cc:1109; the seed is increased with every call, graph.cc:460).  `coin` are the draws of
the binomial distributions, `real` those of `uniform_real_distribution`: numerator and denominator of a
number in `[0, 1)`. -/
structure WDraws where
  coin : Nat → Nat
  real : Nat → Nat × Nat

/-- `binomial_distribution(n, a / b)`: the number of successes in `n` trials, trial `i` succeeding when
its draw, taken modulo `b`, is below `a`. -/
def WDraws.binomial (D : WDraws) (c n : Nat) (a b : Int) : Nat :=
  ((List.range n).filter fun i => decide ((D.coin (c + i) : Int) % b < a)).length

/-- What is read for one edge type of a node: the running sums of the weights
(`m_edge_weights`) and the neighbours with their weights. -/
structure WGroup where
  cums : List Int
  nbrs : List Nbr

/-- Reads eagerly; the weight of a neighbour is the difference of two sums (partition.cc:1337-1339). -/
def Partition.weightGroup (p : Partition) (g : Group) : Option WGroup :=
  ((List.range' g.start (g.last - g.start)).mapM fun j => p.edgeWeights[j]?).bind fun cums =>
    (p.groupNbrs g).map fun nbrs => { cums := cums, nbrs := nbrs }

/-- The neighbour chosen by the draw `u` (partition.cc:1330-1339). -/
def weightedPick (x : WGroup) (u : Nat × Nat) : Option Nbr :=
  x.cums.getLast?.bind fun tw =>
    x.nbrs[bsearch (fun c => decide (c * u.2 < tw * u.1)) x.cums 0 x.cums.length]?

/-- The loop over the samples taken from one type (partition.cc:1323-1341): `rate` is `overwrite_rate`
as a fraction, `r` the next real draw. -/
def weightedTake (D : WDraws) (x : WGroup) (rate : Int × Int) : Nat → Nat → Option (List Nbr × Nat)
  | 0, r => some ([], r)
  | n + 1, r =>
    if rate.1 < rate.2 ∧ ((D.real r).1 : Int) * rate.2 > (D.real r).2 * rate.1 then
      weightedTake D x rate n (r + 1)
    else
      let r := if rate.1 < rate.2 then r + 1 else r
      (weightedPick x (D.real r)).bind fun y =>
        (weightedTake D x rate n (r + 1)).map fun z => (y :: z.1, z.2)

/-- The loop over the types (partition.cc:1213-1347): `total` is `total_weight`, `left`
`left_over_neighbors`; `c` and `r` are the next draws. The neighbours are written one after another. -/
def weightedGroups (D : WDraws) (rate : Int × Int) : List WGroup → Int → Nat → Nat → Nat → Option (List Nbr)
  | [], _, _, _, _ => some []
  | x :: xs, total, left, c, r =>
    if total = 0 ∨ left = 0 then some []
    else
      x.cums.getLast?.bind fun tw =>
        let k := if tw = total then left else D.binomial c left tw total
        (weightedTake D x rate k r).bind fun z =>
          (weightedGroups D rate xs (f32 (total - tw)) (left - k) (c + left) z.2).map fun zs => z.1 ++ zs

/-- `Partition::SampleNeighbor` without a timestamp: `out` is the output of this node, `acc` its
`out_partition`.  A node without edges (1113-1130) has total weight 0 and is treated in the same way. -/
def Partition.weightedSample (p : Partition) (D : WDraws) (id : Nat) (types : List Int) (count : Nat)
    (default : Nbr) (out : List Nbr) (acc : Int) : Option (List Nbr × Int) :=
  (p.groups id).bind fun gs =>
  ((walk Group.typ gs types).mapM p.weightGroup).bind fun xs =>
  (xs.mapM fun x : WGroup => x.cums.getLast?).bind fun tws =>
    let total := fsum 0 tws
    let acc := f32 (acc + total)
    if total = 0 then some (if acc = 0 then List.replicate count default else out, acc)
    else (weightedGroups D (total, acc) xs total count 0 0).map fun ys => (ys ++ out.drop ys.length, acc)

/-- The loop over the partitions of a node (graph.cc:457-468): `s` is the number of calls made so far. -/
def weightedEntries (D : Nat → WDraws) (types : List Int) (count : Nat) (default : Nbr) :
    List (Partition × Nat) → List Nbr → Int → Nat → Option (List Nbr × Nat)
  | [], out, _, s => some (out, s)
  | e :: es, out, acc, s => (e.1.weightedSample (D s) e.2 types count default out acc).bind fun z =>
      weightedEntries D types count default es z.1 z.2 (s + 1)

/-- One iteration of `Graph::SampleNeighbor` (graph.cc:443-469); `neighbors_total_weights` is 0 before. -/
def Graph.weightedSample1 (g : Graph) (D : Nat → WDraws) (types : List Int) (count : Nat) (default : Nbr)
    (node : Int) (out : List Nbr) (s : Nat) : Option (List Nbr × Nat) :=
  match g.nodeMap node with
  | none => some (List.replicate count default, s)
  | some _ => (g.entries node).bind fun es => weightedEntries D (sortUnique types) count default es out 0 s

/-- `Graph::SampleNeighbor` (graph.cc:428-477). -/
def Graph.weightedSample (g : Graph) (D : Nat → WDraws) (types : List Int) (count : Nat) (default : Nbr)
    (reqs : List (Int × List Nbr)) (s : Nat) : Option (List (List Nbr) × Nat) :=
  sampleNodes (fun n out s => g.weightedSample1 D types count default n out s) reqs s

end DeepGNN
