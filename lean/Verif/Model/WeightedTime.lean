import Verif.Model.Weighted

/-
Weighted neighbour sampling at a timestamp (src/cc/lib/graph/partition.cc:1102-1348, graph.cc:428-477).
The optional output of edge creation times: see `Model/CreatedWeighted.lean`.  Simplifications are those of `Model/Weighted.lean`.
-/

namespace DeepGNN

/-- What is read for one run of timestamps of an edge type: `m_edge_weights[end_dist - 1]` (of position 0 if `end_dist` is
0, partition.cc:1169-1178, 1257-1265), the sum before the run unless it begins with the type, the sums of the run, and the
neighbours from the beginning of the run to the end of the type. -/
structure WRun where
  endSum : Int
  base : Option Int
  cums : List Int
  nbrs : List Nbr

/-- Reads for a run `(position in the type, _, length)` of the type `g`. -/
def Partition.weightRun (p : Partition) (g : Group) (x : Nat × Nat × Nat) : Option WRun :=
  (p.edgeWeights[g.start + x.1 + x.2.2 - 1]?).bind fun e =>
  (if x.1 = 0 then some none else (p.edgeWeights[g.start + x.1 - 1]?).map some).bind fun b =>
  ((List.range' (g.start + x.1) x.2.2).mapM fun j => p.edgeWeights[j]?).bind fun cums =>
  (p.groupNbrs g).map fun nbrs => { endSum := e, base := b, cums := cums, nbrs := nbrs.drop x.1 }

/-- The runs of a type (partition.cc:1159-1192, 1245-1318); both loops visit the same ones. -/
def Partition.weightRuns (p : Partition) (ts : Int) (g : Group) : Option (List WRun) :=
  (p.groupTimes g).bind fun r => (aliveRuns ts 0 r).mapM (p.weightRun g)

/-- The change of `total_weight` in the first loop (partition.cc:1169-1180). -/
def WRun.addTo (total : Int) (x : WRun) : Int :=
  match x.base with
  | none => f32 (total + x.endSum)
  | some b => f32 (f32 (total + x.endSum) - b)

/-- `type_weight` (partition.cc:1257-1265). -/
def WRun.weight (x : WRun) : Int :=
  match x.base with
  | none => x.endSum
  | some b => f32 (x.endSum - b)

/-- The neighbour chosen by the draw `u` (partition.cc:1277-1301): the search is over the sums of the run. -/
def WRun.pick (x : WRun) (u : Nat × Nat) : Option Nbr :=
  x.nbrs[bsearch (fun c => decide ((c - x.base.getD 0) * u.2 < x.weight * u.1)) x.cums 0 x.cums.length]?

/-- The loop over the samples taken from a run (partition.cc:1270-1307), see `weightedTake`. -/
def runTake (D : WDraws) (x : WRun) (rate : Int × Int) : Nat → Nat → Option (List Nbr × Nat)
  | 0, r => some ([], r)
  | n + 1, r =>
    if rate.1 < rate.2 ∧ ((D.real r).1 : Int) * rate.2 > (D.real r).2 * rate.1 then
      runTake D x rate n (r + 1)
    else
      let r := if rate.1 < rate.2 then r + 1 else r
      (x.pick (D.real r)).bind fun y =>
        (runTake D x rate n (r + 1)).map fun z => (y :: z.1, z.2)

/-- `total_weight`, `left_over_neighbors` and the next draws. -/
structure WPos where
  total : Int
  left : Nat
  c : Nat
  r : Nat

/-- The loop over the runs of a type (partition.cc:1247-1318).  No coins are counted for an empty run, which has weight 0. -/
def weightedRuns (D : WDraws) (rate : Int × Int) : List WRun → WPos → Option (List Nbr × WPos)
  | [], s => some ([], s)
  | x :: xs, s =>
    let k := if x.weight = s.total then s.left else D.binomial s.c s.left x.weight s.total
    (runTake D x rate k s.r).bind fun z =>
      (weightedRuns D rate xs ⟨f32 (s.total - x.weight), s.left - k, if x.cums = [] then s.c else s.c + s.left, z.2⟩).map
        fun zs => (z.1 ++ zs.1, zs.2)

/-- The loop over the types (partition.cc:1213-1347). -/
def weightedTypes (D : WDraws) (rate : Int × Int) : List (List WRun) → WPos → Option (List Nbr)
  | [], _ => some []
  | xs :: xss, s =>
    if s.total = 0 ∨ s.left = 0 then some []
    else (weightedRuns D rate xs s).bind fun z => (weightedTypes D rate xss z.2).map fun zs => z.1 ++ zs

/-- `Partition::SampleNeighbor` at a timestamp. -/
def Partition.weightedSampleAt (p : Partition) (D : WDraws) (id : Nat) (ts : Int) (types : List Int) (count : Nat)
    (default : Nbr) (out : List Nbr) (acc : Int) : Option (List Nbr × Int) :=
  (p.groups id).bind fun gs =>
  ((walk Group.typ gs types).mapM (p.weightRuns ts)).bind fun xss =>
    let total := xss.flatten.foldl WRun.addTo 0
    let acc := f32 (acc + total)
    if total = 0 then some (if acc = 0 then List.replicate count default else out, acc)
    else (weightedTypes D (total, acc) xss ⟨total, count, 0, 0⟩).map fun ys => (ys ++ out.drop ys.length, acc)

/-- The loop over the partitions of a node (graph.cc:457-468). -/
def weightedEntriesAt (D : Nat → WDraws) (ts : Int) (types : List Int) (count : Nat) (default : Nbr) :
    List (Partition × Nat) → List Nbr → Int → Nat → Option (List Nbr × Nat)
  | [], out, _, s => some (out, s)
  | e :: es, out, acc, s => (e.1.weightedSampleAt (D s) e.2 ts types count default out acc).bind fun z =>
      weightedEntriesAt D ts types count default es z.1 z.2 (s + 1)

/-- One iteration of `Graph::SampleNeighbor` with timestamps (graph.cc:443-469). -/
def Graph.weightedSampleAt1 (g : Graph) (D : Nat → WDraws) (types : List Int) (count : Nat) (default : Nbr)
    (node : Int × Int) (out : List Nbr) (s : Nat) : Option (List Nbr × Nat) :=
  match g.nodeMap node.1 with
  | none => some (List.replicate count default, s)
  | some _ => (g.entries node.1).bind fun es => weightedEntriesAt D node.2 (sortUnique types) count default es out 0 s

/-- `Graph::SampleNeighbor` with timestamps (graph.cc:428-477): nodes with their timestamp. -/
def Graph.weightedSampleAt (g : Graph) (D : Nat → WDraws) (types : List Int) (count : Nat) (default : Nbr)
    (reqs : List ((Int × Int) × List Nbr)) (s : Nat) : Option (List (List Nbr) × Nat) :=
  sampleNodes (fun n out s => g.weightedSampleAt1 D types count default n out s) reqs s

end DeepGNN
