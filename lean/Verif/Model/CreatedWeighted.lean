import Verif.Model.WeightedTime
import Verif.Model.Created

/-
Edge creation times returned beside weighted samples (`return_edge_created_ts`;
src/cc/lib/graph/partition.cc:1102-1348, graph.cc:428-477).
The output arrays, with that of the times, are one list.  The watermark of the metadata is not negative
(`fill_edge_ts_by_partition`, graph.cc:435); otherwise all times are placeholders (graph.cc:473-476).
-/

namespace DeepGNN

/-- A run of timestamps of an edge type and the creation times from the beginning of the run to the end of the type. -/
structure TRun where
  run : WRun
  times : List Int

/-- Reads for a run, see `Partition.weightRun`. -/
def Partition.timedRun (p : Partition) (g : Group) (x : Nat × Nat × Nat) : Option TRun :=
  (p.weightRun g x).bind fun r => (p.groupTimes g).map fun ts => ⟨r, (ts.map (·.1)).drop x.1⟩

/-- The runs of a type, see `Partition.weightRuns`. -/
def Partition.timedRuns (p : Partition) (ts : Int) (g : Group) : Option (List TRun) :=
  (p.groupTimes g).bind fun r => (aliveRuns ts 0 r).mapM (p.timedRun g)

/-- The neighbour chosen by the draw `u`, with its creation time (partition.cc:1277-1305). -/
def TRun.pick (x : TRun) (u : Nat × Nat) : Option (Nbr × Int) :=
  let nbOffset := bsearch (fun c => decide ((c - x.run.base.getD 0) * u.2 < x.run.weight * u.1)) x.run.cums 0 x.run.cums.length
  (x.run.nbrs[nbOffset]?).bind fun y => (x.times[nbOffset]?).map fun t => (y, t)

/-- The loop over the samples taken from a run, see `runTake`. -/
def timedTake (D : WDraws) (x : TRun) (rate : Int × Int) : Nat → Nat → Option (List (Nbr × Int) × Nat)
  | 0, r => some ([], r)
  | n + 1, r =>
    if rate.1 < rate.2 ∧ ((D.real r).1 : Int) * rate.2 > (D.real r).2 * rate.1 then
      timedTake D x rate n (r + 1)
    else
      let r := if rate.1 < rate.2 then r + 1 else r
      (x.pick (D.real r)).bind fun y =>
        (timedTake D x rate n (r + 1)).map fun z => (y :: z.1, z.2)

/-- The loop over the runs of a type, see `weightedRuns`. -/
def timedRunsLoop (D : WDraws) (rate : Int × Int) : List TRun → WPos → Option (List (Nbr × Int) × WPos)
  | [], s => some ([], s)
  | x :: xs, s =>
    let k := if x.run.weight = s.total then s.left else D.binomial s.c s.left x.run.weight s.total
    (timedTake D x rate k s.r).bind fun z =>
      (timedRunsLoop D rate xs
        ⟨f32 (s.total - x.run.weight), s.left - k, if x.run.cums = [] then s.c else s.c + s.left, z.2⟩).map
        fun zs => (z.1 ++ zs.1, zs.2)

/-- The loop over the types, see `weightedTypes`. -/
def timedTypes (D : WDraws) (rate : Int × Int) : List (List TRun) → WPos → Option (List (Nbr × Int))
  | [], _ => some []
  | xs :: xss, s =>
    if s.total = 0 ∨ s.left = 0 then some []
    else (timedRunsLoop D rate xs s).bind fun z => (timedTypes D rate xss z.2).map fun zs => z.1 ++ zs

/-- `Partition::SampleNeighbor` at a timestamp with creation times, see `Partition.weightedSampleAt`; the default has the placeholder
(partition.cc:1122-1125, 1203-1206). -/
def Partition.weightedCreated (p : Partition) (D : WDraws) (id : Nat) (ts : Int) (types : List Int) (count : Nat)
    (default : Nbr) (out : List (Nbr × Int)) (acc : Int) : Option (List (Nbr × Int) × Int) :=
  (p.groups id).bind fun gs =>
  ((walk Group.typ gs types).mapM (p.timedRuns ts)).bind fun xss =>
    let total := (xss.flatten.map (·.run)).foldl WRun.addTo 0
    let acc := f32 (acc + total)
    if total = 0 then some (if acc = 0 then List.replicate count (default, noTime) else out, acc)
    else (timedTypes D (total, acc) xss ⟨total, count, 0, 0⟩).map fun ys => (ys ++ out.drop ys.length, acc)

/-- The loop over the partitions of a node (graph.cc:457-468). -/
def createdEntries (D : Nat → WDraws) (ts : Int) (types : List Int) (count : Nat) (default : Nbr) :
    List (Partition × Nat) → List (Nbr × Int) → Int → Nat → Option (List (Nbr × Int) × Nat)
  | [], out, _, s => some (out, s)
  | e :: es, out, acc, s => (e.1.weightedCreated (D s) e.2 ts types count default out acc).bind fun z =>
      createdEntries D ts types count default es z.1 z.2 (s + 1)

/-- One iteration of `Graph::SampleNeighbor` (graph.cc:443-469). -/
def Graph.weightedCreated1 (g : Graph) (D : Nat → WDraws) (types : List Int) (count : Nat) (default : Nbr)
    (node : Int × Int) (out : List (Nbr × Int)) (s : Nat) : Option (List (Nbr × Int) × Nat) :=
  match g.nodeMap node.1 with
  | none => some (List.replicate count (default, noTime), s)
  | some _ => (g.entries node.1).bind fun es => createdEntries D node.2 (sortUnique types) count default es out 0 s

/-- `Graph::SampleNeighbor` with timestamps and creation times in a temporal graph (graph.cc:428-477). -/
def Graph.weightedCreated (g : Graph) (D : Nat → WDraws) (types : List Int) (count : Nat) (default : Nbr)
    (reqs : List ((Int × Int) × List (Nbr × Int))) (s : Nat) : Option (List (List (Nbr × Int)) × Nat) :=
  sampleNodes (fun n out s => g.weightedCreated1 D types count default n out s) reqs s

/-- What a call with creation times but without timestamps leaves in the array of times of a node of a temporal graph
(partition.cc:1114-1128, 1196-1210, 1320-1346; graph.cc:446-456): `totals` are the total weights of its partitions, `none` for an
unknown node.  The partitions write placeholders when there is no weight so far, and nothing when they sample. -/
def untimedWeighted (totals : Option (List Int)) (old : List Int) : List Int :=
  match totals with
  | none => List.replicate old.length noTime
  | some l => (l.foldl (fun (st : List Int × Int) total =>
      let acc := f32 (st.2 + total)
      if total = 0 ∧ acc = 0 then (List.replicate old.length noTime, acc) else (st.1, acc)) (old, 0)).1

end DeepGNN
