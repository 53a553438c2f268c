import Verif.Model.Temporal
import Verif.Model.Reservoir

/-
Uniform neighbour sampling (src/cc/lib/graph/partition.cc:1350-1554, graph.cc:479-550).
The optional output of edge creation times (`return_edge_created_ts`) is in `Model/Created.lean`.
The two output arrays `out_nodes` and `out_types`, always written together, are one list of pairs.
-/

namespace DeepGNN

/-- `advance_edge_types` (partition.cc:1374-1397): the remaining groups and requested types are lists. -/
def advanceEdgeTypes (es : List Int) (ms : List Group) : Bool × List Int × List Group :=
  match ms with
  | [] => (false, es, [])
  | m :: _ =>
    match es.dropWhile (fun e => e < m.typ) with
    | [] => (false, [], ms)
    | e :: es' =>
      match ms.dropWhile (fun g => e > g.typ) with
      | [] => (false, e :: es', [])
      | g :: gs => (g.typ = e, e :: es', g :: gs)

theorem advance_length (es : List Int) (ms : List Group) : (advanceEdgeTypes es ms).2.2.length ≤ ms.length := by
  cases ms with
  | nil => simp [advanceEdgeTypes]
  | cons m ms =>
    simp only [advanceEdgeTypes]
    split
    · exact Nat.le_refl _
    · rename_i e es' _
      have := (List.dropWhile_sublist (fun g : Group => decide (e > g.typ)) (l := m :: ms)).length_le
      split
      · simp
      · rename_i h; rw [h] at this; exact this

/-- The loop over the groups of a node (partition.cc:1410-1415, 1495-1500): the groups sampled from,
each with the requested type it was matched with. -/
def sampleGroups (ms : List Group) (es : List Int) : List (Group × Int) :=
  match ms with
  | [] => []
  | m :: ms =>
    match _h : advanceEdgeTypes es (m :: ms) with
    | (true, e :: es', g :: gs) => (g, e) :: sampleGroups gs (e :: es')
    | (_, es', ms') => sampleGroups ms'.tail es'
termination_by ms.length
decreasing_by
  all_goals
    have := advance_length es (m :: ms)
    rw [_h] at this
    simp at this ⊢
    omega

/-- The loop over the live runs of the timestamps of a group (partition.cc:1417-1461 and 1502-1538):
`(global_offset - first + it_dist, it_dist, size)` for every run, `goff` being `global_offset - first`. -/
def aliveRuns (ts : Int) (goff : Nat) (r : List (Int × Int)) : List (Nat × Nat × Nat) :=
  match _h : r.drop (findStart r ts) with
  | [] => []
  | e :: rest =>
    if e.2 = -1 ∧ e.1 > ts then []
    else
      let itDist := findStart r ts
      let d := findLast (e :: rest) ts
      let step := if d = 0 then 1 else d
      (goff + itDist, itDist, d) :: aliveRuns ts (goff + (step + itDist)) ((e :: rest).drop step)
termination_by r.length
decreasing_by
  have h1 : (e :: rest).length ≤ r.length := by rw [← _h]; simp
  simp only [List.length_drop]
  simp only [List.length_cons] at *
  split <;> omega

/-- A slice of `m_edge_destination`. -/
def Partition.dstSpan (p : Partition) (first size : Nat) : Option (List Int) :=
  (List.range' first size).mapM fun j => p.edgeDst[j]?

/-- The pieces of a group that are sampled from: `(first, size)`.  With a timestamp, sampling with
replacement starts a piece at `global_offset + it_dist` (partition.cc:1431), sampling without at
`first + it_dist` (1517). -/
def Partition.pieces (p : Partition) (withoutReplacement : Bool) (ts : Option Int) (g : Group) :
    Option (List (Nat × Nat)) :=
  match ts with
  | none => some [(g.start, g.last - g.start)]
  | some t => if p.edgeTimestamps = [] then some [(g.start, g.last - g.start)] else
    (p.groupTimes g).map fun r => (aliveRuns t 0 r).map fun x =>
      (g.start + (if withoutReplacement then x.2.1 else x.1), x.2.2)

/-- The blocks of (destination, type) offered to the reservoir by one partition, in order
(partition.cc:1407-1475, 1492-1548). -/
def Partition.sampleBlocks (p : Partition) (withoutReplacement : Bool) (id : Nat) (ts : Option Int)
    (types : List Int) : Option (List (List (Int × Int))) := do
  let gs ← p.groups id
  let bs ← (sampleGroups gs types).mapM fun (g, e) => do
    let ps ← p.pieces withoutReplacement ts g
    ps.mapM fun x => (p.dstSpan x.1 x.2).map fun l =>
      l.map fun d => (d, if withoutReplacement then e else g.typ)
  return bs.flatten

/-- One iteration of `Graph::UniformSampleNeighbor` (graph.cc:496-543), without replacement: `out` is
the part of the output buffers of this node, `s` the next draw.  The blocks of all partitions are
computed first here.  A node that is not in the graph has no blocks and gets defaults (503-511). -/
def Graph.sampleWithout1 (g : Graph) (R : Draws) (ts : Option Int) (types : List Int) (count : Nat)
    (default : Int × Int) (node : Int) (out : List (Int × Int)) (s : Nat) :
    Option (List (Int × Int) × Nat) := do
  let es ← g.entries node
  let blocks ← es.mapM fun (p, id) => p.sampleBlocks true id ts (sortUnique types)
  let (out, _, s) ← blocks.flatten.foldlM (fun st xs => AlgL.add R (store xs) xs.length st)
    (out, ({ k := count } : AlgL), s)
  let total := (blocks.flatten.map List.length).sum
  return (if total < count then out.take total ++ List.replicate (out.length - total) default else out, s)

/-- The same with replacement (graph.cc:496-533). -/
def Graph.sampleWith1 (g : Graph) (R : Draws) (ts : Option Int) (types : List Int) (count : Nat)
    (default : Int × Int) (node : Int) (out : List (Int × Int)) (s : Nat) :
    Option (List (Int × Int) × Nat) := do
  let es ← g.entries node
  let blocks ← es.mapM fun (p, id) => p.sampleBlocks false id ts (sortUnique types)
  let (out, _, s) ← blocks.flatten.foldlM (fun st xs => withReplacementAdd R (store xs) count xs.length st)
    (out, 0, s)
  let total := (blocks.flatten.map List.length).sum
  if total > 0 then return (out, s)
  else return (if total < count then out.take total ++ List.replicate (out.length - total) default else out, s)

/-- The loop over the nodes (graph.cc:496): `outs` are the initial contents of the output buffers, one
list of length `count` per node. -/
def sampleNodes {α β} (q : α → List β → Nat → Option (List β × Nat)) :
    List (α × List β) → Nat → Option (List (List β) × Nat)
  | [], s => some ([], s)
  | (n, out) :: l, s => do
    let (o, s) ← q n out s
    let (os, s) ← sampleNodes q l s
    return (o :: os, s)

/-- `Graph::UniformSampleNeighbor` (graph.cc:479-550): requests are nodes with their timestamp, if the
query has any, and the initial contents of their output. -/
def Graph.uniformSample (g : Graph) (R : Draws) (withoutReplacement : Bool) (types : List Int) (count : Nat)
    (default : Int × Int) (reqs : List ((Int × Option Int) × List (Int × Int))) (s : Nat) :
    Option (List (List (Int × Int)) × Nat) :=
  sampleNodes (fun n out s =>
    if withoutReplacement then g.sampleWithout1 R n.2 types count default n.1 out s
    else g.sampleWith1 R n.2 types count default n.1 out s) reqs s

end DeepGNN
