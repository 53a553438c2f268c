import Verif.Model.Graph

/-
Temporal queries: neighbour counts at a timestamp and the last created neighbours
(src/cc/lib/graph/partition.cc, src/cc/lib/graph/graph.cc).
-/

namespace DeepGNN

/-- Binary search of libstdc++: `std::lower_bound` over the elements `first … first+len-1` of `l`,
`lt a` telling whether `a` is before the searched position.  `std::upper_bound` with comparison
`comp` is the same loop with `lt a = !comp(value, a)`.  The C++ standard leaves the result open when
`l` is not partitioned by `lt`; this is what the usual implementation does. -/
def bsearch {α} (lt : α → Bool) (l : List α) (first len : Nat) : Nat :=
  if len = 0 then first
  else
    let half := len / 2
    match l[first + half]? with
    | none => first
    | some a => if lt a then bsearch lt l (first + half + 1) (len - half - 1) else bsearch lt l first half
termination_by len
decreasing_by all_goals omega

/-- Conversion of a 64-bit timestamp to `int` (the parameter `int x` in partition.cc:717). -/
def toInt32 (x : Int) : Int := (x + 2 ^ 31) % 2 ^ 32 - 2 ^ 31

/-- `find_start` (partition.cc:702-718): index in the range, its length standing for `end`. -/
def findStart (r : List (Int × Int)) (ts : Int) : Nat :=
  match r with
  | [] => 0
  | f :: _ =>
    if f.1 ≤ ts ∧ (f.2 > ts ∨ f.2 = -1) then 0
    else
      let ts := max ts f.2
      bsearch (fun a => decide (a.2 ≠ -1 ∧ a.2 ≤ toInt32 ts)) r 0 r.length

/-- `find_last` (partition.cc:722-732); the range is not empty. -/
def findLast (r : List (Int × Int)) (ts : Int) : Nat :=
  match r with
  | [] => 0
  | f :: _ =>
    if f.1 > ts then 0
    else bsearch (fun a => decide (¬ (a.2 > f.2 ∨ a.1 > ts))) r 0 r.length

theorem bsearch_le {α} (lt : α → Bool) (l : List α) (first len : Nat) :
    bsearch lt l first len ≤ first + len := by
  induction len using Nat.strongRecOn generalizing first with
  | ind len ih =>
    rw [bsearch]
    split
    · omega
    · dsimp only
      split
      · omega
      · split
        · have := ih (len - len / 2 - 1) (by omega) (first + len / 2 + 1); omega
        · have := ih (len / 2) (by omega) first; omega

/-- The counting loop for the timestamps of one group (partition.cc:748-766). -/
def countAlive (ts : Int) (r : List (Int × Int)) : Nat :=
  match _h : r.drop (findStart r ts) with
  | [] => 0
  | e :: rest =>
    if e.2 = -1 ∧ e.1 > ts then 0
    else
      let d := findLast (e :: rest) ts
      let step := if d = 0 then 1 else d
      d + countAlive ts ((e :: rest).drop step)
termination_by r.length
decreasing_by
  have h1 : (e :: rest).length ≤ r.length := by rw [← _h]; simp
  simp only [List.length_drop]
  simp only [List.length_cons] at *
  split <;> omega

/-- Timestamps of the edges of a group: `std::span(m_edge_timestamps).subspan(start, last - start)`
(partition.cc:749). -/
def Partition.groupTimes (p : Partition) (g : Group) : Option (List (Int × Int)) :=
  (List.range' g.start (g.last - g.start)).mapM fun j => p.edgeTimestamps[j]?

/-- `Partition::NeighborCount` with a timestamp (partition.cc:746-771). -/
def Partition.neighborCountAt (p : Partition) (id : Nat) (ts : Int) (types : List Int) : Option Nat := do
  let gs ← p.groups id
  let l ← (walk Group.typ gs types).mapM p.groupTimes
  return (l.map (countAlive ts)).sum

/-- One iteration of `Graph::NeighborCount` with a timestamp (graph.cc:368-389). -/
def Graph.neighborCountAt1 (g : Graph) (types : List Int) (node ts : Int) : Option Nat := do
  let es ← g.entries node
  let rs ← es.mapM fun (p, id) => p.neighborCountAt id ts types
  return rs.sum

/-- `Graph::NeighborCount` with one timestamp per node (graph.cc:361-390). -/
def Graph.neighborCountAt (g : Graph) (nodes : List Int) (ts : List Int) (types : List Int) :
    Option (List Nat) :=
  (nodes.zip ts).mapM fun (n, t) => g.neighborCountAt1 types n t

/-- A neighbour with its creation time, as returned by `LastNCreated`. -/
structure Slot where
  dst : Int
  typ : Int
  weight : Int
  created : Int
deriving DecidableEq, Repr

/-- State of the `lastn` query of one node: the priority queue of `(creation time, position)`, in
increasing order (`lastn_queue`, src/cc/lib/graph/partition.h:28-30), and the output positions
filled so far. -/
structure LastN where
  queue : List (Int × Nat) := []
  out : List Slot := []
deriving DecidableEq

/-- Order of `std::pair<Timestamp, size_t>`. -/
def pairLe (a b : Int × Nat) : Bool := decide (a.1 < b.1 ∨ (a.1 = b.1 ∧ a.2 ≤ b.2))

/-- `std::priority_queue::emplace`. -/
def emplace (x : Int × Nat) : List (Int × Nat) → List (Int × Nat)
  | [] => [x]
  | y :: ys => if pairLe x y then x :: y :: ys else y :: emplace x ys

/-- Loop body of `LastNCreatedNeighbors` for a live edge (partition.cc:851-878). `none`: `top()` of
an empty queue, which happens for `count = 0`. -/
def LastN.push (count : Nat) (s : LastN) (e : Slot) : Option LastN :=
  if s.queue.length = count then
    match s.queue with
    | [] => none
    | top :: rest =>
      if top.1 ≥ e.created then some s
      else some { queue := emplace (e.created, top.2) rest, out := s.out.set top.2 e }
  else some { queue := emplace (e.created, s.queue.length) s.queue, out := s.out ++ [e] }

/-- The edges of a group with their removal times, as read by `LastNCreatedNeighbors`
(partition.cc:843-878). Read eagerly here. -/
def Partition.groupSlots (p : Partition) (g : Group) : Option (List (Slot × Int)) :=
  (List.range' g.start (g.last - g.start)).mapM fun j => do
    let t ← p.edgeTimestamps[j]?
    let d ← p.edgeDst[j]?
    let w ← p.edgeWeight g.start j
    return ({ dst := d, typ := g.typ, weight := w, created := t.1 }, t.2)

/-- The loop over the edges of a group: edges created after the timestamp or removed before it are
skipped (partition.cc:846-849). -/
def LastN.step (count : Nat) (ts : Int) (s : LastN) (e : Slot × Int) : Option LastN :=
  if (e.2 ≠ -1 ∧ e.2 < ts) ∨ e.1.created > ts then some s else s.push count e.1

/-- `Partition::LastNCreatedNeighbors` (partition.cc:832-883). -/
def Partition.lastN (p : Partition) (id : Nat) (ts : Int) (types : List Int) (count : Nat) (s : LastN) :
    Option LastN := do
  let gs ← p.groups id
  let l ← (walk Group.typ gs types).mapM p.groupSlots
  l.flatten.foldlM (LastN.step count ts) s

/-- Insertion into a strictly increasing list. -/
def insertUnique (x : Int) : List Int → List Int
  | [] => [x]
  | y :: ys => if x < y then x :: y :: ys else if x = y then y :: ys else y :: insertUnique x ys

/-- `std::sort` and `std::unique` on the requested types (graph.cc:436-441, 489-494, 560-565). -/
def sortUnique (l : List Int) : List Int := l.foldr insertUnique []

/-- One iteration of `Graph::LastNCreated` (graph.cc:573-621): neighbours of one node over all its
partitions, padded with the default. -/
def Graph.lastN1 (g : Graph) (types : List Int) (count : Nat) (default : Slot) (node ts : Int) :
    Option (List Slot) := do
  let es ← g.entries node
  let s ← es.foldlM (fun s (p, id) => p.lastN id ts (sortUnique types) count s) ({} : LastN)
  return s.out ++ List.replicate (count - s.out.length) default

/-- `Graph::LastNCreated` (graph.cc:552-626) on a temporal graph. -/
def Graph.lastN (g : Graph) (nodes ts types : List Int) (count : Nat) (default : Slot) :
    Option (List Slot) := do
  let rs ← (nodes.zip ts).mapM fun (n, t) => g.lastN1 types count default n t
  return rs.flatten

end DeepGNN
