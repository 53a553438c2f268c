import Verif.Model.Multihop

/-
Personalized PageRank sampling (src/cc/lib/py_graph.cc:1024-1288, src/python/deepgnn/graph_engine/snark/client.py:1107-1163) on a local
graph.  Simplifications: scores are exact rationals; hash sets list their entries in the order of insertion; `num_nodes_in_queue`
is not stored, it is the number of entries of all queues.
-/

namespace DeepGNN.Ppr

/-- `lookup_count` and `lookup_neighbors` of `NB_Count_Cache` (py_graph.cc:1028-1042) without timestamps. -/
structure Cache where
  counts : List (Int × Nat)
  lists : List (Int × List Int)
deriving DecidableEq

/-- Insertion of all entries into a hash set (py_graph.cc:1064-1075, 1136-1139, 1194-1201). -/
def unique {α : Type} [DecidableEq α] (l : List α) : List α := l.foldl (fun acc x => if x ∈ acc then acc else acc ++ [x]) []

/-- The neighbours of every node out of the flat answer (py_graph.cc:1130-1142). -/
def splitLists {α : Type} : List α → List Int → List Nat → List (α × List Int)
  | n :: ns, ids, c :: cs => (n, ids.take c) :: splitLists ns (ids.drop c) cs
  | _, _, _ => []

/-- `lookup_neighbor_counts` without timestamps (py_graph.cc:1045-1100). -/
def lookupCounts (g : Graph) (types : List Int) (counts : List (Int × Nat)) (neighbors : List Int) : Option (List (Int × Nat)) :=
  let new := unique (neighbors.filter fun n => (counts.lookup n).isNone)
  if new = [] then some counts else (g.neighborCount new (sortUnique types)).map fun cs => new.zip cs ++ counts

/-- `lookup_neighbor_lists` without timestamps (py_graph.cc:1103-1158). -/
def lookupLists (g : Graph) (types : List Int) (c : Cache) (input : List Int) : Option Cache :=
  let new := input.filter fun n => (c.lists.lookup n).isNone
  (if new = [] then some ([], []) else Multihop.clientNeighbors g new types).bind fun r =>
    let lists := splitLists new (r.1.map (·.dst)) r.2
    (lookupCounts g types (new.zip r.2 ++ c.counts) (unique (lists.flatMap (·.2)))).map fun counts => ⟨counts, lists ++ c.lists⟩

/-- `p`, `r` and `q` of one input node (py_graph.cc:1175-1190); the back of `q` comes first. -/
structure Push where
  p : List (Int × Rat)
  r : List (Int × Rat)
  q : List Int
deriving DecidableEq

/-- The value of a map at a key, 0 if there is none (py_graph.cc:1210-1215, 1227-1232). -/
def value (l : List (Int × Rat)) (k : Int) : Rat := (l.lookup k).getD 0

/-- `map[k] += x` (py_graph.cc:1216, 1225). -/
def add (k : Int) (x : Rat) : List (Int × Rat) → List (Int × Rat)
  | [] => [(k, x)]
  | (a, y) :: l => if k = a then (a, y + x) :: l else (a, y) :: add k x l

/-- `map[k] = 0` (py_graph.cc:1217). -/
def clear (k : Int) : List (Int × Rat) → List (Int × Rat)
  | [] => [(k, 0)]
  | (a, y) :: l => if k = a then (a, 0) :: l else (a, y) :: clear k l

/-- The loop over the neighbours (py_graph.cc:1223-1244). -/
def relax (alpha eps : Rat) (counts : List (Int × Nat)) (val : Rat) (s : Push) (v : Int) : Push :=
  let r := add v val s.r
  if value r v ≥ alpha * eps * (((counts.lookup v).getD 0 : Nat) : Rat) ∧ v ∉ s.q then ⟨s.p, r, v :: s.q⟩ else ⟨s.p, r, s.q⟩

/-- The body of the loop over the input nodes (py_graph.cc:1205-1245); `operator[]` of a missing key gives an empty list. -/
def step (alpha eps : Rat) (c : Cache) (s : Push) : Push :=
  match s.q with
  | [] => s
  | u :: q =>
    let res := value s.r u
    let nbs := (c.lists.lookup u).getD []
    nbs.foldl (relax alpha eps c.counts ((1 - alpha) * res / (nbs.length : Rat))) ⟨add u res s.p, clear u s.r, q⟩

/-- The `while` loop (py_graph.cc:1192-1246) for up to `fuel` rounds; `none`: a query failed or the loop goes on. -/
def loop (g : Graph) (types : List Int) (alpha eps : Rat) : Nat → Cache → List Push → Option (List Push)
  | 0, _, ss => if ss.all (·.q = []) then some ss else none
  | k + 1, c, ss =>
    if ss.all (·.q = []) then some ss
    else (lookupLists g types c (unique (ss.flatMap (·.q)))).bind fun c' => loop g types alpha eps k c' (ss.map (step alpha eps c'))

/-- `std::greater` on pairs of score and node, reversed (py_graph.cc:1181-1182). -/
def before (a b : Rat × Int) : Bool := decide (a.1 < b.1 ∨ (a.1 = b.1 ∧ a.2 < b.2))

/-- `emplace` of the priority queue (py_graph.cc:1254, 1264); `top` comes first. -/
def insert (x : Rat × Int) : List (Rat × Int) → List (Rat × Int)
  | [] => [x]
  | y :: l => if before x y then x :: y :: l else y :: insert x l

/-- Selection of the scores (py_graph.cc:1250-1266); `none`: `top` of an empty queue. -/
def select (count : Nat) : List (Rat × Int) → List (Int × Rat) → Option (List (Rat × Int))
  | pq, [] => some pq
  | pq, (n, x) :: l =>
    if pq.length < count then select count (insert (x, n) pq) l
    else match pq with
      | [] => none
      | top :: rest => if top.1 > x then select count pq l else select count (insert (x, n) rest) l

/-- The output for one node (py_graph.cc:1250-1282). -/
def row (count : Nat) (default : Int × Rat) (p : List (Int × Rat)) : Option (List (Int × Rat)) :=
  (select count [] p).map fun pq => (pq.map fun x => (x.2, x.1)) ++ List.replicate (count - pq.length) default

/-- `ppr_neighbors` without timestamps (client.py:1107-1163, py_graph.cc:1163-1288) for up to `fuel` rounds; `order i` is the order in
which the map of scores of input `i` lists its entries. -/
def ppr (g : Graph) (nodes types : List Int) (count : Nat) (alpha eps : Rat) (default : Int × Rat)
    (order : Nat → List (Int × Rat) → List (Int × Rat)) (fuel : Nat) : Option (List (List (Int × Rat))) :=
  (loop g types alpha eps fuel ⟨[], []⟩ (nodes.map fun n => ⟨[], [(n, alpha)], [n]⟩)).bind fun ss =>
    ss.zipIdx.mapM fun x => row count default (order x.2 x.1.p)

/-- The loop of `lookup_neighbor_counts` with timestamps (py_graph.cc:1055-1079) on an empty cache: the keys to ask for; `none` is a
read behind the end of the timestamps. -/
def countKeys : Nat → List Int → List (Int × Int) → List Int → Option (List (Int × Int))
  | _, _, seen, [] => some seen
  | i, ts, seen, n :: l => ts[i]?.bind fun t =>
      if (n, t) ∈ seen then countKeys (i + 1) ts seen l else countKeys (i + 1) (ts.set seen.length t) (seen ++ [(n, t)]) l

/-- `lookup_neighbor_lists` with timestamps on an empty cache up to the request for the counts (py_graph.cc:1103-1153): the timestamps
passed on are those of the nodes asked for. -/
def lookupListsAt (g : Graph) (types : List Int) (input : List (Int × Int)) : Option (List (Int × Int)) :=
  (g.fullNeighbor (input.map (·.1)) (some (input.map (·.2))) (sortUnique types)).bind fun r =>
    let lists := splitLists input (r.1.map (·.dst)) r.2
    let next := unique (lists.flatMap fun x => x.2.map fun d => (d, x.1.2))
    countKeys 0 (input.map (·.2)) [] (next.map (·.1))

/-- The first call to the caches in `ppr_neighbors` with timestamps (py_graph.cc:1185-1202); `none`: reads out of bounds. -/
def firstLookupAt (g : Graph) (nodes timestamps types : List Int) : Option (List (Int × Int)) :=
  lookupListsAt g types (unique (nodes.zip timestamps))

end DeepGNN.Ppr
