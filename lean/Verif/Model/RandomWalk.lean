import Verif.Model.Multihop

/-
Random walks (src/cc/lib/py_graph.cc:881-1022, src/python/deepgnn/graph_engine/snark/client.py:1262-1316) on a local graph without
timestamps.  Simplifications: probabilities are exact rationals; `std::lower_bound` looks for the first sum that is not smaller, which is
what it finds as the sums do not decrease.
-/

namespace DeepGNN.RandomWalk

/-- Variables of one walk (py_graph.cc:912-925): its output row so far, `past_nodes`, `curr_nodes`, and `t_nbs`, in which `find` returns
the first entry since `emplace` keeps it. -/
structure Walker where
  row : List Int
  past : Int
  curr : Int
  nbs : List (Int × Int)
deriving DecidableEq

/-- `transition_node_prob` (py_graph.cc:950-977). -/
def transitions (p q : Rat) (w : Walker) (nbs : List Nbr) : List (Int × Rat) :=
  (match w.nbs.lookup w.curr with
    | some x => [(w.past, (x : Rat) / p)]
    | none => []) ++
  nbs.filterMap fun n =>
    if n.dst = w.past then none
    else if (w.nbs.lookup n.dst).isSome then some (n.dst, (n.weight : Rat))
    else some (n.dst, (n.weight : Rat) / q)

/-- `total_weight` (py_graph.cc:998-1004). -/
def total (l : List (Int × Rat)) : Rat := (l.map (·.2)).foldr (· + ·) 0

/-- `std::lower_bound` over the running sums (py_graph.cc:998-1008); `none`: past the end. -/
def pick (x : Rat) : Rat → List (Int × Rat) → Option Int
  | _, [] => none
  | acc, (n, w) :: l => if acc + w < x then pick x (acc + w) l else some n

/-- One step of one walk (py_graph.cc:947-1019); `u` is the random number. -/
def step (p q u : Rat) (default : Int) (w : Walker) (nbs : List Nbr) : Option Walker :=
  let l := transitions p q w nbs
  if l = [] then some { w with past := w.curr, curr := default, row := w.row ++ [default] }
  else (pick (total l * u) 0 l).map fun next =>
    ⟨w.row ++ [next], w.curr, next, nbs.map fun n => (n.dst, n.weight)⟩

/-- The loop over the walks (py_graph.cc:945-1020); `nb_offset` is modelled by dropping neighbours from the list. -/
def stepAll (p q : Rat) (default : Int) (u : Nat → Rat) : Nat → List Walker → List Nbr → List Nat → Option (List Walker)
  | _, [], _, _ => some []
  | _, _ :: _, _, [] => none
  | i, w :: ws, nbs, c :: cs => (step p q (u i) default w (nbs.take c)).bind fun w' =>
      (stepAll p q default u (i + 1) ws (nbs.drop c) cs).map fun ws' => w' :: ws'

/-- The loop over the steps (py_graph.cc:936-1021); `k` steps remain. -/
def walkLoop (g : Graph) (types : List Int) (p q : Rat) (default : Int) (D : Nat → Nat → Rat) : Nat → Nat → List Walker →
    Option (List Walker)
  | 0, _, ws => some ws
  | k + 1, i, ws => (Multihop.clientNeighbors g (ws.map (·.curr)) types).bind fun r =>
      (stepAll p q default (D i) 0 ws r.1 r.2).bind fun ws' => walkLoop g types p q default D k (i + 1) ws'

/-- `random_walk` (client.py:1262-1316, py_graph.cc:881-1022): one row per node; `D i j` is the random number of walk `j` in step `i`. -/
def randomWalk (g : Graph) (nodes types : List Int) (len : Nat) (p q : Rat) (default : Int) (D : Nat → Nat → Rat) :
    Option (List (List Int)) :=
  (walkLoop g types p q default D len 0 (nodes.map fun n => ⟨[n], n, n, []⟩)).map fun ws => ws.map (·.row)

end DeepGNN.RandomWalk
