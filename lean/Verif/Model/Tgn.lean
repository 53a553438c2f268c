import Verif.Model.SageExample
import Verif.Model.Features

/-!
Model of the TGN example (examples/pytorch/tgn.py): the split of the interactions by time, the
queries of `predict` and the loops of `train` and `test`.

The neural network is abstract (`Learner`): its state holds the weights and the memory. Embeddings
are computed node by node from the state and the interactions found for the node (TransformerConv adds
up the messages to a node; dropout is taken to be 0), scores from two embeddings. Random negative
destinations are arguments.
-/

namespace DeepGNN.Tgn

open DeepGNN.SageExample

/-- A row of the file of interactions: source, destination, time (tgn.py:82-90). -/
structure Row where
  src : Int
  dst : Int
  time : Int
deriving DecidableEq, Repr

/-- `make_train_val_test_batches` (tgn.py:73-99). The two quantiles are arguments (a quantile that is not an
integer is the same as the integer below). -/
def split (rows : List Row) (valTime testTime : Int) : List Row × List Row × List Row :=
  let testIdx := (rows.filter fun r => r.time ≤ testTime).length
  let valIdx := (rows.filter fun r => r.time ≤ valTime).length
  (rows.take valIdx, (rows.take testIdx).drop valIdx, rows.drop testIdx)

/-- The batches of a `DataLoader` without shuffling (tgn.py:262-263). -/
def batches (size : Nat) (rows : List Row) : List (List Row) :=
  if _h : size = 0 ∨ rows = [] then []
  else rows.take size :: batches size (rows.drop size)
termination_by rows.length
decreasing_by
  have : rows.length ≠ 0 := fun e => _h (Or.inr (List.length_eq_zero_iff.1 e))
  rw [List.length_drop]; omega

/-- Nodes and times of the query for neighbors: `np.unique` with `return_index` takes the first
position of each node in sources, destinations and negatives (tgn.py:111-123). -/
def requests (rows : List Row) (neg : List Int) : List (Int × Int) :=
  let ids := rows.map (·.src) ++ rows.map (·.dst) ++ neg
  let times := rows.map (·.time) ++ rows.map (fun _ => 1) ++ neg.map fun _ => 1
  (sortUnique ids).map fun n => (n, times.getD (ids.idxOf n) 0 - 1)

/-- An interaction that was found: `src_np`, `dst_ids`, `dst_ts` (tgn.py:133-137). -/
structure Interaction where
  node : Int
  nbr : Int
  time : Int
deriving DecidableEq, Repr

/-- The last interactions of the requested nodes, without stubs (tgn.py:124-137). -/
def interactions (g : Graph) (num : Nat) (reqs : List (Int × Int)) : Option (List Interaction) :=
  (g.lastN (reqs.map (·.1)) (reqs.map (·.2)) [0] num ⟨-1, -1, 0, -1⟩).map fun slots =>
    (((repeatEach num (reqs.map (·.1))).zip slots).filter fun x => decide (-1 < x.2.dst)).map
      fun x => ⟨x.1, x.2.dst, x.2.created⟩

/-- The query for edge features (tgn.py:151-157), edge by edge. `dim` is in bytes. -/
def features (g : Graph) (dim : Nat) (found : List Interaction) : Option (List (Interaction × Bytes)) :=
  found.mapM fun i => (g.edgeFeature [⟨i.node, i.nbr, 0⟩] (some [i.time]) [(0, dim)]).map fun f => (i, f)

/-- Parts of the model (tgn.py:63-70). `embed`: memory and attention layer (tgn.py:159-170), for a node and its
neighbors with time and features. `score`: link predictor. `learn`: `update_state`, loss and optimizer
(tgn.py:174-179, 209-216). `observe`: `update_state` without training. -/
structure Learner (S Z P : Type) where
  embed : S → Int → List (Int × Int × Bytes) → Z
  score : S → Z → Z → P
  learn : S → List Row → List Int → List (Interaction × Bytes) → S
  observe : S → List Row → List Int → List (Interaction × Bytes) → S

/-- Scores of the interactions and of the negatives. -/
structure Output (P : Type) where
  pos : List (Option P)
  neg : List (Option P)
deriving DecidableEq

/-- Options of the example (tgn.py:247-260). -/
structure Config where
  num : Nat
  dim : Nat

/-- Embeddings of all nodes and the scores; nodes are addressed by their position among the sorted nodes
(tgn.py:139-150, 159-173). A position without node is `none`. -/
def scores {S Z P : Type} (L : Learner S Z P) (s : S) (rows : List Row) (neg : List Int)
    (nodes : List Int) (found : List (Interaction × Bytes)) : Output P :=
  let final := sortUnique (nodes ++ found.map (·.1.nbr))
  let edges := found.map fun x => (final.idxOf x.1.nbr, final.idxOf x.1.node, x.1.time, x.2)
  let z := final.zipIdx.map fun y => L.embed s y.1
    ((edges.filter fun e => e.2.1 = y.2).map fun e => (final.getD e.1 0, e.2.2))
  let at' := fun n => z[final.idxOf n]?
  let pair := fun a b => (at' a).bind fun x => (at' b).map fun y => L.score s x y
  ⟨rows.map fun r => pair r.src r.dst, (rows.zip neg).map fun x => pair x.1.src x.2⟩

/-- `predict` (tgn.py:102-181): `some none` is `(None, None)`, without new state. -/
def predict {S Z P : Type} (L : Learner S Z P) (g : Graph) (c : Config) (s : S) (rows : List Row) (neg : List Int) :
    Option (Option (Output P × List (Interaction × Bytes))) :=
  let reqs := requests rows neg
  (interactions g c.num reqs).bind fun found =>
    if found = [] then some none
    else (features g c.dim found).map fun fs => some (scores L s rows neg (reqs.map (·.1)) fs, fs)

/-- The loops over batches of `train` and `test` (tgn.py:203-216, 232-234): `update` is the change of state
after a batch with predictions. -/
def epoch {S Z P : Type} (L : Learner S Z P) (update : S → List Row → List Int → List (Interaction × Bytes) → S)
    (g : Graph) (c : Config) : S → List (List Row × List Int) → Option (S × List (Option (Output P)))
  | s, [] => some (s, [])
  | s, (rows, neg) :: bs =>
    (predict L g c s rows neg).bind fun
      | none => (epoch L update g c s bs).map fun r => (r.1, none :: r.2)
      | some (o, fs) => (epoch L update g c (update s rows neg fs) bs).map fun r => (r.1, some o :: r.2)

/-- `train` (tgn.py:184-217). -/
def train {S Z P : Type} (L : Learner S Z P) (g : Graph) (c : Config) (s : S) (bs : List (List Row × List Int)) :=
  epoch L L.learn g c s bs

/-- `test` (tgn.py:220-243): a batch without predictions makes `torch.cat` fail. -/
def test {S Z P : Type} (L : Learner S Z P) (g : Graph) (c : Config) (s : S) (bs : List (List Row × List Int)) :
    Option (List (Output P)) :=
  (epoch L L.observe g c s bs).bind fun r => r.2.mapM id

end DeepGNN.Tgn
