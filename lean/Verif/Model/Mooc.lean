import Verif.Model.Features

/-
The MOOC dataset (src/python/deepgnn/graph_engine/data/mooc.py): rows of a file of interactions become records of a temporal graph.

Numbers of users, items and times are natural; the four features of an interaction are given as bytes.  Download, the zip file and
the parsing of the csv file are not modelled.
-/

namespace DeepGNN.Mooc

/-- A row of the csv file (mooc.py:137-138): user, item, time, and the bytes of its features (159); the label (`row[3]`) is not used. -/
structure Interaction where
  user : Nat
  item : Nat
  time : Nat
  value : Bytes
deriving DecidableEq, Repr

/-- The key of `sorted` (mooc.py:119): user, item, time in that order. -/
def Interaction.before (a b : Interaction) : Bool :=
  decide (a.user < b.user) ||
    (a.user == b.user && (decide (a.item < b.item) || (a.item == b.item && decide (a.time < b.time))))

/-- Insertion after the rows that are not greater. -/
def insertRow (x : Interaction) : List Interaction → List Interaction
  | [] => [x]
  | y :: ys => if x.before y then x :: y :: ys else y :: insertRow x ys

/-- `sorted` (mooc.py:117-120): stable. -/
def sortRows (rows : List Interaction) : List Interaction := rows.foldl (fun acc x => insertRow x acc) []

/-- `self.max_src` (mooc.py:56). -/
def maxSrc : Nat := 7046

/-- A node record (mooc.py:145). -/
def nodeRec (user : Int) : Rec := ⟨user, -1, 0, 1, some 0, some (-1), []⟩

/-- An edge record with the features collected so far (mooc.py:149-152, 163-166): `_serialize_temporal_features` (79-106) is that of the
json decoder without the sort.  `features[0][0]` fails without features. -/
def edgeRec (src dst : Int) (features : List (Int × Bytes)) : Option Rec :=
  features.head?.map fun f => ⟨src, dst + maxSrc, 0, 1, some f.1, some (-1), [some (serializeSorted features)]⟩

/-- `curr_src`, `curr_dst` and `features` (mooc.py:121-135).  The end of an interval, `features[-2][1]`, is never written. -/
structure State where
  src : Int := -1
  dst : Int := -1
  features : List (Int × Bytes) := []

/-- The body of the loop (mooc.py:140-161): records and the next state.  `len(output_features)` is 1, so the loop of lines 153-156 has
no iterations. -/
def step (s : State) (r : Interaction) : Option (List Rec × State) :=
  let s := if s.dst = -1 then { s with dst := r.item } else s
  let new := decide ((r.user : Int) ≠ s.src)
  let nodes := if new then [nodeRec r.user] else []
  let s := if new then { s with dst := r.item, src := r.user } else s
  if (r.item : Int) ≠ s.dst ∧ s.features ≠ [] then
    (edgeRec s.src s.dst s.features).map fun e => (nodes ++ [e], ⟨s.src, r.item, [((r.time : Int), r.value)]⟩)
  else some (nodes, { s with features := s.features ++ [((r.time : Int), r.value)] })

/-- The loop and the lines after it (mooc.py:140-170): the last edge has the item of the last row. -/
def loop (s : State) (last : Option Interaction) : List Interaction → Option (List Rec)
  | [] => last.bind fun r => (edgeRec s.src r.item s.features).map fun e => [e]
  | r :: rows => (step s r).bind fun x => (loop x.2 (some r) rows).map fun out => x.1 ++ out

/-- `_edge_iterator` (mooc.py:108-170).  Without rows, `row` is not defined. -/
def edgeIterator (rows : List Interaction) : Option (List Rec) := loop {} none (sortRows rows)

end DeepGNN.Mooc
