/-
The evaluation of the HetGNN example (examples/pytorch/hetgnn: main.py, evaluation.py).  Random draws are parameters; papers
are lists of authors; authors are below the configured number, so that no index is out of range.
-/
import Verif.Model.Temporal

namespace DeepGNN.HetEval

/-! Link prediction -/

/-- `lists[a].append(b)`. -/
def update (f : Int → List Int) (a b : Int) : Int → List Int := fun x => if x = a then f x ++ [b] else f x

/-- The pairs `j < k` of authors of a paper (main.py:223-224). -/
def pairsOf : List Int → List (Int × Int)
  | [] => []
  | a :: l => l.map (fun b => (a, b)) ++ pairsOf l

/-- `a_a_list_train` (main.py:221-231). -/
def trainLists (papers : List (List Int)) : Int → List Int :=
  (papers.flatMap pairsOf).foldl (fun f p => update (update f p.1 p.2) p.2 p.1) fun _ => []

/-- One pair of authors of a test paper (main.py:232-249). -/
def testPair (train : Int → List Int) (f : Int → List Int) (p : Int × Int) : Int → List Int :=
  if train p.1 ≠ [] ∧ train p.2 ≠ [] then
    let f := if p.2 ∉ train p.1 then update f p.1 p.2 else f
    if p.1 ∉ train p.2 then update f p.2 p.1 else f
  else f

/-- `a_a_list_test` (main.py:221-249). -/
def testLists (train : Int → List Int) (papers : List (List Int)) : Int → List Int :=
  (papers.flatMap pairsOf).foldl (testPair train) fun _ => []

/-- The loop for a negative (main.py:269-271, 279-285): the first draw that is not rejected, and the draws left.  `none`: all
`draws` are rejected, the loop goes on. -/
def negative (bad : Int → Bool) : List Int → Option (Int × List Int)
  | [] => none
  | d :: ds => if bad d then negative bad ds else some (d, ds)

/-- The lines for author `i` (main.py:264-272, 274-286): each positive followed by a negative. -/
def linesOf (i : Int) (bad : Int → Bool) : List Int → List Int → Option (List (Int × Int × Int) × List Int)
  | [], ds => some ([], ds)
  | b :: bs, ds => (negative bad ds).bind fun r => (linesOf i bad bs r.2).map fun q => ((i, b, 1) :: (i, r.1, 0) :: q.1, q.2)

/-- One file (main.py:251-286): the lists without repetitions, authors in order.  Simplification: the order of a `set` is
ascending. -/
def fileOf (bad : Int → Int → Bool) (lists : Int → List Int) : List Int → List Int → Option (List (Int × Int × Int) × List Int)
  | [], ds => some ([], ds)
  | i :: is, ds => (linesOf i (bad i) (sortUnique (lists i)) ds).bind fun r => (fileOf bad lists is r.2).map fun q => (r.1 ++ q.1, q.2)

/-- `a_a_list_train.txt` and `a_a_list_test.txt` (main.py:215-288) for `n` authors. -/
def linkFiles (n : Nat) (train test : List (List Int)) (draws : List Int) :
    Option (List (Int × Int × Int) × List (Int × Int × Int)) :=
  let tr := trainLists train
  let te := testLists tr test
  (fileOf (fun i d => decide (d ∈ tr i)) tr ((List.range n).map Int.ofNat) draws).bind fun r =>
    (fileOf (fun i d => decide (d ∈ te i ∨ d ∈ tr i ∨ tr i = [])) te ((List.range n).map Int.ofNat) r.2).map fun q => (r.1, q.1)

/-- A line of `test_feature.txt` (main.py:345-357): two authors, label, products of their embeddings; `%f` does not round here. -/
def featureLine (embed : Int → List Rat) (x : Int × Int × Int) : List Rat :=
  [(x.1 : Rat), (x.2.1 : Rat), (x.2.2 : Rat)] ++ List.zipWith (· * ·) (embed x.1) (embed x.2.1)

/-- `data[:, from:-1]` of a row (evaluation.py:28, 39, 62, 73). -/
def columnsFrom (start : Nat) (row : List Rat) : List Rat := row.dropLast.drop start

/-- The counts of evaluation.py:90-104: true positives, false positives, false negatives of pairs of prediction and target. -/
def counts (xs : List (Int × Int)) : Nat × Nat × Nat :=
  xs.foldl (fun c x => (c.1 + (if x.1 = 1 ∧ x.2 = 1 then 1 else 0), c.2.1 + (if x.1 = 1 ∧ x.2 = 0 then 1 else 0),
    c.2.2 + (if x.1 = 0 ∧ x.2 = 1 then 1 else 0))) (0, 0, 0)

/-- Division of floats: ZeroDivisionError is `none`. -/
def fdiv (a b : Rat) : Option Rat := if b = 0 then none else some (a / b)

/-- F1 (evaluation.py:106-108). -/
def f1 (xs : List (Int × Int)) : Option Rat :=
  let c := counts xs
  (fdiv (c.1 : Rat) ((c.1 + c.2.1 : Nat) : Rat)).bind fun precision => (fdiv (c.1 : Rat) ((c.1 + c.2.2 : Nat) : Rat)).bind fun recall =>
    fdiv (2 * precision * recall) (precision + recall)

/-! Classification -/

/-- `p_v` (main.py:392-398): 0 for papers without a line. -/
def venueOf (lines : List (Nat × Nat)) (p : Nat) : Nat :=
  lines.foldl (fun v l => if l.1 = p then l.2 else v) 0

/-- `a_v_num[i]` (main.py:400-410). -/
def venueCounts (V : Nat) (venues : List Nat) : List Nat := (List.range V).map fun v => venues.count v

/-- `l.index(max(l))` (main.py:412-414). -/
def maxIndex (l : List Nat) : Nat := l.idxOf (l.foldl max 0)

/-- The class of an author (main.py:424-466) by their most frequent venue. -/
def classOf (v : Nat) : Option Nat :=
  if v = 17 ∨ v = 4 ∨ v = 1 then some 0
  else if v = 16 ∨ v = 2 ∨ v = 3 then some 1
  else if v = 9 ∨ v = 13 ∨ v = 6 then some 2
  else if v = 12 ∨ v = 10 ∨ v = 5 then some 3
  else none

/-- The loop of main.py:423-466 for author `i`. -/
def classStep (V : Nat) (venues : List (Nat × Nat)) (papers : Nat → List Nat) (ls : List (List Nat)) (i : Nat) : List (List Nat) :=
  if papers i = [] then ls
  else match classOf (maxIndex (venueCounts V ((papers i).map (venueOf venues)))) with
    | some c => ls.modify c (· ++ [i])
    | none => ls

/-- `a_class_list` (main.py:419-466): authors of each class, for papers `papers i` of author `i`. -/
def classLists (A V : Nat) (venues : List (Nat × Nat)) (papers : Nat → List Nat) : List (List Nat) :=
  (List.range A).foldl (classStep V venues papers) (List.replicate 4 [])

/-- The lines of `a_class_train.txt` and `a_class_test.txt` (main.py:481-517): `coin k` tells whether the k-th author goes to
training. -/
def classSplit (coin : Nat → Bool) (lists : List (List Nat)) : List (Nat × Nat) × List (Nat × Nat) :=
  let all := lists.zipIdx.flatMap fun l => l.1.map fun i => (i, l.2)
  ((all.zipIdx.filter fun x => coin x.2).map (·.1), (all.zipIdx.filter fun x => !coin x.2).map (·.1))

end DeepGNN.HetEval
