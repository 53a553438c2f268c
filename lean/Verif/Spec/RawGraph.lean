import Verif.Model.RawGraph
import Verif.Spec.EdgeListInput
import Verif.Spec.Built

/-
What the raw files of the bundled datasets say, and how lines are given to the partitions.
-/

namespace DeepGNN.Spec

open EdgeList RawGraph

/-- The paper with id `n`: papers are numbered from 1 in the order of their lines. -/
def paperOf (content : List (List Str)) (n : Int) : Option Str := if 1 ≤ n then (content[(n - 1).toNat]?).bind List.head? else none

/-- One of the papers with these ids cites the other. -/
def Cited (content cites : List (List Str)) (a b : Int) : Prop :=
  ∃ p q, paperOf content a = some p ∧ paperOf content b = some q ∧
    ∃ row ∈ cites, (row[0]? = some p ∧ row[1]? = some q) ∨ (row[0]? = some q ∧ row[1]? = some p)

/-- Raw files that can be read: every paper has its name, `dim > 0` numbers and a label, names are different, citations give two papers,
which are known if that is required. -/
structure RawOk (num : Str → Option Str) (dim : Nat) (strict : Bool) (content cites : List (List Str)) : Prop where
  positive : 0 < dim
  rows : ∀ row ∈ content, row.length = dim + 2 ∧ ∀ x ∈ (row.drop 1).take dim, ∃ y, num x = some y ∧ ',' ∉ y
  papers : (content.map List.head?).Nodup
  links : ∀ row ∈ cites, 2 ≤ row.length ∧ (strict = true → ∀ x ∈ row.take 2, some x ∈ content.map List.head?)

/-- Labels are numbered in the order of their first use. -/
def labelNumber (content : List (List Str)) (row : List Str) : Nat :=
  ((content.map List.getLast?).eraseDups).idxOf row.getLast?

/-- Line `i` is given to partition `to[i]`. -/
def dealt {α : Type} (count : Nat) (to : List Nat) (l : List α) : List (List α) :=
  (List.range count).map fun p => ((l.zip to).filter fun x => x.2 = p).map (·.1)

/-- `EdgeListDecoder()`: no defaults, texts of numbers are kept as they are (`Encode` gives them a meaning). -/
def listConfig : Config Str := ⟨⟨none, none, []⟩, ⟨none, none, []⟩, ',', '/', '\\', none, none, false⟩

def listParse : Parse Str := ⟨some, fun _ => some⟩

/-- A graph served from an edge list: its lines are given to partitions in some way, converted, and all partitions are loaded. -/
def ServedFrom (E : Encode Str) (C : WeightCodec) (m : Meta) (lines : List Str) (g : Graph) : Prop :=
  ∃ (count : Nat) (to : List Nat) (recs : List (List (List Rec))), to.length = lines.length ∧ (∀ x ∈ to, x < count) ∧
    decodeParts listConfig listParse E (dealt count to lines) = some recs ∧ Built C none m recs g

/-- Neighbours of `n` in a list of undirected edges, a loop counts once. -/
def undirected (links : List (Int × Int)) (n : Int) : List Int :=
  links.flatMap fun e => (if e.1 = n then [e.2] else []) ++ (if e.2 = n ∧ e.1 ≠ e.2 then [e.1] else [])

/-- Raw files of proteins: nodes are numbered from 0 (in any order), `numbers` are the numbers of the nodes, `edges` the links between
numbers; every node has a label and features. -/
structure PpiOk (idMap : Int → Option Int) (feat label : Int → List Str) (nodes : List RawNode) (links : List (Int × Int)) (numbers : List Int)
    (edges : List (Int × Int)) : Prop where
  train : ∃ n ∈ nodes, n.test = false ∧ n.val = false
  nodes : nodes.map (fun n => idMap n.id) = numbers.map some
  nodup : numbers.Nodup
  range : ∀ i ∈ numbers, 0 ≤ i ∧ i < numbers.length
  small : numbers.length < 2 ^ 63
  links : links.map (fun e => (idMap e.1, idMap e.2)) = edges.map fun e => (some e.1, some e.2)
  known : ∀ e ∈ edges, e.1 ∈ numbers ∧ e.2 ∈ numbers
  values : ∀ i ∈ numbers, label i ≠ [] ∧ (∀ x ∈ label i, ',' ∉ x) ∧ feat i ≠ [] ∧ ∀ x ∈ feat i, ',' ∉ x

/-- Raw files of Reddit: `numbers` are the numbers of the nodes in the order of the file; the map has the nodes and no others; links
are between positions of nodes in the file; every node has a class below 50 and features, and one is for training. -/
structure RedditOk (idMap : List (Str × Int)) (classes : List (Str × Nat)) (feat : Int → List Str) (nodes : List RedditNode)
    (links : List (Nat × Nat)) (keep : List Bool) (numbers : List Int) : Prop where
  train : ∃ n ∈ nodes, n.test = false ∧ n.val = false
  classes : (classes.map (·.1)).Perm (nodes.map (·.name)) ∧ ∀ c ∈ classes, c.2 < 50
  nodes : nodes.map (fun n => idMap.lookup n.name) = numbers.map some
  values : (idMap.map (·.2)).Perm numbers
  nodup : numbers.Nodup
  range : ∀ i ∈ numbers, 0 ≤ i ∧ i < numbers.length
  small : numbers.length < 2 ^ 63
  keep : keep.length = links.length
  known : ∀ e ∈ links, e.1 < numbers.length ∧ e.2 < numbers.length
  features : ∀ i ∈ numbers, feat i ≠ [] ∧ ∀ x ∈ feat i, ',' ∉ x

/-- The links that are kept, between the numbers of the nodes they join. -/
def keptEdges (numbers : List Int) (links : List (Nat × Nat)) (keep : List Bool) : List (Int × Int) :=
  ((links.zip keep).filter (·.2)).map fun x => (numbers.getD x.1.1 0, numbers.getD x.1.2 0)

/-- The labels of a class. -/
def classLabel (c : Nat) : List Str := (List.range 50).map fun i => if i = c then ['1'] else ['0']

end DeepGNN.Spec
