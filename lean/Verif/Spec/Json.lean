import Verif.Model.Json
import Verif.Spec.Accept

/-
What a graph in JSON lines describes.
-/

namespace DeepGNN.Spec

open Json

/-- `b` are the bytes stored for a value: numbers one after another, a text as it is, a history and a sparse value in the formats whose
decoding is the subject of C10 and C12. -/
inductive Encodes : Kind → Value → Option Bytes → Prop where
  | numbers (vs : List Bytes) : vs ≠ [] → Encodes .dense (.numbers vs) (some vs.flatten)
  | history (h : List (Int × List Bytes)) : h ≠ [] →
      Encodes .dense (.history h) (some (serializeTemporal (h.map fun y => (y.1, y.2.flatten))))
  | text (b : Bytes) : Encodes .binary (.text b) (some b)
  | sparse (c : Coords) (vs : List Bytes) (b : Option Bytes) : convertFeature (.sparse c vs) = some b → Encodes .sparse (.sparse c vs) b

/-- Everything given for feature `i`, in order. -/
def givenFor (fs : Features) (i : Int) : List (Kind × Value) :=
  fs.flatMap fun g => (g.2.filter fun x => x.1 = i).map fun x => (g.1, x.2)

/-- Indices are not negative and values can be stored. -/
def FeaturesValid (fs : Features) : Prop := ∀ g ∈ fs, ∀ x ∈ g.2, 0 ≤ x.1 ∧ ∃ b, Encodes g.1 x.2 b

/-- The stored features: for every index what was given last, nothing if nothing was given. -/
def StoresFeatures (fs : Features) (out : List (Option Bytes)) : Prop :=
  ∀ i : Nat, match (givenFor fs i).getLast? with
    | none => (out.getD i none) = none
    | some (k, v) => ∃ b, out[i]? = some b ∧ Encodes k v b

/-- Lifetime of a node. -/
def nodeLife (n : Node) : Int × Option Int := (n.created.getD 0, removalTime none n.removed)

/-- An edge of a line with its lifetime: the node's, unless given. -/
def jsonTimed (n : Node) (e : Json.Edge) : TimedEdge :=
  ⟨e.src, e.dst, e.typ, e.weight, e.created.getD (nodeLife n).1, removalTime (nodeLife n).2 e.removed⟩

/-- All edges of all lines with their lifetimes. -/
def jsonTimedEdges (parts : List (List Node)) : List TimedEdge := parts.flatten.flatMap fun n => n.edges.map (jsonTimed n)

/-- Neighbours of `n` over the requested types. -/
def jsonNeighbors (parts : List (List Node)) (n : Int) (types : List Int) : List Nbr :=
  ((jsonTimedEdges parts).filter fun e => e.src = n ∧ e.typ ∈ types).map fun e => ⟨e.dst, e.typ, e.weight⟩

/-- Neighbours of `n` at time `t`. -/
def jsonNeighborsAt (parts : List (List Node)) (n t : Int) (types : List Int) : List Nbr :=
  ((jsonTimedEdges parts).filter fun e => e.src = n ∧ e.typ ∈ types ∧ e.aliveAt t).map fun e => ⟨e.dst, e.typ, e.weight⟩

/-- Order of the edges of a line: type, creation, removal, destination. Times that are not given count as 0. -/
def EdgeBefore (a b : Json.Edge) : Prop :=
  a.typ < b.typ ∨ (a.typ = b.typ ∧ (a.created.getD 0 < b.created.getD 0 ∨ (a.created.getD 0 = b.created.getD 0 ∧
    (removalLe (removalTime (some 0) a.removed) (removalTime (some 0) b.removed) ∧
      (removalTime (some 0) a.removed = removalTime (some 0) b.removed → a.dst ≤ b.dst)))))

/-- Ids, types, times and features of a line are in range, edges live while their node lives. -/
structure JsonValid (n : Node) : Prop where
  id : 0 ≤ n.id ∧ n.id < 2 ^ 63
  typ : 0 ≤ n.typ ∧ n.typ < 2 ^ 31
  created : TimeFits n.created
  removed : TimeFits n.removed
  features : FeaturesValid n.features
  edges : ∀ e ∈ n.edges, (0 ≤ e.src ∧ e.src < 2 ^ 63) ∧ (0 ≤ e.dst ∧ e.dst < 2 ^ 63) ∧ (0 ≤ e.typ ∧ e.typ < 2 ^ 31) ∧
    TimeFits e.created ∧ TimeFits e.removed ∧ FeaturesValid e.features
  lifetimes : ∀ e ∈ n.edges, (nodeLife n).1 ≤ (jsonTimed n e).created ∧ removalLe (jsonTimed n e).removed (nodeLife n).2

end DeepGNN.Spec
