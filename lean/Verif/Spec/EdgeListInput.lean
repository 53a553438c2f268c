import Verif.Model.EdgeListInput
import Verif.Spec.EdgeList
import Verif.Spec.Accept

/-
What an edge list describes.
-/

namespace DeepGNN.Spec

open EdgeList

/-- Bytes stored for a feature; a sparse one starts with the number of coordinates and the dimension. -/
def FeatureText.stored {V : Type} (E : Encode V) : FeatureText V → Option Bytes
  | .missing _ => none
  | .dense k vs => some (vs.flatMap (E.number k))
  | .sparse k dim cs vs => some (cU32 cs.length ++ cU32 (max dim 1) ++ cs.flatMap (fun x => leBytes 8 (x % 2 ^ 64).toNat) ++ vs.flatMap (E.number k))
  | .text s => some (E.utf8 s)

/-- Ids, types and times of a line are in range, edges have no negative creation time. -/
def LineFits {V : Type} (r : Described V) : Prop :=
  (0 ≤ r.src ∧ r.src < 2 ^ 63) ∧ (r.dst = -1 ∨ (0 ≤ r.dst ∧ r.dst < 2 ^ 63)) ∧ (0 ≤ r.typ ∧ r.typ < 2 ^ 31) ∧ TimeFits r.created ∧ TimeFits r.removed ∧
  ∀ c, r.created = some c → 0 ≤ c

/-- Edges of a node come in order of their types. -/
def TypesSorted {V : Type} (file : List (Described V)) : Prop :=
  file.Pairwise fun a b => a.dst ≠ -1 → b.dst ≠ -1 → a.src = b.src → a.typ ≤ b.typ

/-- The file is distributed over workers, keeping the order. -/
def Distributes {V : Type} (file : List (Described V)) (parts : List (List (Described V))) : Prop :=
  parts.flatten.Perm file ∧ ∀ p ∈ parts, p.Sublist file

/-- An edge of the file with its lifetime. -/
def listTimed {V : Type} (E : Encode V) (r : Described V) : TimedEdge :=
  ⟨r.src, r.dst, r.typ, E.weight r.weight, r.created.getD 0, removalTime none r.removed⟩

/-- All edges of the file. -/
def listEdges {V : Type} (E : Encode V) (file : List (Described V)) : List TimedEdge := (file.filter fun r => r.dst ≠ -1).map (listTimed E)

/-- Neighbours of `n` over the requested types. -/
def listNeighbors {V : Type} (E : Encode V) (file : List (Described V)) (n : Int) (types : List Int) : List Nbr :=
  ((listEdges E file).filter fun e => e.src = n ∧ e.typ ∈ types).map fun e => ⟨e.dst, e.typ, e.weight⟩

/-- Neighbours of `n` at time `t`. -/
def listNeighborsAt {V : Type} (E : Encode V) (file : List (Described V)) (n t : Int) (types : List Int) : List Nbr :=
  ((listEdges E file).filter fun e => e.src = n ∧ e.typ ∈ types ∧ e.aliveAt t).map fun e => ⟨e.dst, e.typ, e.weight⟩

end DeepGNN.Spec
