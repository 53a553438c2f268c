import Verif.Spec.Stream

/-
Specification of k-hop neighbourhoods.
-/

namespace DeepGNN.Spec

/-- There is an edge from `a` to `b` of one of the types. -/
def Edge (parts : List (List (List Rec))) (types : List Int) (a b : Int) : Prop :=
  ∃ r ∈ edgeRecords parts, r.src = a ∧ r.dst = b ∧ r.typ ∈ types

/-- There is a path of exactly `k` edges from `a` to `b`. -/
inductive Path (parts : List (List (List Rec))) (types : List Int) : Nat → Int → Int → Prop where
  | nil (a : Int) : Path parts types 0 a a
  | cons {k : Nat} {a b c : Int} : Edge parts types a b → Path parts types k b c → Path parts types (k + 1) a c

/-- `n` is at most `k` edges away from a seed. -/
def Within (parts : List (List (List Rec))) (types : List Int) (seeds : List Int) (k : Nat) (n : Int) : Prop :=
  ∃ s ∈ seeds, ∃ j, j ≤ k ∧ Path parts types j s n

/-- The subgraph has the edge from `a` to `b`: an edge of the graph that leaves a node at most `k` edges away from a seed. -/
def SubEdge (parts : List (List (List Rec))) (types : List Int) (seeds : List Int) (k : Nat) (a b : Int) : Prop :=
  Within parts types seeds k a ∧ Edge parts types a b

end DeepGNN.Spec
