import Verif.Spec.SubGraph

/-
Specification of random walks.
-/

namespace DeepGNN.Spec

/-- Consecutive entries of a row are related. -/
def Chain (R : Int → Int → Prop) : List Int → Prop
  | a :: b :: l => R a b ∧ Chain R (b :: l)
  | _ => True

/-- A row of a walk: `len + 1` entries, the start first, and every step satisfies `R` or yields the default node. -/
def WalkRow (R : Int → Int → Prop) (default : Int) (len : Nat) (start : Int) (row : List Int) : Prop :=
  row.length = len + 1 ∧ row.head? = some start ∧ Chain (fun a b => R a b ∨ b = default) row

/-- Total weight of the edges from `a` to `b` of the types. -/
def edgeWeight (parts : List (List (List Rec))) (types : List Int) (a b : Int) : Int :=
  (((neighbors parts a types).filter fun x => x.dst = b).map (·.weight)).sum

instance (parts : List (List (List Rec))) (types : List Int) (a b : Int) : Decidable (Edge parts types a b) := by
  unfold Edge; infer_instance

/-- Transition weights of node2vec (Grover and Leskovec 2016): having come from `past` to `curr`, the weight of the edge to `next` is
divided by `p` for a step back, taken as it is if `next` is a neighbour of `past`, and divided by `q` otherwise. -/
def node2vec (parts : List (List (List Rec))) (types : List Int) (p q : Rat) (past curr next : Int) : Rat :=
  if next = past then (edgeWeight parts types curr next : Rat) / p
  else if Edge parts types past next then (edgeWeight parts types curr next : Rat)
  else (edgeWeight parts types curr next : Rat) / q

/-- A choice made by a random number in (0, 1] gives each value a share in proportion to its weight: the interval is cut into consecutive
pieces, each labelled with the value chosen on it, and the pieces of a value have in total a length in proportion to its weight. -/
def Proportional (choice : Rat → Int) (weight : Int → Rat) : Prop :=
  ∃ (pieces : List (Int × Rat)) (scale : Rat), 0 < scale ∧ (∀ x ∈ pieces, 0 < x.2) ∧
    (∀ c, ((pieces.filter fun x => x.1 = c).map (·.2)).sum = scale * weight c) ∧
    ∀ u, 0 < u → u ≤ 1 → ∃ (l r : List (Int × Rat)) (c : Int) (w : Rat), pieces = l ++ (c, w) :: r ∧ choice u = c ∧
      (l.map (·.2)).sum < u * (pieces.map (·.2)).sum ∧ u * (pieces.map (·.2)).sum ≤ (l.map (·.2)).sum + w

end DeepGNN.Spec
