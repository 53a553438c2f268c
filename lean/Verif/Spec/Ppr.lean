import Verif.Spec.SubGraph

/-
Specification of approximate personalized PageRank.
-/

namespace DeepGNN.Spec

/-- Sum of the scores. -/
def mass (p : List (Int × Rat)) : Rat := (p.map (·.2)).foldr (· + ·) 0

/-- The score of a node; a node without an entry has score 0. -/
def score (p : List (Int × Rat)) (u : Int) : Rat := mass (p.filter (·.1 = u))

/-- What `u` gets if every node spreads its score evenly over its outgoing edges; `N v` are the ends of the edges of `v`. -/
def received (N : Int → List Int) (p : List (Int × Rat)) (u : Int) : Rat :=
  mass (p.map fun x => (u, x.2 * ((N x.1).count u : Nat) / ((N x.1).length : Nat)))

/-- `p` are scores for the walk that returns to `s` with probability `alpha` and follows an edge otherwise, where node `u` misses
less than `alpha * eps` per outgoing edge: one entry per node, no negative score, and the equation of PageRank up to `r`. -/
def ApproxPageRank (N : Int → List Int) (s : Int) (alpha eps : Rat) (p : List (Int × Rat)) : Prop :=
  (p.map (·.1)).Nodup ∧ (∀ x ∈ p, 0 ≤ x.2) ∧
  ∃ r : Int → Rat, ∀ u, (r u = 0 ∨ (0 < r u ∧ r u < alpha * eps * ((N u).length : Nat))) ∧
    score p u + r u = (if u = s then alpha else 0) + (1 - alpha) * received N p u

/-- `row` are the `count` best entries of `p`, worst first, and then `default`. -/
def BestRow (count : Nat) (default : Int × Rat) (p row : List (Int × Rat)) : Prop :=
  ∃ chosen rest, (chosen ++ rest).Perm p ∧ chosen.length = min count p.length ∧ (∀ c ∈ chosen, ∀ x ∈ rest, x.2 ≤ c.2) ∧
    chosen.Pairwise (fun a b => a.2 ≤ b.2) ∧ row = chosen ++ List.replicate (count - p.length) default

end DeepGNN.Spec
