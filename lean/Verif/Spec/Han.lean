import Verif.Model.Han
import Verif.Spec.Gat

/-
What attention encoders compute for one node.
-/

namespace DeepGNN.Spec

open DeepGNN.Sage DeepGNN.Gat DeepGNN.Han Arith Analysis

/-- `x` is reached from `n` in as many steps as there are sets of types; `R types a b`: `b` may be drawn for `a` over `types`. -/
def ReachedBy (R : List Int → Int → Int → Prop) : List (List Int) → Int → Int → Prop
  | [], n, x => x = n
  | types :: rest, n, x => ∃ y, R types n y ∧ ReachedBy R rest y x

/-- A sampler that answers with one row of `c` nodes for every node, all drawn for it. -/
def DrawsFrom (R : List Int → Int → Int → Prop) (sample : Nat → List Int → List Int → Nat → Option (List (List Int))) : Prop :=
  ∀ k nodes types c, ∃ rows, sample k nodes types c = some rows ∧ rows.length = nodes.length ∧
    ∀ (j : Nat) (n : Int) (row : List Int), nodes[j]? = some n → rows[j]? = some row → row.length = c ∧ ∀ x ∈ row, R types n x

/-- The product of a list of numbers. -/
def product : List Nat → Nat
  | [] => 1
  | n :: l => n * product l

variable {α : Type} [Analysis α]

/-- The weight of a vector before the softmax: `u · tanh (x w + b)`. -/
def semanticScore (s : Semantic α) (x : Vec α) : α := total (List.zipWith mul ((List.zipWith add (linear s.w x) s.b).map s.tanh) s.u)

/-- The vectors of a node for each of its metapaths, averaged with the softmax of their scores. -/
def semanticAverage (s : Semantic α) (w : Nat) (rows : List (Vec α)) : Vec α :=
  let alphas := softmax (rows.map (semanticScore s))
  (List.range w).map fun q => total (List.zipWith mul (rows.map (·.getD q zero)) alphas)

/-- The weights fit vectors of width `w`. -/
def SemanticFits (w : Nat) (s : Semantic α) : Prop := (∀ col ∈ s.w, col.length = w) ∧ s.b.length = s.w.length ∧ s.u.length = s.w.length

/-- HAN for one node with features `x`: for every metapath its heads attend to the node itself and to the neighbours reached by it. -/
def hanVector (heads : List (Head α)) (s : Semantic α) (w : Nat) (x : Vec α) (hoods : List (List (Vec α))) : Vec α :=
  semanticAverage s w (hoods.map fun hood => sideBySide heads x (x :: hood))

/-- Two layers of attention among a node and its neighbours. -/
def attVector (hidden output : List (Head α)) (x : Vec α) (hood : List (Vec α)) : Vec α :=
  let h1 := fun v => sideBySide hidden v (x :: hood)
  meanOfHeads output (h1 x) ((x :: hood).map h1)

/-- Parameters that fit: `m` metapaths, one layer of `k` heads with `w` outputs each, and weights of the right size. -/
structure HanFits (p : Params) (m k w : Nat) (mk : Nat → Nat → Nat → Head α) (s : Semantic α) : Prop where
  hops : p.nbNum ≠ []
  positive : ∀ c ∈ p.nbNum, 0 < c
  metapaths : p.edgeTypes.length / p.nbNum.length = m
  some_metapath : 0 < m
  heads : p.headNum = [k]
  dims : p.hiddenDim = [w]
  some_head : 0 < k
  some_dim : 0 < w
  features : 0 < p.featureDim
  weights : ∀ i j, HeadFits p.featureDim w (mk i 0 j)
  semantic : SemanticFits (w * k) s

/-- The types of the hops of metapath `i`. -/
def metapathTypes (p : Params) (i : Nat) : List (List Int) := (p.edgeTypes.drop (i * p.nbNum.length)).take p.nbNum.length

/-- Functions of rational numbers in place of those of real numbers; of the exponential function only the sign is known. -/
class RealFuns where
  exp : Rat → Rat
  leaky : Rat → Rat
  elu : Rat → Rat
  rsqrt : Rat → Rat
  exp_pos : ∀ x, 0 < exp x

/-- Exact arithmetic. -/
instance ratAnalysis [F : RealFuns] : Analysis Rat where
  zero := 0
  add := (· + ·)
  mul := (· * ·)
  max a b := if a ≤ b then b else a
  divNat a n := a / n
  isZero := (· == 0)
  one := 1
  sub := (· - ·)
  div := (· / ·)
  exp := F.exp
  leaky := F.leaky
  elu := F.elu
  rsqrt := F.rsqrt
  isInf _ := false

end DeepGNN.Spec
