import Verif.Model.Encoders
import Verif.Spec.Han

/-
What the neighbourhood encoders of PyTorch compute for one node.
-/

namespace DeepGNN.Spec

open DeepGNN.Sage DeepGNN.Gat DeepGNN.Encoders Arith Analysis

section
variable {α : Type}

/-- `top` are the `k` greatest of the values, in descending order. -/
def IsTop (le : α → α → Bool) (k : Nat) (values top : List α) : Prop :=
  top.length = k ∧ top.Pairwise (fun a b => le b a) ∧ ∃ rest, (top ++ rest).Perm values ∧ ∀ t ∈ top, ∀ r ∈ rest, le r t

/-- Numbers are ordered linearly. -/
structure Linear (le : α → α → Bool) : Prop where
  total : ∀ a b, le a b ∨ le b a
  trans : ∀ a b c, le a b → le b c → le a c
  antisymm : ∀ a b, le a b → le b a → a = b

end

section
variable {α : Type} [Analysis α]

/-- LightGCN for one node: half of the sum of its features and the mean of those of its neighbours. -/
def lightGcnVector (w : Nat) (x : Vec α) (neigh : Mat α) : Vec α :=
  List.zipWith (fun a b => divNat (add a b) 2) x (columnMeans w neigh)

/-- A linear layer with bias. -/
def affine (m : Mat α × Vec α) (x : Vec α) : Vec α := List.zipWith add (linear m.1 x) m.2

/-- LGCL for one node with features `x` and the greatest `k` numbers of its neighbours for every feature: two convolutions along
the sequence of `k + 1` numbers, the second one over all that is left. -/
def lgclVector (act : α → α) (c : Conv α × Conv α) (k : Nat) (x : Vec α) (tops : Mat α) : Vec α :=
  let sequences := List.zipWith (· :: ·) x tops
  let middle := List.zipWith (fun m b => (List.range (k / 2 + 1)).map fun t =>
    act (add (total (List.zipWith mul m.flatten (sequences.map fun s => (s.drop t).take ((k + 1) / 2 + 1)).flatten)) b)) c.1.w c.1.b
  List.zipWith (fun m b => act (add (total (List.zipWith mul m.flatten middle.flatten)) b)) c.2.w c.2.b

/-- Convolutions made for `w` features, `k` neighbours and `h` outputs. -/
structure ConvFits (w k h : Nat) (c : Conv α × Conv α) : Prop where
  kernel1 : c.1.kernel = (kernels k).1
  kernel2 : c.2.kernel = (kernels k).2
  middle : c.1.w.length = (w + h) / 2
  bias1 : c.1.b.length = c.1.w.length
  inputs : ∀ m ∈ c.1.w, m.length = w
  outputs : c.2.w.length = h
  bias2 : c.2.b.length = h
  inner : ∀ m ∈ c.2.w, m.length = (w + h) / 2

/-- A linear layer with bias from `w` to `h` numbers. -/
def AffineFits (w h : Nat) (m : Mat α × Vec α) : Prop := m.1.length = h ∧ m.2.length = h ∧ ∀ col ∈ m.1, col.length = w

/-- The rest of LGCL for one node, `v` is the result of the convolutions. -/
def lgclOutput (e : Lgcl α) (w h : Nat) (x v : Vec α) : Vec α :=
  match e.residual with
  | .add => List.zipWith add v (if w = h then x else affine (e.res 0) x)
  | .concat => (affine e.out (v ++ x)).map (e.acts 0)

/-- HetGNN for one node with features `x` and an embedding for each kind of neighbours: the average of these embeddings and of its
own, by attention. -/
def hetVector (e : Het α) (x : Vec α) (kinds : List (Vec α)) : Vec α :=
  let own := if x.length = e.outDim then x else (affine e.node x).map e.act
  let rows := kinds ++ [own]
  let cs := softmax (rows.map fun v => leaky (add (total (List.zipWith mul (own ++ v) e.att)) e.attBias))
  weightedSum e.outDim cs rows

end

end DeepGNN.Spec
