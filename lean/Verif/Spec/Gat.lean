import Verif.Model.Gat
import Verif.Spec.Sage
import Verif.Spec.SubGraph

/-
What GAT and GCN layers compute, node by node on the whole graph.
-/

namespace DeepGNN.Spec

open DeepGNN.Sage DeepGNN.Gat Arith Analysis

/-- `l` is the neighbourhood of a node: itself and its neighbours, each once and in increasing order. -/
def IsHood (parts : List (List (List Rec))) (types : List Int) (a : Int) (l : List Int) : Prop :=
  l.Pairwise (· < ·) ∧ ∀ b, b ∈ l ↔ b = a ∨ Edge parts types a b

/-- Every edge has a reverse. -/
def Symmetric (parts : List (List (List Rec))) (types : List Int) : Prop := ∀ a b, Edge parts types a b → Edge parts types b a

variable {α : Type} [Analysis α]

/-- Softmax, computed after taking away the greatest number. -/
def softmax : List α → List α
  | [] => []
  | x :: xs =>
    let m := xs.foldl Arith.max x
    let es := (x :: xs).map fun v => exp (sub v m)
    es.map fun e => div e (total es)

/-- A weighted sum of vectors of width `w`. -/
def weightedSum (w : Nat) (cs : List α) (xs : List (Vec α)) : Vec α :=
  (List.range w).map fun q => total (List.zipWith mul cs (xs.map (·.getD q zero)))

/-- An attention head for one node: from its own vector and those of its neighbourhood. -/
def attend (h : Head α) (self : Vec α) (hood : List (Vec α)) : Vec α :=
  let s := linear h.w self
  let ts := hood.map (linear h.w)
  let left := add (total (List.zipWith mul s h.left)) h.leftBias
  let cs := softmax (ts.map fun t => leaky (add left (add (total (List.zipWith mul t h.right)) h.rightBias)))
  (List.zipWith add (weightedSum h.w.length cs ts) h.bias).map elu

/-- The outputs of several heads side by side. -/
def sideBySide (heads : List (Head α)) (self : Vec α) (hood : List (Vec α)) : Vec α :=
  (heads.map fun h => attend h self hood).flatten

/-- The mean of the outputs of several heads. -/
def meanOfHeads : List (Head α) → Vec α → List (Vec α) → Vec α
  | [], _, _ => []
  | h :: hs, self, hood =>
    (hs.foldl (fun acc h' => List.zipWith add acc (attend h' self hood)) (attend h self hood)).map fun x => divNat x (hs.length + 1)

/-- GAT with two layers on the whole graph. -/
def gatEmbedding (input output : List (Head α)) (hood : Int → List Int) (feat : Int → Vec α) (a : Int) : Vec α :=
  let h1 := fun b => sideBySide input (feat b) ((hood b).map feat)
  meanOfHeads output (h1 a) ((hood a).map h1)

/-- The weights of a head fit: `w` numbers in, `d` numbers out. -/
def HeadFits (w d : Nat) (h : Head α) : Prop :=
  h.w.length = d ∧ (∀ col ∈ h.w, col.length = w) ∧ h.left.length = d ∧ h.right.length = d ∧ h.bias.length = d

/-- The factor of a node in the normalisation: its degree to the power -1/2, 0 for infinity. -/
def nodeFactor (hood : Int → List Int) (a : Int) : α :=
  let r : α := rsqrt (total ((hood a).map fun _ => one))
  if isInf r then zero else r

/-- A GCN layer on the whole graph. -/
def gcnRow (w : Mat α) (hood : Int → List Int) (x : Int → Vec α) (a : Int) : Vec α :=
  weightedSum w.length ((hood a).map fun b => mul (nodeFactor hood a) (nodeFactor hood b)) ((hood a).map fun b => linear w (x b))

/-- GCN with two layers on the whole graph. -/
def gcnEmbedding (w1 w2 : Mat α) (hood : Int → List Int) (feat : Int → Vec α) (a : Int) : Vec α :=
  gcnRow w2 hood (gcnRow w1 hood feat) a

end DeepGNN.Spec
