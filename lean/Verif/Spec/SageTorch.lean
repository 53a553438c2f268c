import Verif.Model.SageTorch
import Verif.Spec.Sage

/-
What one and two layers of the PyTorch encoder compute for a node.
-/

namespace DeepGNN.Spec

open DeepGNN.Sage Arith

variable {α : Type} [Arith α]

/-- One layer: own vector and mean of the neighbours side by side, the weights, the activation. -/
def torchRow (e : Enc α) (w : Nat) (self : Vec α) (neigh : List (Vec α)) : Vec α :=
  (linear e.weight (self ++ columnMeans w neigh)).map e.act

/-- The weights of an encoder take two vectors of `w` numbers. -/
def EncFits (e : Enc α) (w : Nat) : Prop := 0 < e.num ∧ ∀ col ∈ e.weight, col.length = 2 * w

/-- The neighbours drawn for a node when a list of different nodes was asked for. -/
def drawnFor (asked : List Int) (rows : List (List Int)) (i : Int) : List Int := rows.getD (asked.idxOf i) []

/-- The vector of a node after the first layer. -/
def oneLayer (e : Enc α) (w : Nat) (feat : Int → Vec α) (i : Int) (drawn : List Int) : Vec α := torchRow e w (feat i) (drawn.map feat)

/-- The vector of a node after two layers: `drawn` are its neighbours, which are used for its own first layer too; `below` gives the
neighbours drawn for each of them. -/
def twoLayers (e1 e2 : Enc α) (w : Nat) (feat : Int → Vec α) (below : Int → List Int) (i : Int) (drawn : List Int) : Vec α :=
  torchRow e2 e1.weight.length (oneLayer e1 w feat i drawn) (drawn.map fun j => oneLayer e1 w feat j (below j))

end DeepGNN.Spec
