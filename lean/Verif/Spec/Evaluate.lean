import Verif.Model.Evaluate
import Verif.Spec.Metrics

/-
The quality of a model on a set of nodes.
-/

namespace DeepGNN.Spec

open DeepGNN.Evaluate

/-- `i` is the position of the greatest number of the row, the first one if there are several. -/
def FirstGreatest (row : List Rat) (i : Nat) : Prop :=
  ∃ x, row[i]? = some x ∧ (∀ y ∈ row, y ≤ x) ∧ ∀ j y, j < i → row[j]? = some y → y < x

/-- `hit n` says whether the class predicted for a node is its class. -/
def Hits (hit : Node → Bool) (nodes : List Node) : Prop :=
  ∀ n ∈ nodes, ∀ i j, FirstGreatest n.scores i → FirstGreatest n.labels j → (hit n = true ↔ i = j)

/-- The part of the nodes that are classified correctly. -/
def hitRate (hit : Node → Bool) (nodes : List Node) : Rat := (nodes.countP hit : Nat) / (nodes.length : Rat)

/-- The mean loss of nodes: `loss` is that of one node. -/
def meanLoss (loss : Node → Rat) (nodes : List Node) : Rat := average (nodes.map loss)

/-- `loss` is the loss of a node for its class. -/
def Losses (nll : List Rat → Nat → Rat) (loss : Node → Rat) (nodes : List Node) : Prop :=
  ∀ n ∈ nodes, ∀ j, FirstGreatest n.labels j → loss n = nll n.scores j

/-- Batches of nodes with `c` scores and labels each. -/
def Batches (c : Nat) (batches : List (List Node)) : Prop := ∀ b ∈ batches, ∀ n ∈ b, n.scores.length = c ∧ n.labels.length = c

end DeepGNN.Spec
