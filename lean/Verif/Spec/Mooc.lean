import Verif.Model.Mooc
import Verif.Spec.Features

/-
What the records of a file of interactions should be.
-/

namespace DeepGNN.Spec

open DeepGNN.Mooc

/-- The times and values of the interactions of a user with an item. -/
def interactionsOf (rows : List Interaction) (user item : Nat) : List (Int × Bytes) :=
  (rows.filter fun r => r.user = user ∧ r.item = item).map fun r => ((r.time : Int), r.value)

/-- The pairs of users and items of a file. -/
def pairsOf (rows : List Interaction) : List (Nat × Nat) := (rows.map fun r => (r.user, r.item)).eraseDups

/-- The users of a file. -/
def usersOf (rows : List Interaction) : List Nat := (rows.map (·.user)).eraseDups

end DeepGNN.Spec
