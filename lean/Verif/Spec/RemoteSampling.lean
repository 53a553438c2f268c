import Verif.Model.RemoteSampling
import Verif.Spec.Remote
import Verif.Spec.Sampling

/-
Answers of servers to sampling requests.
-/

namespace DeepGNN.Spec

/-- Answers of one server to a request for `nodes`: position by position, nothing if it does not know the node. -/
structure Answers {α : Type} (nodes : List Int) (as : List (Option α)) : Prop where
  length : as.length = nodes.length
  /-- A server knows a node or not, wherever the node occurs in the request. -/
  known : ∀ x ∈ nodes.zip as, ∀ y ∈ nodes.zip as, x.1 = y.1 → x.2.isSome = y.2.isSome

/-- The known nodes, in the order of the request, with the answers. -/
def knownNodes {α : Type} (nodes : List Int) (as : List (Option α)) : List (Int × α) :=
  (nodes.zip as).filterMap fun x => x.2.map fun a => (x.1, a)

/-- The reply of a server: `as` are the numbers of neighbours and the sampled neighbours. -/
def uReply {α : Type} (nodes : List Int) (as : List (Option (Nat × List α))) : UReply α :=
  { nodes := (knownNodes nodes as).map (·.1), counts := (knownNodes nodes as).map (·.2.1),
    nbrs := (knownNodes nodes as).flatMap (·.2.2) }

/-- The reply of a server: `as` are the total weights and the sampled neighbours. -/
def wReply {α : Type} (nodes : List Int) (as : List (Option (Int × List α))) : WReply α :=
  { nodes := (knownNodes nodes as).map fun x => (x.1, x.2.1), nbrs := (knownNodes nodes as).flatMap (·.2.2) }

/-- The answers of all servers for position `p`. -/
def answersAt {α : Type} (servers : List (List (Option α))) (p : Nat) : List α :=
  servers.filterMap fun as => as[p]?.join

end DeepGNN.Spec

namespace DeepGNN.Spec

/-- Sum of the weights in the answers for a node. -/
def totalWeight {α : Type} (answers : List (Int × List α)) : Int := (answers.map (·.1)).sum

/-- A row of weighted samples merged from the answers for its node: what was there before if no server knows the node,
defaults if the neighbours have no weight, else neighbours from the answers; if `nonzero` from the answers with weight. -/
structure MergedRow {α : Type} (nonzero : Prop) (count : Nat) (default : α) (before : List α) (answers : List (Int × List α))
    (row : List α) : Prop where
  length : row.length = count
  unknown : answers = [] → row = before
  zero : answers ≠ [] → totalWeight answers = 0 → row = List.replicate count default
  sampled : 0 < totalWeight answers → ∀ x ∈ row, ∃ a ∈ answers, x ∈ a.2
  weighted : nonzero → 0 < totalWeight answers → ∀ x ∈ row, ∃ a ∈ answers, 0 < a.1 ∧ x ∈ a.2

end DeepGNN.Spec
