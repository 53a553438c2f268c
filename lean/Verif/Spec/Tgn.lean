import Verif.Model.Tgn
import Verif.Spec.Recent

/-! Specification of the TGN example. -/

namespace DeepGNN.Spec

open DeepGNN.Tgn

/-- Two graphs have the same interactions up to time `T`, in the same order. -/
def SameUntil (T : Int) (parts parts' : List (List (List Rec))) : Prop :=
  (allTimedEdges parts).filter (fun e => e.created ≤ T) = (allTimedEdges parts').filter (fun e => e.created ≤ T)

/-- Two graphs return the same features of edges for all times up to `T`. -/
def SameFeaturesUntil (T : Int) (dim : Nat) (g g' : Graph) : Prop :=
  ∀ (s d t : Int), t ≤ T →
    g.edgeFeature [⟨s, d, 0⟩] (some [t]) [(0, dim)] = g'.edgeFeature [⟨s, d, 0⟩] (some [t]) [(0, dim)]

/-- Rows in the order of time. -/
def InTime (rows : List Row) : Prop := rows.Pairwise fun a b => a.time ≤ b.time

/-- No source of a batch is one of its destinations or negatives. -/
def Bipartite (b : List Row × List Int) : Prop :=
  ∀ r ∈ b.1, (∀ q ∈ b.1, r.src ≠ q.dst) ∧ r.src ∉ b.2

/-- The embedding of a node from the interactions found for it. -/
def embedding {S Z P : Type} (L : Learner S Z P) (s : S) (fs : List (Interaction × Bytes)) (n : Int) : Z :=
  L.embed s n ((fs.filter fun x => x.1.node = n).map fun x => (x.1.nbr, x.1.time, x.2))

/-- Time of the first row of a source. -/
def firstTime (rows : List Row) (n : Int) : Option Int := (rows.find? fun r => r.src = n).map (·.time)

/-- Creation times are not negative and no edge is removed at time 0. -/
def ValidTimes (parts : List (List (List Rec))) : Prop :=
  (∀ r ∈ allRecords parts, ∀ c, r.created = some c → 0 ≤ c) ∧ ∀ r ∈ allRecords parts, r.removed ≠ some 0

end DeepGNN.Spec
