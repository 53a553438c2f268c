import Verif.Model.Weighted
import Verif.Spec.Stream

/-
Finite grids of random draws for weighted sampling.
-/

namespace DeepGNN

/-- All draws are in `[0, 1)`. -/
def WDraws.Ok (D : WDraws) : Prop := ∀ i, (D.real i).1 < (D.real i).2


namespace Spec

/-- Total weight of the neighbours equal to `y`. -/
def nbrWeight (l : List Nbr) (y : Nbr) : Int := ((l.filter fun z => z = y).map (·.weight)).sum

/-- All lists of `k` draws below `M`. -/
def tuples (M : Nat) : Nat → List (List Nat)
  | 0 => [[]]
  | k + 1 => (List.range M).flatMap fun a => (tuples M k).map (a :: ·)

/-- The draws in the middle of `q` equal intervals. -/
def mids (q : Nat) : List (Nat × Nat) := (List.range q).map fun a => (2 * a + 1, 2 * q)

/-- The draws of a call given by its coins and two numbers. -/
def mkDraws (cs : List Nat) (u v : Nat × Nat) : WDraws :=
  { coin := fun i => cs.getD i 0, real := fun i => if i = 0 then u else v }

/-- All draws of a call: `K` coins below `M`, two numbers from the middle of `Q` intervals. -/
def callDraws (M K Q : Nat) : List WDraws :=
  (tuples M K).flatMap fun cs => (mids Q).flatMap fun u => (mids Q).map fun v => mkDraws cs u v

/-- All draws of `E` calls. -/
def callLists (M K Q : Nat) : Nat → List (List WDraws)
  | 0 => [[]]
  | E + 1 => (callDraws M K Q).flatMap fun D => (callLists M K Q E).map (D :: ·)

/-- The draws of successive calls given by a list. -/
def drawsOf (ds : List WDraws) : Nat → WDraws := fun i => ds.getD i (mkDraws [] (0, 1) (0, 1))

/-- The draws of a call given by its coins and the intervals, of `Q` equal ones, that its numbers are in the middle of. -/
def gridDraws (Q : Nat) (cs us : List Nat) : WDraws :=
  { coin := fun i => cs.getD i 0, real := fun i => (2 * us.getD i 0 + 1, 2 * Q) }

/-- All draws of a call: `K` coins below `M`, `R` numbers from the middle of `Q` intervals. -/
def gridCalls (M K Q R : Nat) : List WDraws :=
  (tuples M K).flatMap fun cs => (tuples Q R).map fun us => gridDraws Q cs us

/-- All lists of `n` elements of `L`. -/
def listsOf {α : Type} (L : List α) : Nat → List (List α)
  | 0 => [[]]
  | n + 1 => L.flatMap fun a => (listsOf L n).map (a :: ·)

/-- How often `y` is in the result of a call; 0 if the call fails. -/
def occurrences (y : Nbr) (result : Option (List Nbr × Nat)) : Nat := result.elim 0 fun z => z.1.count y

/-- Product of the weights. -/
def weightProduct (zs : List Nbr) : Int := zs.foldr (fun z p => z.weight * p) 1

/-- All records of node `n` follow each other in one partition, edges after the node record, if there is one. -/
def OneRun (parts : List (List (List Rec))) (n : Int) : Prop :=
  ∃ (before after : List (List (List Rec))) (calls : List (List Rec)) (xs : List Rec) (r : Rec) (ys zs : List Rec),
    parts = before ++ calls :: after ∧ calls.flatten = xs ++ r :: ys ++ zs ∧ r.src = n ∧
    (∀ q ∈ ys, q.src = n ∧ q.dst ≠ -1) ∧ ∀ q ∈ allRecords before ++ allRecords after ++ xs ++ zs, q.src ≠ n

end Spec
end DeepGNN
