import Verif.Model.PaddedText

/-
Specification of the encoding of a text with a mask.
-/

namespace DeepGNN.Padded.Spec
open Padded (Layer)

variable {T : Type}

/-- The exponential underflows: it is zero `u` below the largest score. -/
def Underflows (e : Int → Int) (u : Int) : Prop := 0 ≤ u ∧ ∀ x, x ≤ -u → e x = 0

/-- All scores of a query lie in a range shorter than the mask by `u`. -/
def Separated (u k : Int) (score : T → Int) : Prop := ∀ y z, score y - k ≤ score z - u

/-- The same for all heads, layers and queries. -/
def LayersSeparated (u k : Int) (layers : List (Layer T)) : Prop :=
  ∀ l ∈ layers, ∀ h ∈ l.heads, ∀ x, Separated u k (h.score x)

/-- The words of a text: what is not masked, with its position in it. -/
def words (toks : List (T × Bool)) : List T := toks.filterMap fun t => if t.2 then some t.1 else none

/-- A text with all words masked, or none. -/
def allMasked (toks : List T) (m : Bool) : List (T × Bool) := toks.map fun t => (t, m)

end DeepGNN.Padded.Spec
