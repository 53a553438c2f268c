import Verif.Model.Args
import Verif.Spec.EdgeList

/-
How values are written on the command line.
-/

namespace DeepGNN.Spec

open DeepGNN.EdgeList

/-- A list of integers, separated by commas. -/
def commaText (l : List Int) : Str := joinFields ',' (l.map intText)

/-- Lists of integers, separated by semicolons. -/
def groupsText (l : List (List Int)) : Str := joinFields ';' (l.map commaText)

/-- Lists of texts, separated by semicolons. -/
def namesText (l : List (List Str)) : Str := joinFields ';' (l.map (joinFields ','))

/-- A text is a spelling of a word in lower and upper case. -/
def Spelling (word : Str) (s : Str) : Prop := s.length = word.length ∧ ∀ i : Nat, ∀ c w, s[i]? = some c → word[i]? = some w → c = w ∨ c = w.toUpper

/-- The words for yes and no. -/
def yesWords : List Str := ["yes".toList, "true".toList, "t".toList, "y".toList, "1".toList]
def noWords : List Str := ["no".toList, "false".toList, "f".toList, "n".toList, "0".toList]

end DeepGNN.Spec
