import Verif.Model.EdgeList

/-
Values of command line arguments: src/python/deepgnn/arg_types.py and the command line of the graph server
(src/python/deepgnn/graph_engine/snark/server.py:168-245).

Texts are lists of characters; `none` is an exception.  Integers are parsed as in `Model/EdgeList.lean` (Python also accepts blanks, a
plus sign and underscores), lower case is that of ASCII.
-/

namespace DeepGNN.Args

open DeepGNN.EdgeList

/-- What a conversion gets: a text from the command line, or a value that is converted already. -/
inductive Arg (β : Type) where
  | text (s : Str)
  | value (v : β)

/-- `str2bool` (arg_types.py:23-41). -/
def str2bool : Arg Bool → Option Bool
  | .value b => some b
  | .text s =>
    let v := s.map Char.toLower
    if v ∈ [['y', 'e', 's'], ['t', 'r', 'u', 'e'], ['t'], ['y'], ['1']] then some true
    else if v ∈ [['n', 'o'], ['f', 'a', 'l', 's', 'e'], ['f'], ['n'], ['0']] then some false
    else none

/-- `str2list_int` (arg_types.py:45-56, server.py:178-183). -/
def str2listInt : Arg (List Int) → Option (List Int)
  | .value l => some l
  | .text s => if s = [] then some [] else (split ',' s).mapM parseInt

/-- `str2list2_int` (arg_types.py:60-73). -/
def str2list2Int : Arg (List (List Int)) → Option (List (List Int))
  | .value l => some l
  | .text s => ((split ';' s).filter fun y => y ≠ []).mapM fun y => (split ',' y).mapM parseInt

/-- `str2list2` (arg_types.py:77-90). -/
def str2list2 : Arg (List (List Str)) → List (List Str)
  | .value l => l
  | .text s => ((split ';' s).filter fun y => y ≠ []).map fun y => split ',' y

/-- `str2list_str` (arg_types.py:94-96): a list has no `split`. -/
def str2listStr : Arg (List Str) → Option (List Str)
  | .value _ => none
  | .text s => some (split ',' s)

/-- `separator.join(texts)`. -/
def join (d : Char) : List Str → Str
  | [] => []
  | t :: ts => ts.foldl (fun acc u => acc ++ d :: u) t

/-- An array of one or two dimensions, of the texts of its elements; other shapes. -/
inductive Array where
  | one (v : List Str)
  | two (rows : List (List Str))
  | other

/-- `vec2str` (arg_types.py:7-20). -/
def vec2str : Array → Option Str
  | .two rows => some (join ',' (rows.map (join ' ')))
  | .one v => some (join ' ' v)
  | .other => none

/-- `range(start, stop, step)`; a step of zero is an error. -/
def range (start stop step : Int) : Option (List Int) :=
  if step = 0 then none
  else if 0 < step then some ((List.range ((stop - start + step - 1) / step).toNat).map fun (k : Nat) => start + k * step)
  else some ((List.range ((start - stop + -step - 1) / -step).toNat).map fun (k : Nat) => start + k * step)

/-- The partitions a server loads, from the texts of `--partitions` and `--server_group` of which exactly one is given
(server.py:191-203, 238-249). -/
def partitions (parts group : Option Str) : Option (List Int) :=
  match parts, group with
  | some p, none => str2listInt (.text p)
  | none, some g => (str2listInt (.text g)).bind fun l =>
    match l with
    | [a, b, c] => range a c b
    | _ => none
  | _, _ => none

end DeepGNN.Args
