/-
Loading the weights of a pretrained model
(src/python/deepgnn/pytorch/encoding/twinbert/deepspeed/nvidia_modeling_no_apex.py:793-845).
-/

namespace DeepGNN.Pretrained

abbrev Key := List Char

variable {V : Type}

/-- `pat in key`. -/
def contains (pat : Key) : Key → Bool
  | [] => pat.isEmpty
  | c :: cs => pat.isPrefixOf (c :: cs) || contains pat cs

/-- `key.replace(pat, new)` for a pattern that is not empty, with `fuel` the length of the key. -/
def replaceN (pat new : Key) : Nat → Key → Key
  | 0, s => s
  | _ + 1, [] => []
  | fuel + 1, c :: cs =>
    if pat.isPrefixOf (c :: cs) then new ++ replaceN pat new fuel ((c :: cs).drop pat.length)
    else c :: replaceN pat new fuel cs

/-- `key.replace(pat, new)`. -/
def replace (pat new key : Key) : Key := replaceN pat new key.length key

/-- The new name of a weight, if it has an old one (nvidia_modeling_no_apex.py:796-803). -/
def newKey (key : Key) : Option Key :=
  let a := if contains "gamma".toList key then some (replace "gamma".toList "weight".toList key) else none
  if contains "beta".toList key then some (replace "beta".toList "bias".toList key) else a

/-- `state_dict[n] = v`.  The order of the dictionary is not modelled. -/
def setKey (d : List (Key × V)) (n : Key) (v : V) : List (Key × V) := (n, v) :: d.filter fun e => e.1 ≠ n

/-- `for old_key, new_key in zip(old_keys, new_keys): state_dict[new_key] = state_dict.pop(old_key)`
(nvidia_modeling_no_apex.py:804-805).  `none`: KeyError. -/
def renameAll : List (Key × Key) → List (Key × V) → Option (List (Key × V))
  | [], d => some d
  | (o, n) :: ps, d =>
    match d.lookup o with
    | none => none
    | some v => renameAll ps (setKey (d.filter fun e => e.1 ≠ o) n v)

/-- The pairs of old and new names (nvidia_modeling_no_apex.py:793-803). -/
def oldNew (d : List (Key × V)) : List (Key × Key) := d.filterMap fun e => (newKey e.1).map fun n => (e.1, n)

/-- The prefix of the names in the dictionary (nvidia_modeling_no_apex.py:826-829). -/
def startPrefix (hasBert : Bool) (d : List (Key × V)) : Key :=
  if !hasBert && d.any (fun e => "bert.".toList.isPrefixOf e.1) then "bert.".toList else []

/-- `from_pretrained` from the dictionary on (nvidia_modeling_no_apex.py:793-845) for a model with the given parameters (full
name and initial value): its parameters afterwards and `missing_keys`.  `load` visits every parameter once;
`_load_from_state_dict` copies the value with its name if the shapes agree, otherwise there is an error message.
`none`: RuntimeError or KeyError. -/
def loadModel (shape : V → List Nat) (hasBert : Bool) (params : List (Key × V)) (sd : List (Key × V)) :
    Option (List (Key × V) × List Key) :=
  (renameAll (oldNew sd) sd).bind fun d =>
    let pre := startPrefix hasBert d
    if params.any (fun p => (d.lookup (pre ++ p.1)).any fun v => shape v ≠ shape p.2) then none
    else some (params.map fun p => (p.1, (d.lookup (pre ++ p.1)).getD p.2),
      (params.map fun p => pre ++ p.1).filter fun k => (d.lookup k).isNone)

end DeepGNN.Pretrained
