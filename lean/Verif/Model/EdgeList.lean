/-
The edge list decoder (src/python/deepgnn/graph_engine/snark/decoders.py:188-296).  Texts are lists of characters.
Simplifications: the three delimiters are single characters; integers are decimal digits after an optional minus sign (Python also
accepts blanks, a plus sign and underscores); negative lengths are errors (numpy would read all remaining values).
-/

namespace DeepGNN.EdgeList

abbrev Str := List Char

/-- `str.split(delimiter)` (decoders.py:249, 293). -/
def split (d : Char) : Str → List Str
  | [] => [[]]
  | c :: cs =>
    if c = d then [] :: split d cs
    else match split d cs with
      | [] => [[c]]
      | t :: ts => (c :: t) :: ts

/-- `str.strip()` (decoders.py:286). -/
def strip (s : Str) : Str := ((s.dropWhile Char.isWhitespace).reverse.dropWhile Char.isWhitespace).reverse

def parseDigits (s : Str) : Option Nat :=
  if s ≠ [] ∧ s.all Char.isDigit then some (Nat.ofDigitChars 10 s 0) else none

/-- `int(text)` (decoders.py:252, 261, 272, 279, 281, 293). -/
def parseInt : Str → Option Int
  | '-' :: s => (parseDigits s).map fun n => -(n : Int)
  | s => (parseDigits s).map fun n => (n : Int)

/-- A feature in the output: `None`, an array of the given type, coordinates (in row order; `dim = 0` for a flat array) and values, or a
text. -/
inductive Feature (V : Type) where
  | missing
  | dense (key : Str) (values : List V)
  | sparse (key : Str) (dim : Nat) (coords : List Int) (values : List V)
  | text (s : Str)
deriving DecidableEq

/-- `float(text)` and the conversion of texts by `np.fromiter(dtype=key)`. -/
structure Parse (V : Type) where
  float : Str → Option V
  value : Str → Str → Option V

/-- Defaults for nodes or edges (decoders.py:157-176); `default_feature_types` and `default_feature_lens` are taken to have the same
length. -/
structure Side (V : Type) where
  typ : Option Int
  weight : Option V
  features : List (Option Str × Option (List Nat))

/-- The decoder (decoders.py:138-186). -/
structure Config (V : Type) where
  node : Side V
  edge : Side V
  delimiter : Char
  lengthDelimiter : Char
  escape : Char
  created : Option Int
  removed : Option Int
  temporal : Bool

/-- `output.replace(escape + escape, "")` (decoders.py:217). -/
def removePairs (e : Char) : Str → Str
  | a :: b :: r => if a = e ∧ b = e then removePairs e r else a :: removePairs e (b :: r)
  | s => s

/-- The loop joining the pieces of a text (decoders.py:213-226). -/
def unescape (d e : Char) : Str → List Str → Str × List Str
  | out, [] => if (removePairs e out).getLast? = some e then (out.dropLast, []) else (out, [])
  | out, t :: ts =>
    if (removePairs e out).getLast? = some e then unescape d e (out.dropLast ++ d :: t) ts else (out, t :: ts)

/-- `np.fromiter(data, count=n)`: fails if there are fewer than `n` fields. -/
def takeFields (n : Nat) (ts : List Str) : Option (List Str × List Str) :=
  if ts.length < n then none else some (ts.take n, ts.drop n)

/-- `_get_feature` (decoders.py:188-229). -/
def getFeature {V : Type} (cfg : Config V) (P : Parse V) (key : Str) (length : List Nat) (ts : List Str) :
    Option (Feature V × List Str) :=
  match length with
  | [] => none
  | 0 :: _ => some (.missing, ts)
  | [n + 1] =>
    if n = 0 ∧ key = "binary".toList then
      match ts with
      | [] => none
      | t :: ts => let r := unescape cfg.delimiter cfg.escape t ts; some (.text r.1, r.2)
    else (takeFields (n + 1) ts).bind fun r => (r.1.mapM (P.value key)).map fun vs => (.dense key vs, r.2)
  | [n + 1, dim] =>
    (takeFields ((n + 1) * max dim 1) ts).bind fun c => (c.1.mapM parseInt).bind fun coords =>
      (takeFields (n + 1) c.2).bind fun r => (r.1.mapM (P.value key)).map fun vs => (.sparse key dim coords vs, r.2)
  | _ => none

/-- `next(data)` converted, or a default (decoders.py:258-281). -/
def field {α : Type} (default : Option α) (read : Str → Option α) (ts : List Str) : Option (α × List Str) :=
  match default with
  | some v => some (v, ts)
  | none =>
    match ts with
    | [] => none
    | t :: ts => (read t).map fun v => (v, ts)

/-- `list(map(int, next(data).split(length_delimiter)))` (decoders.py:293). -/
def parseLengths (d : Char) (s : Str) : Option (List Nat) :=
  (split d s).mapM fun t => (parseInt t).bind fun i => if i < 0 then none else some i.toNat

/-- The loop over the features (decoders.py:284-295); `defaults` are those not used yet.  `none` on the first argument's exhaustion, which
the caller avoids. -/
def featureLoop {V : Type} (cfg : Config V) (P : Parse V) : Nat → List (Option Str × Option (List Nat)) → List Str →
    Option (List (Feature V))
  | 0, _, _ => none
  | fuel + 1, defaults, ts =>
    let default := defaults.head?.getD (none, none)
    let step (key : Str) (ts : List Str) : Option (List (Feature V)) :=
      (field default.2 (parseLengths cfg.lengthDelimiter) ts).bind fun l =>
        (getFeature cfg P key l.1 l.2).bind fun f => (featureLoop cfg P fuel defaults.tail f.2).map fun fs => f.1 :: fs
    match default.1 with
    | some key => step key ts
    | none =>
      match ts with
      | [] => some []
      | t :: ts => if strip t = [] then some [] else step (strip t) ts

/-- What the decoder yields (decoders.py:297). -/
structure Record (V : Type) where
  src : Int
  dst : Int
  typ : Int
  weight : V
  created : Option Int
  removed : Option Int
  features : List (Feature V)
deriving DecidableEq

/-- Optional timestamp (decoders.py:251, 276-281). -/
def timeField {V : Type} (cfg : Config V) (default : Option Int) (ts : List Str) : Option (Option Int × List Str) :=
  if cfg.temporal then (field default parseInt ts).map fun r => (some r.1, r.2) else some (default, ts)

/-- Everything after the ids and the type (decoders.py:273-297). -/
def decodeRest {V : Type} (cfg : Config V) (P : Parse V) (side : Side V) (src dst typ : Int) (ts : List Str) : Option (Record V) :=
  (field side.weight P.float ts).bind fun w =>
    (timeField cfg cfg.created w.2).bind fun c =>
      (timeField cfg cfg.removed c.2).bind fun r =>
        (featureLoop cfg P (r.2.length + side.features.length + 1) side.features r.2).map fun fs =>
          ⟨src, dst, typ, w.1, c.1, r.1, fs⟩

/-- `decode` of a line (decoders.py:231-297): the records it yields, `none` for an exception. -/
def decode {V : Type} (cfg : Config V) (P : Parse V) (line : Str) : Option (List (Record V)) :=
  if line = [] then some []
  else
    (field none parseInt (split cfg.delimiter line)).bind fun src =>
      (field none parseInt src.2).bind fun dst =>
        (if dst.1 = -1 then
          (field cfg.node.typ parseInt dst.2).bind fun typ => decodeRest cfg P cfg.node src.1 dst.1 typ.1 typ.2
        else
          match cfg.edge.typ with
          | some typ => decodeRest cfg P cfg.edge src.1 dst.1 typ dst.2
          | none => (field none parseInt dst.2).bind fun d => decodeRest cfg P cfg.edge src.1 d.1 dst.1 d.2).map fun r => [r]

end DeepGNN.EdgeList
