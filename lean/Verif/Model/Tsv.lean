import Verif.Model.Writer
import Verif.Model.EdgeList

/-
The TSV decoder (src/python/deepgnn/graph_engine/snark/decoders.py:439-550).  A raised exception is `none`.
Simplification: `csv.reader` is a split at tabs, which it is for lines without quotes and line breaks.
-/

namespace DeepGNN.Tsv

open EdgeList (Str split strip parseInt)

/-- Conversions done by Python and numpy: `float(text)`, an element of `np.array(texts, dtype=...)` as bytes, `bytes(text, "utf-8")`. -/
structure Parse where
  weight : Str → Option Int
  number : Str → Str → Option Bytes
  utf8 : Str → Bytes

/-- `Decoder.convert_map` (decoders.py:17-31). -/
def convertMap : List (Str × Str) :=
  [("double_feature".toList, "float64".toList), ("float_feature".toList, "float32".toList), ("float64_feature".toList, "float64".toList),
   ("float32_feature".toList, "float32".toList), ("float16_feature".toList, "float16".toList), ("uint64_feature".toList, "uint64".toList),
   ("int64_feature".toList, "int64".toList), ("uint32_feature".toList, "uint32".toList), ("int32_feature".toList, "int32".toList),
   ("uint16_feature".toList, "uint16".toList), ("int16_feature".toList, "int16".toList), ("uint8_feature".toList, "uint8".toList),
   ("int8_feature".toList, "int8".toList)]

/-- `int(text)`: blanks around the digits are ignored. -/
def readInt (s : Str) : Option Int := parseInt (strip s)

/-- The key for the type `c :: cs` of a feature; for other letters the variable keeps its value, which is unset (`none`) at first
(decoders.py:477-486). -/
def featureKey (prev : Option Str) (c : Char) (cs : Str) : Option Str :=
  if c = 'i' then some ("int".toList ++ cs ++ "_feature".toList)
  else if c = 'u' then some ("uint".toList ++ cs ++ "_feature".toList)
  else if c = 'f' then some ("float".toList ++ cs ++ "_feature".toList)
  else if c = 'd' then some "double_feature".toList
  else if c = 'b' then some "binary_feature".toList
  else prev

/-- The value of a feature (decoders.py:490-493), as the bytes written for it (writers.py:716-735). -/
def featureValue (P : Parse) (key v : Str) : Option Bytes :=
  if key = "binary_feature".toList then some (P.utf8 v)
  else (convertMap.lookup key).bind fun t => ((split ' ' v).mapM (P.number t)).map List.flatten

/-- The loop over the features (decoders.py:471-495). -/
def featureLoop (P : Parse) : Option Str → List Str → Option (List (Option Bytes))
  | _, [] => some []
  | prev, f :: fs =>
    match split ':' f with
    | [c :: cs, v :: vs] =>
      (featureKey prev c cs).bind fun key => (featureValue P key (v :: vs)).bind fun b => (featureLoop P (some key) fs).map (some b :: ·)
    | _ => (featureLoop P prev fs).map (none :: ·)

/-- `_parse_feature_string` (decoders.py:468-497). -/
def parseFeatures (P : Parse) (raw : Str) : Option (List (Option Bytes)) :=
  if raw = [] then some [] else featureLoop P none (split ';' raw)

/-- Missing columns are empty (decoders.py:514-515, 542-543). -/
def pad (n : Nat) (cols : List Str) : List Str := cols ++ List.replicate (n - cols.length) []

/-- An empty column has the value 0 (decoders.py:521-522, 545-546). -/
def orZero (read : Str → Option Int) (s : Str) : Option Int := if s = [] then some 0 else read s

/-- Sort key of a neighbour: type and destination (decoders.py:532-534). -/
def order (n : Str) : Option (Int × Int) :=
  match split ',' n with
  | d :: t :: _ => (readInt t).bind fun t => (readInt d).map fun d => (t, d)
  | _ => none

/-- `<` of sort keys. -/
def keyLt (a b : Int × Int) : Bool := decide (a.1 < b.1) || (a.1 == b.1 && decide (a.2 < b.2))

/-- Insertion after all elements that are not greater. -/
def insertKey (x : (Int × Int) × Str) : List ((Int × Int) × Str) → List ((Int × Int) × Str)
  | [] => [x]
  | y :: ys => if keyLt x.1 y.1 then x :: y :: ys else y :: insertKey x ys

/-- `sorted(neighbors, key=order)` (decoders.py:536): all keys are computed first; the sort is stable. -/
def sortNeighbors (ns : List Str) : Option (List Str) :=
  (ns.mapM fun n => (order n).map fun k => (k, n)).map fun l => (l.foldl (fun acc x => insertKey x acc) []).map (·.2)

/-- The record of a neighbour (decoders.py:537-550). -/
def decodeNeighbor (P : Parse) (src : Int) (n : Str) : Option Rec :=
  match pad 4 (split ',' n) with
  | d :: t :: w :: f :: _ =>
    if d = [] then none
    else (readInt d).bind fun d => (orZero readInt t).bind fun t => (orZero P.weight w).bind fun w => (parseFeatures P f).map fun fs =>
      ⟨src, d, t, w, none, none, fs⟩
  | _ => none

/-- `decode` (decoders.py:499-550). -/
def decode (P : Parse) (line : Str) : Option (List Rec) :=
  if line = [] then none
  else match pad 5 (split '\t' line) with
    | i :: t :: w :: f :: ns :: _ =>
      if i = [] then none
      else (readInt i).bind fun i => (orZero readInt t).bind fun t => (orZero P.weight w).bind fun w => (parseFeatures P f).bind fun fs =>
        (if ns = [] then some [] else (sortNeighbors (split '|' ns)).bind fun l => l.mapM (decodeNeighbor P i)).map fun es =>
          ⟨i, -1, t, w, none, none, fs⟩ :: es
    | _ => none

/-- The calls of `add` for the lines of every partition (converter/process.py:54-64). -/
def decodeParts (P : Parse) (parts : List (List Str)) : Option (List (List (List Rec))) := parts.mapM fun p => p.mapM (decode P)

end DeepGNN.Tsv
