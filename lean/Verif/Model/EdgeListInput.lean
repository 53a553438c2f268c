import Verif.Model.EdgeList
import Verif.Model.Features

/-
What the converter makes of edge list lines (src/python/deepgnn/graph_engine/snark/converter/process.py:54-64, converter/writers.py:680-736):
every line is a call of `add` with the records of the decoder, features are turned into bytes by `convert_features`.
-/

namespace DeepGNN.EdgeList

/-- Representation in the files: weights in units of the model, bytes of a value in an array of a type, `bytes(text, "utf-8")`. -/
structure Encode (V : Type) where
  weight : V → Int
  number : Str → V → Bytes
  utf8 : Str → Bytes

/-- `coordinates.reshape((n, dim))`, as rows (decoders.py:202-204). -/
def rows {α : Type} (dim : Nat) (n : Nat) (cs : List α) : List (List α) := (List.range n).map fun i => (cs.drop (i * dim)).take dim

/-- The feature as it is given to `convert_features` (writers.py:689-735). -/
def toRaw {V : Type} (E : Encode V) : Feature V → RawFeature
  | .missing => .missing
  | .dense k vs => .bytes (vs.flatMap (E.number k))
  | .sparse k dim cs vs => .sparse (if dim = 0 then .vec cs else .mat dim (rows dim vs.length cs)) (vs.map (E.number k))
  | .text s => .bytes (E.utf8 s)

/-- A record of the decoder as it reaches the writers (writers.py:93, 284, 455). -/
def toRec {V : Type} (E : Encode V) (r : Record V) : Option Rec :=
  ((r.features.map (toRaw E)).mapM convertFeature).map fun fs => ⟨r.src, r.dst, r.typ, E.weight r.weight, r.created, r.removed, fs⟩

/-- One call of `add` (process.py:64). -/
def call {V : Type} (cfg : Config V) (P : Parse V) (E : Encode V) (line : Str) : Option (List Rec) :=
  (decode cfg P line).bind fun l => l.mapM (toRec E)

/-- The calls of every worker. -/
def decodeParts {V : Type} (cfg : Config V) (P : Parse V) (E : Encode V) (parts : List (List Str)) : Option (List (List (List Rec))) :=
  parts.mapM fun p => p.mapM (call cfg P E)

end DeepGNN.EdgeList
