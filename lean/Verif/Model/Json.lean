import Verif.Model.Writer
import Verif.Model.Features

/-
The JSON decoder (src/python/deepgnn/graph_engine/snark/decoders.py:299-436), from the parsed JSON object on.  A raised exception is `none`.
Not modelled: parsing of the text (`json.loads`), missing mandatory keys, `null` for a time.
-/

namespace DeepGNN.Json

/-- Name of a group of features (decoders.py:361-383): `sparse_*_feature`, `binary_feature` or `*_feature` with a number type. -/
inductive Kind where
  | dense
  | binary
  | sparse
deriving DecidableEq, Repr

/-- What is given for an index of a feature (decoders.py:364-384).  Numbers are given by their bytes in the type of the group
(`np.array(..., dtype=...)`); `history`: a list of objects with `created_at` and `values`. -/
inductive Value where
  | numbers (vs : List Bytes)
  | history (h : List (Int × List Bytes))
  | text (b : Bytes)
  | sparse (coords : Coords) (vs : List Bytes)
deriving DecidableEq, Repr

/-- The groups of features of an object, in order of the object; groups that are `null` are left out (decoders.py:360-362). -/
abbrev Features := List (Kind × List (Int × Value))

/-- An element of `"edge"` (decoders.py:311-320, 426-436). -/
structure Edge where
  src : Int
  dst : Int
  typ : Int
  weight : Int
  created : Option Int
  removed : Option Int
  features : Features
deriving DecidableEq, Repr

/-- A line of the input (decoders.py:302-324). -/
structure Node where
  id : Int
  typ : Int
  weight : Int
  created : Option Int
  removed : Option Int
  features : Features
  edges : List Edge
deriving DecidableEq, Repr

/-- The value stored for an index (decoders.py:370-384).  An empty list raises at `value[0]` (370), a history of anything but numbers at
`convert_map[key]` (344), values of the wrong kind in `np.array`, in `value["coordinates"]` or later in `bytes(feature, "utf-8")`
(writers.py:735). -/
def readValue : Kind → Value → Option RawFeature
  | .dense, .numbers (v :: vs) => some (.bytes (v :: vs).flatten)
  | .dense, .history (x :: h) => some (.bytes (serializeTemporal ((x :: h).map fun y => (y.1, y.2.flatten))))
  | .binary, .text b => some (.bytes b)
  | .sparse, .sparse c vs => some (.sparse c vs)
  | _, _ => none

/-- `ret_list` is extended to hold `idx`, then `ret_list[idx] = value` (decoders.py:365-368, 384), also for a negative index. -/
def setFeature (l : List RawFeature) (idx : Int) (v : RawFeature) : Option (List RawFeature) :=
  let l := l ++ List.replicate (idx + 1 - l.length).toNat .missing
  if 0 ≤ idx then some (l.set idx.toNat v)
  else if 0 ≤ l.length + idx then some (l.set (l.length + idx).toNat v)
  else none

/-- `_pull_features` (decoders.py:356-386). -/
def pullFeatures (fs : Features) : Option (List RawFeature) :=
  fs.foldlM (fun l g => g.2.foldlM (fun l x => (readValue g.1 x.2).bind fun v => setFeature l x.1 v) l) []

/-- The features as bytes: `_pull_features`, then `convert_features` in the writer (writers.py:284, 455). -/
def features (fs : Features) : Option (List (Option Bytes)) := (pullFeatures fs).bind fun l => l.mapM convertFeature

/-- Third component of the sort key: `none` is infinity (decoders.py:417-421). -/
def removedKey (e : Edge) : Option Int := if e.removed = some (-1) then none else some (e.removed.getD 0)

/-- `<` with infinity. -/
def infLt : Option Int → Option Int → Bool
  | some a, some b => decide (a < b)
  | some _, none => true
  | none, _ => false

/-- `<` of sort keys: type, creation, removal, destination (decoders.py:414-423). -/
def keyLt (a b : Edge) : Bool :=
  decide (a.typ < b.typ) || (a.typ == b.typ &&
    (decide (a.created.getD 0 < b.created.getD 0) || (a.created.getD 0 == b.created.getD 0 &&
      (infLt (removedKey a) (removedKey b) || (removedKey a == removedKey b && decide (a.dst < b.dst))))))

/-- Insertion after all elements that are not greater. -/
def insertEdge (e : Edge) : List Edge → List Edge
  | [] => [e]
  | x :: xs => if keyLt e x then e :: x :: xs else x :: insertEdge e xs

/-- `sorted(edge_list, key=...)`, a stable sort (decoders.py:411-424). -/
def sortEdges (l : List Edge) : List Edge := l.foldl (fun acc e => insertEdge e acc) []

/-- Record of an edge; times it does not give are those of the node (decoders.py:427-436). -/
def edgeRec (nc nr : Int) (e : Edge) : Option Rec :=
  (features e.features).map fun fs => ⟨e.src, e.dst, e.typ, e.weight, some (e.created.getD nc), some (e.removed.getD nr), fs⟩

/-- `decode`: the records of a line, the node first (decoders.py:388-436). -/
def decode (n : Node) : Option (List Rec) :=
  (features n.features).bind fun fs =>
    ((sortEdges n.edges).mapM (edgeRec (n.created.getD 0) (n.removed.getD (-1)))).map fun es =>
      ⟨n.id, -1, n.typ, n.weight, some (n.created.getD 0), some (n.removed.getD (-1)), fs⟩ :: es

/-- The calls of `add` for the lines of every partition (converter/process.py:54-64). -/
def decodeParts (parts : List (List Node)) : Option (List (List (List Rec))) := parts.mapM fun p => p.mapM decode

end DeepGNN.Json
