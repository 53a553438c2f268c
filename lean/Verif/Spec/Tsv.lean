import Verif.Model.Tsv
import Verif.Spec.EdgeList
import Verif.Spec.Accept

/-
What a graph in TSV lines describes, and how it is written (format described in decoders.py:445-463).
-/

namespace DeepGNN.Spec

open EdgeList (Str)

/-- Names of number types in the description, and the types they stand for. -/
def tsvTypes : List (String × String) :=
  [("i8", "int8"), ("i16", "int16"), ("i32", "int32"), ("i64", "int64"), ("u8", "uint8"), ("u16", "uint16"), ("u32", "uint32"), ("u64", "uint64"),
   ("f16", "float16"), ("f", "float32"), ("d", "float64")]

/-- A feature as the user describes it: nothing, numbers (their bytes) with the name of their type, or a text. -/
inductive TsvFeature where
  | missing
  | numbers (name : String) (typ : String) (values : List Bytes)
  | text (s : Str)
deriving DecidableEq

/-- A neighbour: destination, type, weight (may be left empty), features. -/
structure TsvEdge where
  dst : Int
  typ : Int
  weight : Option Int
  features : List TsvFeature
deriving DecidableEq

/-- A line: id, type and weight (may be left empty), features, neighbours. -/
structure TsvNode where
  id : Int
  typ : Option Int
  weight : Option Int
  features : List TsvFeature
  edges : List TsvEdge

/-- How weights and numbers are written. -/
structure TsvShow where
  weight : Int → Str
  number : String → Bytes → Str

/-- Text of a feature: `type:value value ...`. -/
def TsvFeature.written (S : TsvShow) : TsvFeature → Str
  | .missing => []
  | .numbers name typ vs => name.toList ++ ':' :: joinFields ' ' (vs.map (S.number typ))
  | .text s => 'b' :: ':' :: s

/-- Bytes stored for a feature. -/
def TsvFeature.stored (P : Tsv.Parse) : TsvFeature → Option Bytes
  | .missing => none
  | .numbers _ _ vs => some vs.flatten
  | .text s => some (P.utf8 s)

/-- `text` are the columns with delimiters between them; empty ones at the end may be left out. -/
def WrittenAs (d : Char) (cols : List Str) (text : Str) : Prop :=
  ∃ shown k, shown ≠ [] ∧ cols = shown ++ List.replicate k [] ∧ text = joinFields d shown

def TsvEdge.columns (S : TsvShow) (e : TsvEdge) : List Str :=
  [intText e.dst, intText e.typ, (e.weight.map S.weight).getD [], joinFields ';' (e.features.map (·.written S))]

/-- `line` describes `n`. -/
def TsvLine (S : TsvShow) (n : TsvNode) (line : Str) : Prop :=
  ∃ ns : List Str, ns.length = n.edges.length ∧ (∀ x ∈ n.edges.zip ns, WrittenAs ',' (x.1.columns S) x.2) ∧
    WrittenAs '\t' [intText n.id, (n.typ.map intText).getD [], (n.weight.map S.weight).getD [], joinFields ';' (n.features.map (·.written S)),
      joinFields '|' ns] line

/-- A weight can be written: its text is read back and contains no delimiter. -/
def TsvWeightOk (P : Tsv.Parse) (S : TsvShow) (w : Int) : Prop :=
  S.weight w ≠ [] ∧ P.weight (S.weight w) = some w ∧ ∀ c ∈ ['\t', '|', ','], c ∉ S.weight w

/-- A feature can be written: its type is one of the described ones, values are read back and contain no delimiters. -/
def TsvFeature.Ok (P : Tsv.Parse) (S : TsvShow) : TsvFeature → Prop
  | .missing => True
  | .numbers name typ vs => (name, typ) ∈ tsvTypes ∧ vs ≠ [] ∧
      ∀ v ∈ vs, S.number typ v ≠ [] ∧ P.number typ.toList (S.number typ v) = some v ∧ ∀ c ∈ ['\t', '|', ',', ';', ':', ' '], c ∉ S.number typ v
  | .text s => s ≠ [] ∧ ∀ c ∈ ['\t', '|', ',', ';', ':'], c ∉ s

/-- Features can be written; a missing feature alone cannot be told from no features. -/
def TsvFeaturesOk (P : Tsv.Parse) (S : TsvShow) (fs : List TsvFeature) : Prop := (∀ f ∈ fs, f.Ok P S) ∧ fs ≠ [.missing]

/-- Everything in the line can be written. -/
structure TsvNode.Ok (P : Tsv.Parse) (S : TsvShow) (n : TsvNode) : Prop where
  weight : ∀ w, n.weight = some w → TsvWeightOk P S w
  features : TsvFeaturesOk P S n.features
  edges : ∀ e ∈ n.edges, (∀ w, e.weight = some w → TsvWeightOk P S w) ∧ TsvFeaturesOk P S e.features

/-- Record of a neighbour. -/
def TsvEdge.record (P : Tsv.Parse) (src : Int) (e : TsvEdge) : Rec :=
  ⟨src, e.dst, e.typ, e.weight.getD 0, none, none, e.features.map (·.stored P)⟩

/-- Ids and types are in range. -/
def TsvNode.Fits (n : TsvNode) : Prop :=
  (0 ≤ n.id ∧ n.id < 2 ^ 63) ∧ (0 ≤ n.typ.getD 0 ∧ n.typ.getD 0 < 2 ^ 31) ∧
  ∀ e ∈ n.edges, (0 ≤ e.dst ∧ e.dst < 2 ^ 63) ∧ (0 ≤ e.typ ∧ e.typ < 2 ^ 31)

/-- All edges of the lines with their sources. -/
def tsvEdges (nodes : List TsvNode) : List (Int × TsvEdge) := nodes.flatMap fun x => x.edges.map fun e => (x.id, e)

/-- Neighbours of `n` over the requested types. -/
def tsvNeighbors (nodes : List TsvNode) (n : Int) (types : List Int) : List Nbr :=
  ((tsvEdges nodes).filter fun x => x.1 = n ∧ x.2.typ ∈ types).map fun x => ⟨x.2.dst, x.2.typ, x.2.weight.getD 0⟩

end DeepGNN.Spec
