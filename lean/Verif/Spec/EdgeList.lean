import Verif.Model.EdgeList

/-
Specification of edge list lines: how a record is written, following the description of the format in decoders.py:58-133.
-/

namespace DeepGNN.Spec

open EdgeList

/-- The fields with delimiters between them. -/
def joinFields (d : Char) : List Str → Str
  | [] => []
  | [t] => t
  | t :: ts => t ++ d :: joinFields d ts

/-- Decimal text of an integer. -/
def intText (n : Int) : Str := if n < 0 then '-' :: Nat.toDigits 10 n.natAbs else Nat.toDigits 10 n.toNat

/-- A feature as the user describes it; a missing one has a type and length 0. -/
inductive FeatureText (V : Type) where
  | missing (key : Str)
  | dense (key : Str) (values : List V)
  | sparse (key : Str) (dim : Nat) (coords : List Int) (values : List V)
  | text (s : Str)

def FeatureText.key {V : Type} : FeatureText V → Str
  | .missing k => k
  | .dense k _ => k
  | .sparse k _ _ _ => k
  | .text _ => "binary".toList

def FeatureText.lengths {V : Type} : FeatureText V → List Nat
  | .missing _ => [0]
  | .dense _ vs => [vs.length]
  | .sparse _ dim _ vs => [vs.length, dim]
  | .text _ => [1]

/-- What the decoder should yield for it. -/
def FeatureText.value {V : Type} : FeatureText V → Feature V
  | .missing _ => .missing
  | .dense k vs => .dense k vs
  | .sparse k dim cs vs => .sparse k dim cs vs
  | .text s => .text s

/-- Every delimiter in a text is preceded by the escape. -/
def escapeText (d e : Char) (s : Str) : Str := s.flatMap fun c => if c = d then [e, c] else [c]

/-- Number of escapes at the end of a text. -/
def trailing (e : Char) (s : Str) : Nat := (s.reverse.takeWhile (· = e)).length

/-- Escapes inside a text are not taken for escapes of a delimiter: the number of them just before a delimiter or at the end is even. -/
def EscapesOk (d e : Char) (s : Str) : Prop :=
  trailing e s % 2 = 0 ∧ ∀ p q, s = p ++ d :: q → trailing e p % 2 = 0

/-- The fields of a feature after its type and length; `show k v`: text of value `v` of an array of type `k`. -/
def FeatureText.body {V : Type} (cfg : Config V) (sh : Str → V → Str) : FeatureText V → List Str
  | .missing _ => []
  | .dense k vs => vs.map (sh k)
  | .sparse k _ cs vs => cs.map intText ++ vs.map (sh k)
  | .text s => [escapeText cfg.delimiter cfg.escape s]

/-- The fields of a feature; type and length are omitted if there are defaults for them. -/
def featureFields {V : Type} (cfg : Config V) (sh : Str → V → Str) (d : Option Str × Option (List Nat)) (f : FeatureText V) : List Str :=
  (if d.1.isNone then [f.key] else []) ++
    (if d.2.isNone then [joinFields cfg.lengthDelimiter (f.lengths.map fun (n : Nat) => intText n)] else []) ++ f.body cfg sh

def featuresFields {V : Type} (cfg : Config V) (sh : Str → V → Str) :
    List (Option Str × Option (List Nat)) → List (FeatureText V) → List Str
  | _, [] => []
  | ds, f :: fs => featureFields cfg sh (ds.head?.getD (none, none)) f ++ featuresFields cfg sh ds.tail fs

/-- A record as the user describes it. -/
structure Described (V : Type) where
  src : Int
  dst : Int
  typ : Int
  weight : V
  created : Option Int
  removed : Option Int
  features : List (FeatureText V)

/-- Fields omitted if there is a default. -/
def optional {α : Type} (d : Option α) (t : Str) : List Str := if d.isNone then [t] else []

/-- Timestamps are written for temporal graphs. -/
def timeFields {V : Type} (cfg : Config V) (d : Option Int) (t : Option Int) : List Str :=
  if cfg.temporal then optional d (intText (t.getD 0)) else []

/-- The line of a record: `id,-1,type,weight,...` for nodes, `src,type,dst,weight,...` for edges. -/
def recordFields {V : Type} (cfg : Config V) (sh : Str → V → Str) (showWeight : V → Str) (r : Described V) : List Str :=
  (if r.dst = -1 then
    [intText r.src, intText (-1)] ++ optional cfg.node.typ (intText r.typ)
  else
    match cfg.edge.typ with
    | some _ => [intText r.src, intText r.dst]
    | none => [intText r.src, intText r.typ, intText r.dst]) ++
  (let side := if r.dst = -1 then cfg.node else cfg.edge
   optional side.weight (showWeight r.weight) ++ timeFields cfg cfg.created r.created ++ timeFields cfg cfg.removed r.removed ++
     featuresFields cfg sh side.features r.features)

/-- A feature that can be written: values can be read back and do not contain the delimiter, escapes in texts are not
ambiguous. -/
def FeatureText.Ok {V : Type} (cfg : Config V) (P : Parse V) (sh : Str → V → Str) (f : FeatureText V) : Prop :=
  f.key ≠ [] ∧ strip f.key = f.key ∧ cfg.delimiter ∉ f.key ∧
  match f with
  | .missing _ => True
  | .dense k vs => vs ≠ [] ∧ ¬ (k = "binary".toList ∧ vs.length = 1) ∧
      ∀ v ∈ vs, P.value k (sh k v) = some v ∧ cfg.delimiter ∉ sh k v
  | .sparse k dim cs vs => vs ≠ [] ∧ cs.length = vs.length * max dim 1 ∧
      ∀ v ∈ vs, P.value k (sh k v) = some v ∧ cfg.delimiter ∉ sh k v
  | .text s => EscapesOk cfg.delimiter cfg.escape s

/-- The feature agrees with a default. -/
def FeatureText.Agrees {V : Type} (d : Option Str × Option (List Nat)) (f : FeatureText V) : Prop :=
  (∀ k, d.1 = some k → f.key = k) ∧ (∀ l, d.2 = some l → f.lengths = l)

/-- Features agree with the defaults, and all defaults are used. -/
def FeaturesAgree {V : Type} : List (Option Str × Option (List Nat)) → List (FeatureText V) → Prop
  | ds, [] => ds = []
  | ds, f :: fs => f.Agrees (ds.head?.getD (none, none)) ∧ FeaturesAgree ds.tail fs

/-- The delimiters differ from each other and do not occur in numbers. -/
structure DelimitersOk {V : Type} (cfg : Config V) : Prop where
  d1 : cfg.delimiter ≠ cfg.lengthDelimiter
  d2 : cfg.delimiter ≠ cfg.escape
  number : cfg.delimiter.isDigit = false ∧ cfg.delimiter ≠ '-' ∧ cfg.lengthDelimiter.isDigit = false ∧ cfg.lengthDelimiter ≠ '-'

/-- A record that can be written: values agree with the defaults; an edge is not mistaken for a node. -/
structure Described.Ok {V : Type} (cfg : Config V) (P : Parse V) (sh : Str → V → Str) (showWeight : V → Str) (r : Described V) : Prop where
  node : r.dst = -1 → ∀ t, cfg.node.typ = some t → r.typ = t
  edge : r.dst ≠ -1 → ∀ t, cfg.edge.typ = some t → r.typ = t
  notNode : r.dst ≠ -1 → cfg.edge.typ = none → r.typ ≠ -1
  weight : ∀ w, (if r.dst = -1 then cfg.node else cfg.edge).weight = some w → r.weight = w
  weightText : P.float (showWeight r.weight) = some r.weight ∧ cfg.delimiter ∉ showWeight r.weight
  created : if cfg.temporal then (∃ t, r.created = some t ∧ ∀ d, cfg.created = some d → t = d) else r.created = cfg.created
  removed : if cfg.temporal then (∃ t, r.removed = some t ∧ ∀ d, cfg.removed = some d → t = d) else r.removed = cfg.removed
  features : ∀ f ∈ r.features, f.Ok cfg P sh
  agree : FeaturesAgree (if r.dst = -1 then cfg.node else cfg.edge).features r.features

end DeepGNN.Spec
