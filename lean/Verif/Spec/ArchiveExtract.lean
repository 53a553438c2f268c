import Verif.Model.ArchiveExtract

/-
Specification of the extraction of an archive.
-/

namespace DeepGNN.Archive.Spec
open Archive (Text)

/-- The components of an absolute directory, such as one made by `tempfile.mkdtemp`. -/
def IsDir (dir : List Text) : Prop :=
  dir ≠ [] ∧ ∀ c ∈ dir, c ≠ [] ∧ '/' ∉ c ∧ c ≠ ['.'] ∧ c ≠ ['.', '.']

/-- A place inside a directory (or the directory itself). -/
def Inside (dir place : List Text) : Prop := dir <+: place

/-- A place inside a directory beside `dir` whose name is longer than that of `dir` and begins with it. -/
def BesideLonger (dir place : List Text) : Prop :=
  ∃ parent name extra rest, dir = parent ++ [name] ∧ extra ≠ [] ∧ place = parent ++ (name ++ extra) :: rest

end DeepGNN.Archive.Spec
