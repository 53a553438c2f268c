/-
Extraction of a model archive (src/python/deepgnn/pytorch/encoding/twinbert/deepspeed/nvidia_modeling_no_apex.py:757-773).
-/

namespace DeepGNN.Archive

/-- Text and path components. -/
abbrev Text := List Char

/-- `str.split("/")`. -/
def split : Text → List Text
  | [] => [[]]
  | c :: cs =>
    if c = '/' then [] :: split cs
    else match split cs with
      | [] => [[c]]
      | x :: xs => (c :: x) :: xs

/-- `"/".join`. -/
def joinSlash : List Text → Text
  | [] => []
  | [c] => c
  | c :: d :: r => c ++ '/' :: joinSlash (d :: r)

/-- The text of an absolute path with the given components. -/
def render (cs : List Text) : Text := '/' :: joinSlash cs

/-- The loop of `posixpath.normpath` for an absolute path: empty components and "." are skipped, ".." removes one. -/
def walk (cur : List Text) (cs : List Text) : List Text :=
  cs.foldl (fun cur c => if c = [] ∨ c = ['.'] then cur else if c = ['.', '.'] then cur.dropLast else cur ++ [c]) cur

/-- `os.path.abspath` of an absolute path: exactly two leading slashes are kept. -/
def abspath (s : Text) : Text :=
  (if s.take 2 = ['/', '/'] ∧ s.take 3 ≠ ['/', '/', '/'] then ['/'] else []) ++ render (walk [] (split s))

/-- `os.path.join` of two texts, the first not empty. -/
def pathJoin (a b : Text) : Text :=
  if b.head? = some '/' then b else if a.getLast? = some '/' then a ++ b else a ++ '/' :: b

/-- `os.path.commonprefix` of two texts. -/
def commonPrefix : Text → Text → Text
  | a :: as, b :: bs => if a = b then a :: commonPrefix as bs else []
  | _, _ => []

/-- `is_within_directory(path, os.path.join(path, name))` (nvidia_modeling_no_apex.py:758-762, 766-767). -/
def isWithin (path name : Text) : Bool :=
  commonPrefix (abspath path) (abspath (pathJoin path name)) = abspath path

/-- A member of an archive: its name and, for a symbolic link, the directory or file it points to.  Simplification: the
target of a link is given by its components from the root. -/
structure Member where
  name : Text
  link : Option (List Text) := none
deriving DecidableEq, Repr

/-- The system's path resolution from `cur`, with the symbolic links extracted so far. -/
def resolve (links : List (List Text × List Text)) (cur : List Text) (cs : List Text) : List Text :=
  cs.foldl (fun cur c =>
    if c = [] ∨ c = ['.'] then cur else if c = ['.', '.'] then cur.dropLast
    else (links.lookup (cur ++ [c])).getD (cur ++ [c])) cur

/-- `tar.extractall(path)` (nvidia_modeling_no_apex.py:769): the places that are written, in order.  Missing parents are
created; without `filter`, as in the code, nothing is checked. -/
def extractAll (dir : List Text) (links : List (List Text × List Text)) : List Member → List (List Text)
  | [] => []
  | m :: ms =>
    let p := resolve links (if m.name.head? = some '/' then [] else dir) (split m.name)
    p :: extractAll dir (match m.link with | some t => (p, t) :: links | none => links) ms

/-- `safe_extract` (nvidia_modeling_no_apex.py:764-769) into the directory with the components `dir`.  `none`: the exception
"Attempted path traversal". -/
def safeExtract (dir : List Text) (members : List Member) : Option (List (List Text)) :=
  if members.all (fun m => isWithin (render dir) m.name) then some (extractAll dir [] members) else none

end DeepGNN.Archive
