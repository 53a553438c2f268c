import Verif.Model.Float

/-
Assignment of input files to workers (src/python/deepgnn/graph_engine/samplers.py get_files,
src/python/deepgnn/graph_engine/_adl_reader.py TextFileIterator.get_worker_files).
A file name is the list of its characters; a file system lists the names in any order.
-/

namespace DeepGNN.Files

/-- A file name. -/
abbrev Name := List Nat

/-- Order of python strings. -/
def le : Name → Name → Bool
  | [], _ => true
  | _ :: _, [] => false
  | a :: as, b :: bs => a < b || (a == b && le as bs)

/-- Insertion into a sorted list. -/
def insert (x : Name) : List Name → List Name
  | [] => [x]
  | y :: l => if le x y then x :: y :: l else y :: insert x l

/-- `sorted` and `list.sort` (samplers.py:21, _adl_reader.py:320), as insertion sort. -/
def sort (l : List Name) : List Name := l.foldr insert []

/-- `range(start, stop, step)` (step > 0). -/
def pyRange (start stop step : Nat) : List Nat :=
  (List.range ((stop - start + (step - 1)) / step)).map fun i => start + i * step

/-- `l[::step]` from the head: keep an element, skip `step - 1`; `fuel` bounds the number of elements. -/
def everyNth {α : Type} (step : Nat) : Nat → List α → List α
  | 0, _ => []
  | _ + 1, [] => []
  | fuel + 1, x :: l => x :: everyNth step fuel (l.drop (step - 1))

/-- `get_files` (samplers.py:19-29): the slice `files[worker : len(files) : workers]`; a zero step raises. -/
def getFiles (listing : List Name) (worker workers : Nat) : Option (List Name) :=
  if listing.length < workers ∨ workers = 0 then none
  else some (everyNth workers listing.length ((sort listing).drop worker))

/-- `TextFileIterator.get_worker_files` (_adl_reader.py:301-324): an index loop. -/
def getWorkerFiles (listing : List Name) (worker workers : Nat) : Option (List Name) :=
  if listing.length < workers ∨ workers = 0 then none
  else (pyRange worker listing.length workers).mapM fun i => (sort listing)[i]?

end DeepGNN.Files
