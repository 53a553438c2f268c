import Verif.Model.Files

/-
Checkpoints of a trainer (src/python/deepgnn/pytorch/training/trainer.py, src/python/deepgnn/pytorch/common/utils.py).
A file is known by the part of its name the regular expression of `get_sorted_checkpoints` extracts: the name is this
part between a constant prefix and ".pt".  Only checkpoints are in the folder, which is listed in any order; sorting by
modification time is not modelled.
-/

namespace DeepGNN.Checkpoint

open Files (Name)

/-- Decimal digits, as characters. -/
def digits (n : Nat) : List Nat := if n < 10 then [48 + n] else digits (n / 10) ++ [48 + n % 10]

/-- `f"{n:0w}"`. -/
def padded (w n : Nat) : Name := List.replicate (w - (digits n).length) 48 ++ digits n

/-- `f"{epoch:03}-{step:06}"` (trainer.py:442-445). -/
def name (x : Nat × Nat) : Name := padded 3 x.1 ++ 45 :: padded 6 x.2

/-- `get_sorted_checkpoints` (utils.py:130-146). -/
def sorted (folder : List Name) : List Name := Files.sort folder

/-- `rotate_checkpoints` (utils.py:149-173). -/
def rotate (limit : Nat) (folder : List Name) : List Name :=
  if 0 < limit ∧ limit < folder.length then
    let deleted := (sorted folder).take (folder.length - limit)
    folder.filter fun f => f ∉ deleted
  else folder

/-- `_save_checkpoint` (trainer.py:437-455): writes the file, which may exist already. -/
def save (limit : Nat) (folder : List Name) (x : Nat × Nat) : List Name :=
  rotate limit (if name x ∈ folder then folder else folder ++ [name x])

/-- `_load_checkpoint` without a path (trainer.py:457-461): the file that is loaded. -/
def load (folder : List Name) : Option Name := (sorted folder).getLast?

end DeepGNN.Checkpoint
