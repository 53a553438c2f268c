import Verif.Model.PretrainedLoad

/-
The first weights of a TwinBERT encoder (src/python/deepgnn/pytorch/encoding/twinbert/encoder.py:118-176).
-/

namespace DeepGNN.InitCkpt
open Pretrained (Key setKey)

variable {V : Type}

/-- `if prefix in key: key[key.find(prefix) + len(prefix):]` (encoder.py:161-164): the text after the first occurrence. -/
def afterFirst (pat : Key) : Key → Option Key
  | [] => if pat = [] then some [] else none
  | c :: cs => if pat.isPrefixOf (c :: cs) then some ((c :: cs).drop pat.length) else afterFirst pat cs

/-- The inner loop of the first part (encoder.py:160-165), for one weight. -/
def takeOne (pairs : List (Key × Key)) (res : List (Key × V)) (e : Key × V) : List (Key × V) :=
  pairs.foldl (fun res p => match afterFirst p.1 e.1 with
    | some name => setKey res (p.2 ++ name) e.2
    | none => res) res

/-- `exist_in_src[i]` (encoder.py:158, 162). -/
def existInSrc (sd : List (Key × V)) (src : Key) : Bool := sd.any fun e => (afterFirst src e.1).isSome

/-- The inner loop of the second part (encoder.py:170-173), for one parameter. -/
def keepOne (sd : List (Key × V)) (pairs : List (Key × Key)) (res : List (Key × V)) (e : Key × V) : List (Key × V) :=
  pairs.foldl (fun res p => if !existInSrc sd p.1 && p.2.isPrefixOf e.1 then setKey res e.1 e.2 else res) res

/-- `extract_bert_by_prefix` (encoder.py:154-175); the two texts are split already: pairs of a prefix in the checkpoint and the
prefix here. -/
def extract (sd : List (Key × V)) (pairs : List (Key × Key)) (params : List (Key × V)) : List (Key × V) :=
  params.foldl (keepOne sd pairs) (sd.foldl (takeOne pairs) [])

/-- `self.load_state_dict(state_dict)` (encoder.py:152), strict: `none` is the RuntimeError for missing or unexpected names or other
shapes. -/
def loadStrict (shape : V → List Nat) (params d : List (Key × V)) : Option (List (Key × V)) :=
  if params.all (fun p => (d.lookup p.1).any fun v => shape v = shape p.2) && d.all (fun e => (params.lookup e.1).isSome) then
    some (params.map fun p => (p.1, (d.lookup p.1).getD p.2))
  else none

/-- `_load_from_other_checkpoint` (encoder.py:118-152). -/
def initFrom (shape : V → List Nat) (pairs : List (Key × Key)) (params sd : List (Key × V)) : Option (List (Key × V)) :=
  loadStrict shape params (extract sd pairs params)

end DeepGNN.InitCkpt
