/-!
# Loading a Hugging Face checkpoint into the DeepSpeed BERT model

Model of `src/python/deepgnn/pytorch/encoding/twinbert/deepspeed/convert_bert_ckpt_to_deepspeed.py`,
lines 18-24 (`set_data`), 174-281 (`load_hf_weights_in_bert_kernel`) and 283-325
(`load_hf_weights_in_bert_torch`).

Names are lists of characters, cut and searched as in Python.  A model is the set of its attribute
paths, the number of its layers and the size of each parameter.  Simplifications: an array is the list
of its rows along the first axis, and all rows of a parameter have the length they have in the
checkpoint, so shapes agree when the numbers of rows do; digits are ASCII; logging is left out; an
exception is `none`.
-/

namespace DeepGNN.BertLoad

abbrev Name := List Char

/-- One step from a module to a part of it: `getattr(pointer, n)` or `pointer[i]`. -/
inductive Seg where
  | attr (n : Name)
  | item (i : Nat)
  deriving DecidableEq, Repr

abbrev Path := List Seg

/-- The model that is loaded into. -/
structure Model where
  /-- `getattr` finds a module or parameter at this path -/
  attrs : Path → Bool
  /-- `len(encoder.layer)` -/
  layers : Nat
  /-- rows of the parameter at this path, if there is one -/
  size : Path → Option Nat

/-- The six pieces of the attention weights (lines 215-226). -/
inductive Key where
  | qw | qb | kw | kb | vw | vb
  deriving DecidableEq, Repr

/-- `s.find(pat)`: the first place `pat` occurs at. -/
def pos (pat : Name) : Name → Option Nat
  | [] => if pat.isEmpty then some 0 else none
  | c :: l => if pat.isPrefixOf (c :: l) then some 0 else (pos pat l).map (· + 1)

/-- `s.find(pat) > 0` -/
def found (pat s : Name) : Bool :=
  match pos pat s with
  | some (_ + 1) => true
  | _ => false

/-- `name_str.split(".")` (lines 186, 295). -/
def dots : Name → List Name
  | [] => [[]]
  | c :: l =>
    if c = '.' then [] :: dots l
    else match dots l with
      | [] => [[c]]
      | w :: ws => (c :: w) :: ws

/-- `m_name.isnumeric()` (line 209), for ASCII. -/
def isNumeric (n : Name) : Bool := !n.isEmpty && n.all Char.isDigit

/-- The tests of lines 215-246 in their order: what the name has to contain, whether `attention` must
not occur, and what follows: a piece of the attention weights or an attribute of the layer. -/
def kernelTable : List (Name × Bool × (Key ⊕ Name)) :=
  [("attention.self.query.weight".toList, false, .inl .qw),
   ("attention.self.query.bias".toList, false, .inl .qb),
   ("attention.self.key.weight".toList, false, .inl .kw),
   ("attention.self.key.bias".toList, false, .inl .kb),
   ("attention.self.value.weight".toList, false, .inl .vw),
   ("attention.self.value.bias".toList, false, .inl .vb),
   ("attention.output.dense.weight".toList, false, .inr "attn_ow".toList),
   ("attention.output.dense.bias".toList, false, .inr "attn_ob".toList),
   ("attention.output.LayerNorm.weight".toList, false, .inr "attn_nw".toList),
   ("attention.output.LayerNorm.bias".toList, false, .inr "attn_nb".toList),
   ("intermediate.dense.weight".toList, false, .inr "inter_w".toList),
   ("intermediate.dense.bias".toList, false, .inr "inter_b".toList),
   ("output.dense.weight".toList, true, .inr "output_w".toList),
   ("output.dense.bias".toList, true, .inr "output_b".toList),
   ("output.LayerNorm.weight".toList, true, .inr "norm_w".toList),
   ("output.LayerNorm.bias".toList, true, .inr "norm_b".toList)]

/-- The branch taken for a name inside a layer (lines 215-248); `none` is the `ValueError`. -/
def kernelPart (full : Name) : Option (Key ⊕ Name) :=
  (kernelTable.find? fun x =>
    found x.1 full && (!x.2.1 || (pos "attention".toList full).isNone)).map (·.2.2)

/-- The loop over the parts of a name (lines 191-249).  `some none`: skipped; `some (some (p, key))`:
the pointer after the loop and the piece of the attention weights. -/
def walk (m : Model) (full : Name) : Bool → Path → List Name → Option (Option (Path × Option Key))
  | _, p, [] => some (some (p, none))
  | isLayer, p, n :: rest =>
    let next : Option (Option Path) :=
      if (pos "bert.pooler.dense".toList full).isSome ∧ n = "dense".toList then
        if m.attrs (p ++ [.attr "dense_act".toList]) then some (some (p ++ [.attr "dense_act".toList]))
        else none
      else if isLayer then some (some p)
      else if m.attrs (p ++ [.attr n]) then some (some (p ++ [.attr n])) else some none
    match next with
    | none => none
    | some none => some none
    | some (some q) =>
      if n = "layer".toList then walk m full true q rest
      else if isNumeric n && isLayer then
        let i := Nat.ofDigitChars 10 n 0
        if m.layers ≤ i then none
        else match kernelPart full with
          | none => none
          | some (.inl key) => some (some (q ++ [.item i], some key))
          | some (.inr a) =>
            if m.attrs (q ++ [.item i, .attr a]) then some (some (q ++ [.item i, .attr a], none))
            else none
      else walk m full isLayer q rest

/-- Loaded values and the pieces collected in `qkv`. -/
structure State (α : Type) where
  value : Path → Option (List α)
  qkv : Key → Option (List α)

/-- Before the loop (line 182). -/
def State.start {α} : State α := ⟨fun _ => none, fun _ => none⟩

/-- `set_data` (lines 18-24). -/
def setData {α} (m : Model) (s : State α) (p : Path) (array : List α) : Option (State α) :=
  if m.size p = some array.length then
    some { s with value := fun q => if q = p then some array else s.value q }
  else none

/-- `pointer = getattr(pointer, n)` and `set_data` after the padding of the vocabulary
(lines 259-268 and 273-278). -/
def finish {α} (m : Model) (zero : α) (diff : Nat) (full : Name) (s : State α) (p : Path)
    (array : List α) : Option (State α) :=
  let array := if 0 < diff ∧ (pos "embeddings.word_embeddings".toList full).isSome
    then array ++ List.replicate diff zero else array
  if m.attrs p ∨ p = [] then setData m s p array else none

/-- The three pieces one after the other, if all are there (lines 257-258 and 263-264). -/
def triple {α} (q k v : Option (List α)) : Option (List α) :=
  q.bind fun q => k.bind fun k => v.map fun v => q ++ k ++ v

/-- One variable of the checkpoint (lines 183-279). -/
def loadOne {α} (m : Model) (zero : α) (diff : Nat) (s : State α) (x : Name × List α) :
    Option (State α) :=
  match walk m x.1 false [] (dots x.1) with
  | none => none
  | some none => some s
  | some (some (p, key)) =>
    let qkv : Key → Option (List α) :=
      match key with
      | some k => fun j => if j = k then some x.2 else s.qkv j
      | none => s.qkv
    match triple (qkv .qw) (qkv .kw) (qkv .vw), triple (qkv .qb) (qkv .kb) (qkv .vb) with
    | some all, _ =>
      finish m zero diff x.1
        { s with qkv := fun j => if j = .qw ∨ j = .kw ∨ j = .vw then none else qkv j }
        (p ++ [.attr "attn_qkvw".toList]) all
    | none, some all =>
      finish m zero diff x.1
        { s with qkv := fun j => if j = .qb ∨ j = .kb ∨ j = .vb then none else qkv j }
        (p ++ [.attr "attn_qkvb".toList]) all
    | none, none =>
      if key.isSome then some { s with qkv := qkv }
      else finish m zero diff x.1 { s with qkv := qkv } p x.2

/-- `load_hf_weights_in_bert_kernel` (lines 174-281). -/
def loadKernel {α} (m : Model) (zero : α) (diff : Nat) (ckpt : List (Name × List α)) :
    Option (State α) :=
  ckpt.foldlM (loadOne m zero diff) State.start

/-- The loop over the parts of a name in `load_hf_weights_in_bert_torch` (lines 300-312). -/
def walkTorch (m : Model) (full : Name) : Path → List Name → Option (Option Path)
  | p, [] => some (some p)
  | p, n :: rest =>
    if ((pos "intermediate.dense".toList full).isSome ∨ (pos "pooler.dense".toList full).isSome) ∧
        n = "dense".toList then
      if m.attrs (p ++ [.attr "dense_act".toList]) then
        walkTorch m full (p ++ [.attr "dense_act".toList]) rest
      else none
    else if m.attrs (p ++ [.attr n]) then walkTorch m full (p ++ [.attr n]) rest
    else some none

/-- `load_hf_weights_in_bert_torch` (lines 283-325). -/
def loadTorch {α} (m : Model) (zero : α) (diff : Nat) (ckpt : List (Name × List α)) :
    Option (State α) :=
  ckpt.foldlM (fun s x =>
    match walkTorch m x.1 [] (dots x.1) with
    | none => none
    | some none => some s
    | some (some p) => finish m zero diff x.1 s p x.2) State.start

end DeepGNN.BertLoad
