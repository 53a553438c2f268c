import Verif.Model.Files

/-
The text reader (src/python/deepgnn/graph_engine/_adl_reader.py TextFileIterator): a thread reads blocks of the files,
each by several threads, into a queue; the iterator takes lines out of the queue.
A file is the list of its bytes, a line a list of bytes.  The single producer and the single consumer of the queue see
the same sequence of items whatever the schedule, and the reading threads write to separate places: only the sequence
is modelled.  Not modelled: invalid UTF-8; line separators outside ASCII (U+0085, U+2028, U+2029), assumed absent;
errors of the file system.
-/

namespace DeepGNN.Text

abbrev Bytes := List Nat

/-- The ASCII characters at which `str.splitlines` splits. -/
def isBreak (b : Nat) : Bool := [10, 11, 12, 13, 28, 29, 30].contains b

/-- `str.splitlines(False)`: `cur` is the line so far, `cr` says that the last character was "\r" (so "\n" is part of
the same line end). -/
def splitAux (cr : Bool) (cur : Bytes) : Bytes → List Bytes
  | [] => if cur = [] then [] else [cur]
  | b :: l =>
    if cr && b == 10 then splitAux false [] l
    else if isBreak b then cur :: splitAux (b == 13) [] l
    else splitAux false (cur ++ [b]) l

def splitlines (l : Bytes) : List Bytes := splitAux false [] l

/-- `strip("\r\n")`. -/
def strip (l : Bytes) : Bytes :=
  ((l.dropWhile fun b => b == 10 || b == 13).reverse.dropWhile fun b => b == 10 || b == 13).reverse

/-- What a block contains (_adl_reader.py:147-149): the bytes before the first newline, whole lines, the bytes after the
last newline, the number of bytes. -/
structure Piece where
  pre : Option Bytes
  lines : List Bytes
  suf : Option Bytes
  len : Nat
deriving DecidableEq, Repr

/-- `_read_block_worker` (_adl_reader.py:154-188) on the bytes it has read. -/
def readPiece (sub : Bytes) : Piece :=
  if sub.length = 0 then ⟨none, [], none, 0⟩
  else if sub.contains 10 then
    let first := sub.findIdx (· == 10)
    let last := sub.length - 1 - sub.reverse.findIdx (· == 10)
    { pre := some (sub.take first), suf := some (sub.drop (last + 1)), len := sub.length,
      lines := if last ≠ first then splitlines ((sub.take last).drop (first + 1)) else [] }
  else ⟨some sub, [], none, sub.length⟩

/-- Body of the merging loop (_adl_reader.py:217-249); `head_buf` is the suffix or the prefix of the head, changed in
place. -/
def mergePiece (head cur : Piece) : Piece :=
  match cur.pre with
  | none => { head with len := head.len + cur.len }
  | some p =>
    match head.suf with
    | some s =>
      match cur.suf with
      | none => { head with len := head.len + cur.len, suf := some (s ++ p) }
      | some s' => { head with len := head.len + cur.len, lines := head.lines ++ splitlines (s ++ p) ++ cur.lines, suf := some s' }
    | none =>
      match cur.suf with
      | none => { head with len := head.len + cur.len, pre := some (head.pre.getD [] ++ p) }
      | some s' =>
        { head with len := head.len + cur.len, pre := some (head.pre.getD [] ++ p), lines := head.lines ++ cur.lines, suf := some s' }

/-- The bytes each of the `t + 1` threads reads (_adl_reader.py:190-207): `len` bytes from `off`. -/
def subBlocks (content : Bytes) (off len t : Nat) : List Bytes :=
  let sub := len / (t + 1)
  (List.range t).map (fun i => (content.drop (off + i * sub)).take sub) ++ [(content.drop (off + t * sub)).take (len - t * sub)]

/-- `_read_block_by_threads` (_adl_reader.py:144-251) with `t + 1` threads. -/
def readBlock (content : Bytes) (off len t : Nat) : Piece :=
  match (subBlocks content off len t).map readPiece with
  | [] => ⟨none, [], none, 0⟩
  | p :: ps => ps.foldl mergePiece p

/-- The loop of `_read_block` (_adl_reader.py:259-303) over one file: blocks until one is empty. -/
def fileItems (content : Bytes) (len t : Nat) : Nat → Nat → List Piece
  | 0, _ => []
  | fuel + 1, off =>
    let p := readBlock content off len t
    if p.len = 0 then [] else p :: fileItems content len t fuel (off + p.len)

/-- The item put at the end of a file and of an epoch (_adl_reader.py:269-276, 286-293). -/
def flush : Piece := ⟨some [], [], some [], 0⟩

/-- All items before `FetchDone` (_adl_reader.py:259-303); `files` are the files of all epochs one after the other
(shuffled or not), between any two of them there is one empty item. -/
def items (len t : Nat) : List Bytes → List Piece
  | [] => []
  | [f] => fileItems f len t (f.length + 1) 0
  | f :: fs => fileItems f len t (f.length + 1) 0 ++ flush :: items len t fs

/-- State of the iterator: `remain_bytes`, `remain_lines`, the items still to come (then `FetchDone`), `end`. -/
structure Reader where
  bytes : Bytes
  lines : List Bytes
  queue : List Piece
  done : Bool
deriving DecidableEq, Repr

/-- The end of the stream (_adl_reader.py:377-382). -/
def lastLine (bytes : Bytes) : List Bytes :=
  if bytes.length ≠ 0 then (if (strip bytes).length > 0 then [strip bytes] else []) else []

/-- The loop of `__next__` (_adl_reader.py:363-394): the batch, the remaining bytes, lines and items, and whether
`FetchDone` was taken. -/
def fillLoop (k : Nat) (queue : List Piece) (buf : List Bytes) (bytes : Bytes) (lines : List Bytes) : List Bytes × Reader :=
  if buf.length < k then
    if lines.length > 0 ∧ ¬ k - buf.length > lines.length then
      (buf ++ lines.take (k - buf.length), ⟨bytes, lines.drop (k - buf.length), queue, false⟩)
    else
      match queue with
      | [] => (buf ++ lines ++ lastLine bytes, ⟨bytes, [], [], true⟩)
      | it :: queue =>
        let bytes := bytes ++ it.pre.getD []
        match it.suf with
        | none => fillLoop k queue (buf ++ lines) bytes []
        | some s => fillLoop k queue (buf ++ lines) s ((if bytes.length > 0 then splitlines bytes else []) ++ it.lines)
  else (buf, ⟨bytes, lines, queue, false⟩)

/-- `__next__` (_adl_reader.py:356-406); `none`: the iteration stops. -/
def next (k : Nat) (dropLast : Bool) (st : Reader) : Option (List Bytes × Reader) :=
  if st.done then none
  else
    let r := fillLoop k st.queue [] st.bytes st.lines
    if r.1.length = 0 ∨ (dropLast ∧ r.1.length < k) then none
    else some (r.1, { r.2 with done := r.2.done || r.1.length != k })

/-- `for batch in iterator`; `none`: still running after `fuel` batches. -/
def batches (k : Nat) (dropLast : Bool) : Nat → Reader → Option (List (List Bytes))
  | 0, _ => none
  | fuel + 1, st =>
    match next k dropLast st with
    | none => some []
    | some (b, st) => (batches k dropLast fuel st).map (b :: ·)

/-- The iterator after `reset` (_adl_reader.py:129-142). -/
def start (len t : Nat) (files : List Bytes) : Reader := ⟨[], [], items len t files, false⟩

end DeepGNN.Text
