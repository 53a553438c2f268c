import Verif.Model.TextReader

/-
Conversion as it runs (src/python/deepgnn/graph_engine/snark/convert.py, dispatcher.py, converter/process.py): the thread
which reads and dispatches lines, the converter threads or processes with their pipes or queues, and all ways in which they
can be scheduled, fail or be interrupted.  What a converter writes for a line is in Verif/Model/Writer.lean, here it is the
list of the lines it has written.  A pipe or queue holds at most `cap` messages.
-/

namespace DeepGNN.ConvertRun

/-- What is sent to a converter (dispatcher.py:144, 152, 314, 325). -/
inductive Msg (α : Type)
  | line (a : α)
  | done
deriving DecidableEq, Repr

/-- Where a converter is (converter/process.py:45-86): in the loop, after `binary_writer.close()`, after it reported, or
gone after an exception. -/
inductive Phase
  | running
  | closed
  | reported
  | dead
deriving DecidableEq, Repr

structure Worker (α : Type) where
  pipe : List (Msg α) := []
  written : List α := []
  phase : Phase := .running

/-- The dispatcher: number of converters, which of them gets a line (`count` lines were dispatched before), and whether all
converters are told about the end or only those which got a line. -/
structure Dispatcher (α : Type) where
  procs : Nat
  target : Nat → α → Nat
  all : Bool

/-- `PipeDispatcher` (dispatcher.py:138-152). -/
def pipe (α : Type) (procs : Nat) : Dispatcher α := ⟨procs, fun count _ => count % procs, true⟩

/-- `QueueDispatcher` (dispatcher.py:307-326). -/
def queue {α : Type} (procs : Nat) (part : α → Nat) : Dispatcher α := ⟨procs, fun _ a => part a, false⟩

structure St (α : Type) where
  /-- lines the file iterator is going to yield -/
  input : List α
  /-- `self.count` -/
  count : Nat := 0
  workers : Nat → Worker α := fun _ => {}
  /-- converters which got a line (`active_partitions`) -/
  active : List Nat := []
  /-- `none` while lines are dispatched (convert.py:133-135), then the converters still to be told about the end -/
  todo : Option (List Nat) := none
  flagged : List Nat := []
  /-- reports in `q_out`, reports taken out of it -/
  out : List Nat := []
  got : List Nat := []
  /-- the metadata file is written and `convert` returns (convert.py:184-193) -/
  saved : Bool := false

def upd {β : Type} (f : Nat → β) (i : Nat) (v : β) : Nat → β := fun j => if j = i then v else f j

/-- Order in which the converters are told about the end: by number (dispatcher.py:151-152), or the set of active ones in any
order (dispatcher.py:324). -/
def Order {α : Type} (d : Dispatcher α) (active order : List Nat) : Prop :=
  if d.all then order = List.range d.procs else order.Nodup ∧ ∀ i, i ∈ order ↔ i ∈ active

/-- One step of one of the threads.  `ok` says which lines can be decoded and written. -/
inductive Step {α : Type} (d : Dispatcher α) (cap : Nat) (ok : α → Bool) : St α → St α → Prop
  /-- `dispatch` (dispatcher.py:138-147, 307-320); a converter that does not exist raises -/
  | send {s : St α} {a : α} {l : List α} (hp : s.todo = none) (hi : s.input = a :: l) (ht : d.target s.count a < d.procs)
      (hc : (s.workers (d.target s.count a)).pipe.length < cap) :
      Step d cap ok s { s with
        input := l, count := s.count + 1, active := d.target s.count a :: s.active
        workers := upd s.workers (d.target s.count a)
          { s.workers (d.target s.count a) with pipe := (s.workers (d.target s.count a)).pipe ++ [.line a] } }
  /-- the iterator stops, `join` is called (convert.py:137) -/
  | stop {s : St α} {order : List Nat} (hp : s.todo = none) (hi : s.input = []) (ho : Order d s.active order) :
      Step d cap ok s { s with todo := some order }
  /-- a converter is told about the end (dispatcher.py:151-152, 324-326) -/
  | flag {s : St α} {i : Nat} {l : List Nat} (hp : s.todo = some (i :: l)) (hc : (s.workers i).pipe.length < cap) :
      Step d cap ok s { s with
        todo := some l, flagged := s.flagged ++ [i]
        workers := upd s.workers i { s.workers i with pipe := (s.workers i).pipe ++ [.done] } }
  /-- a line is decoded and written (process.py:57-66) -/
  | write {s : St α} {i : Nat} {a : α} {l : List (Msg α)} (hi : i < d.procs) (hr : (s.workers i).phase = .running)
      (hl : (s.workers i).pipe = .line a :: l) (ha : ok a = true) :
      Step d cap ok s { s with workers := upd s.workers i ⟨l, (s.workers i).written ++ [a], .running⟩ }
  /-- a line cannot be decoded or written: the exception ends the converter -/
  | fail {s : St α} {i : Nat} {a : α} {l : List (Msg α)} (hi : i < d.procs) (hr : (s.workers i).phase = .running)
      (hl : (s.workers i).pipe = .line a :: l) (ha : ok a = false) :
      Step d cap ok s { s with workers := upd s.workers i ⟨l, (s.workers i).written, .dead⟩ }
  /-- the end of the loop (process.py:63-64, 68) -/
  | close {s : St α} {i : Nat} {l : List (Msg α)} (hi : i < d.procs) (hr : (s.workers i).phase = .running)
      (hl : (s.workers i).pipe = .done :: l) :
      Step d cap ok s { s with workers := upd s.workers i ⟨l, (s.workers i).written, .closed⟩ }
  /-- the report (process.py:69-86); `q_out` has room for all of them -/
  | report {s : St α} {i : Nat} (hi : i < d.procs) (hr : (s.workers i).phase = .closed) :
      Step d cap ok s { s with out := s.out ++ [i], workers := upd s.workers i { s.workers i with phase := .reported } }
  /-- a report is received (dispatcher.py:154-168, 328-342) -/
  | get {s : St α} {i : Nat} {l : List Nat} (hp : s.todo = some []) (hg : s.got.length < s.flagged.length) (ho : s.out = i :: l) :
      Step d cap ok s { s with out := l, got := s.got ++ [i] }
  /-- the metadata is written (convert.py:161-193) -/
  | save {s : St α} (hp : s.todo = some []) (hg : s.got.length = s.flagged.length) (hs : s.saved = false) :
      Step d cap ok s { s with saved := true }

/-- A converter ends by itself: no space on the disk, killed. -/
inductive Crash {α : Type} (d : Dispatcher α) : St α → St α → Prop
  | crash {s : St α} {i : Nat} (hi : i < d.procs) (hr : (s.workers i).phase = .running ∨ (s.workers i).phase = .closed) :
      Crash d s { s with workers := upd s.workers i { s.workers i with phase := .dead } }

/-- The states a conversion of `lines` can be in. -/
inductive Reach {α : Type} (d : Dispatcher α) (cap : Nat) (ok : α → Bool) (lines : List α) : St α → Prop
  | init : Reach d cap ok lines { input := lines }
  | step {s s' : St α} : Reach d cap ok lines s → Step d cap ok s s' → Reach d cap ok lines s'
  | crash {s s' : St α} : Reach d cap ok lines s → Crash d s s' → Reach d cap ok lines s'

/-- The metadata file in the output folder: `old` was there before (convert.py:184-193 is the only place that writes it). -/
def metaFile {α μ : Type} (old : Option μ) (new : μ) (s : St α) : Option μ := if s.saved then some new else old

end DeepGNN.ConvertRun

namespace DeepGNN.Text

/-- How the reading of a part of a block ends (_adl_reader.py:153-192); nobody looks at the futures. -/
inductive Outcome
  | read
  /-- an exception while the file is opened or read: the entry keeps its initial values -/
  | failed
  /-- the lines between the first and the last line break are not UTF-8: the other fields are already set -/
  | undecodable
deriving DecidableEq, Repr

/-- `_read_block_worker` (_adl_reader.py:153-192). -/
def readPieceF (o : Outcome) (sub : Bytes) : Piece :=
  match o with
  | .read => readPiece sub
  | .failed => ⟨none, [], none, 0⟩
  | .undecodable => { readPiece sub with lines := [] }

/-- `_read_block_by_threads` (_adl_reader.py:144-251): `o i` is the outcome of thread `i`. -/
def readBlockF (o : Nat → Outcome) (content : Bytes) (off len t : Nat) : Piece :=
  match (subBlocks content off len t).zipIdx.map fun x => readPieceF (o x.2) x.1 with
  | [] => ⟨none, [], none, 0⟩
  | p :: ps => ps.foldl mergePiece p

/-- The blocks of one file (_adl_reader.py:259-303): `o off i` is the outcome of thread `i` at `off`. -/
def fileItemsF (o : Nat → Nat → Outcome) (content : Bytes) (len t : Nat) : Nat → Nat → List Piece
  | 0, _ => []
  | fuel + 1, off =>
    let p := readBlockF (o off) content off len t
    if p.len = 0 then [] else p :: fileItemsF o content len t fuel (off + p.len)

/-- The iterator over one file, one epoch. -/
def startF (o : Nat → Nat → Outcome) (len t : Nat) (content : Bytes) : Reader :=
  ⟨[], [], fileItemsF o content len t (content.length + 1) 0, false⟩

end DeepGNN.Text
