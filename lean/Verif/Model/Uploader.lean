/-
Bulk embedding writer (src/python/deepgnn/graph_engine/adl_uploader.py).  Text is a list of characters: the encoding to
bytes is not modelled (it maps concatenation to concatenation, and only the empty text to no bytes).  The network file
system accepts every write.
-/

namespace DeepGNN.Uploader

abbrev Line := List Char

/-- A chunk: text of one or more lines. -/
abbrev Chunk := List Char

/-- How `Queue.put(chunk, timeout=1)` ends: done, `ValueError` (the queue is closed) or `queue.Full` (not caught). -/
inductive Put where
  | done | closed | full
deriving DecidableEq

/-- One queue per process and the number of chunks so far. -/
structure State where
  queues : List (List Chunk)
  total : Nat
deriving DecidableEq

/-- How a call of `writelines` ends. -/
inductive Result where
  | returned (ok : Bool) (s : State)
  | raised (s : State)
  | diverges
deriving DecidableEq

/-- `queues[i].put(c)`. -/
def enqueue (queues : List (List Chunk)) (i : Nat) (c : Chunk) : List (List Chunk) := queues.modify i (· ++ [c])

/-- `"\n".join(lines) + "\n"` (adl_uploader.py:242). -/
def chunkText (lines : List Line) : Chunk := List.intercalate ['\n'] lines ++ ['\n']

/-- The loop of `writelines` (adl_uploader.py:234-253) from line `offset` on, with a bound on its iterations (with
`max_lines_per_chunk = 0` the program does not stop).  `running k` and `put k` are the state of the writer and the outcome of
`put` in iteration `k`. -/
def writeLoop (maxLines : Nat) (running : Nat → Bool) (put : Nat → Put) (embeds : List Line) :
    Nat → Nat → Nat → State → Result
  | 0, offset, _, s => if offset < embeds.length then .diverges else .returned true s
  | fuel + 1, offset, k, s =>
    if offset < embeds.length then
      let endOffset := if offset + maxLines < embeds.length then offset + maxLines else embeds.length
      if running k then
        let chunk := chunkText ((embeds.drop offset).take (endOffset - offset))
        match put k with
        | .done =>
          writeLoop maxLines running put embeds fuel endOffset (k + 1)
            ⟨enqueue s.queues (s.total % s.queues.length) chunk, s.total + 1⟩
        | .closed => writeLoop maxLines running put embeds fuel endOffset (k + 1) ⟨s.queues, s.total + 1 + 1⟩
        | .full => .raised s
      else .returned false s
    else .returned true s

/-- `AdlDataWriter.writelines` (adl_uploader.py:229-253): every iteration takes at least one line, so as many iterations as
lines are enough if `max_lines_per_chunk > 0`. -/
def writelines (maxLines : Nat) (running : Nat → Bool) (put : Nat → Put) (embeds : List Line) (s : State) : Result :=
  writeLoop maxLines running put embeds embeds.length 0 0 s

/-- A file: its index and the chunks written to it. -/
structure File where
  index : Nat
  chunks : List Chunk
deriving DecidableEq

/-- State of an upload thread: number of chunks, next file index, files; the last one is open. -/
structure Worker where
  count : Nat
  fileIndex : Nat
  files : List File
deriving DecidableEq

/-- `out_file.write(chunk)`. -/
def writeLast : List File → Chunk → List File
  | [], _ => []
  | [f], c => [{ f with chunks := f.chunks ++ [c] }]
  | f :: g :: fs, c => f :: writeLast (g :: fs) c

/-- One iteration of `_create_worker` with a chunk (adl_uploader.py:87-100). -/
def workerStep (maxChunks : Nat) (w : Worker) (chunk : Chunk) : Worker :=
  let w := if w.count = 0 ∨ (maxChunks > 0 ∧ w.count % maxChunks = 0) then
      { w with files := w.files ++ [⟨w.fileIndex, []⟩], fileIndex := w.fileIndex + 1 }
    else w
  { w with files := writeLast w.files chunk, count := w.count + 1 }

/-- `_create_worker` (adl_uploader.py:69-100) on the chunks it takes from the queue of its process; an empty chunk ends it
like the end marker. -/
def workerLoop (maxChunks : Nat) : List Chunk → Worker → Worker
  | [], w => w
  | c :: cs, w => if c = [] then w else workerLoop maxChunks cs (workerStep maxChunks w c)

def worker (maxChunks : Nat) (chunks : List Chunk) : List File := (workerLoop maxChunks chunks ⟨0, 0, []⟩).files

/-- `_start_process` (adl_uploader.py:214-218): chunks handed on to the threads, up to the end marker or an empty chunk. -/
def forward : List Chunk → List Chunk
  | [] => []
  | c :: cs => if c = [] then [] else c :: forward cs

/-- The threads of a process take turns in any order: `who j` is the thread that gets chunk `j`. -/
def threadChunks (who : Nat → Nat) (t : Nat) (chunks : List Chunk) : List Chunk :=
  (chunks.zipIdx.filter fun p => who p.2 = t).map (·.1)

/-- Name of a file after the common prefix (adl_uploader.py:93). -/
def fileName (process thread index : Nat) : List Char :=
  '_' :: Nat.toDigits 10 process ++ '_' :: Nat.toDigits 10 thread ++ '_' :: Nat.toDigits 10 index ++ ".tsv".toList

/-- All files after `close`: process, thread and file. -/
def upload (maxChunks threads : Nat) (who : Nat → Nat → Nat) (queues : List (List Chunk)) : List (Nat × Nat × File) :=
  queues.zipIdx.flatMap fun q =>
    (List.range threads).flatMap fun t =>
      (worker maxChunks (threadChunks (who q.2) t (forward q.1))).map fun f => (q.2, t, f)

end DeepGNN.Uploader
