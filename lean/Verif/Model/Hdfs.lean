import Verif.Model.Bytes

/-
Reading an HDFS file through a buffer (src/cc/lib/graph/storage.h, src/cc/lib/graph/hdfs_wrap.cc).  A failure is `none`: an
exception, a fatal log, or undefined behaviour (overlapping memcpy, negative result of hdfsRead).
-/

namespace DeepGNN.Stream

/-- `BUFFER_SIZE` (storage.h:225, hdfs_wrap.cc:14). -/
def bufferSize : Nat := 4096

/-- What `hdfsRead` returns in its `k`-th call for a request of `n` bytes: at most that many bytes, fewer at the end of the
file or whenever the file system likes; -1 on errors. -/
abbrev Reader := Nat → Nat → Int

/-- `hdfsRead_so(fs, file, buffer, n)`: bytes from position `pos`; `none` if it returns an error: the caller would write before
its buffer (hdfs_wrap.cc:236-239). -/
def hdfsRead (file : Bytes) (reader : Reader) (k pos n : Nat) : Option Bytes :=
  if reader k n < 0 then none else some ((file.drop pos).take (min n (reader k n).toNat))

/-- Handle of an open file: position and number of calls so far. -/
structure Handle where
  pos : Nat
  calls : Nat
deriving DecidableEq

/-- `HDFSConnection::read` (hdfs_wrap.cc:221-246): pieces of at most `cap` bytes, each with up to two calls; `fuel` bounds the
number of pieces. -/
def connRead (cap : Nat) (file : Bytes) (reader : Reader) : Nat → Nat → Handle → Option (Bytes × Handle)
  | 0, readSize, h => if readSize > 0 then none else some ([], h)
  | fuel + 1, readSize, h =>
    if readSize > 0 then
      let curr := min readSize cap
      (hdfsRead file reader h.calls h.pos curr).bind fun first =>
        (if first.length < curr then
          (hdfsRead file reader (h.calls + 1) (h.pos + first.length) (curr - first.length)).map fun second =>
            (first ++ second, h.calls + 2)
        else some (first, h.calls + 1)).bind fun got =>
          if got.1.length ≠ curr then none
          else (connRead cap file reader fuel (readSize - curr) ⟨h.pos + curr, got.2⟩).map fun rest =>
            (got.1 ++ rest.1, rest.2)
    else some ([], h)

/-- `HDFSStreamStorage` (storage.h:136-234). -/
structure State where
  buffer : Bytes
  bufferOffset : Nat
  offset : Nat
  handle : Handle
deriving DecidableEq

/-- `start` (storage.h:175-180): it does not move the position in the file. -/
def start (cap : Nat) (s : State) : State := { s with bufferOffset := cap, offset := 0 }

/-- `memcpy` inside one buffer from position `src` to its beginning: undefined if the regions overlap. -/
def memcpyFront (buffer : Bytes) (src n : Nat) : Option Bytes :=
  if src < n then none else some ((buffer.drop src).take n ++ buffer.drop n)

/-- `memcpy` of bytes from outside into the buffer. -/
def memcpyAt (buffer : Bytes) (dst : Nat) (bytes : Bytes) : Bytes :=
  buffer.take dst ++ bytes ++ buffer.drop (dst + bytes.length)

/-- `read(output, size, count, _)` for `bytes = size * count` (storage.h:182-215). -/
def read (cap : Nat) (file : Bytes) (reader : Reader) (bytes : Nat) (s : State) : Option (Bytes × State) :=
  let left := cap - s.bufferOffset
  if bytes > cap then
    (connRead cap file reader (bytes - left) (bytes - left) s.handle).map fun got =>
      ((s.buffer.drop s.bufferOffset).take left ++ got.1,
        { s with bufferOffset := cap, offset := s.offset + (bytes - left), handle := got.2 })
  else if s.offset = file.length ∧ left < bytes then none
  else if left < bytes then
    (memcpyFront s.buffer s.bufferOffset left).bind fun buffer =>
      let readSize := min s.bufferOffset (file.length - s.offset)
      if readSize = 0 then none
      else (connRead cap file reader readSize readSize s.handle).map fun got =>
        let buffer := memcpyAt buffer left got.1
        (buffer.take bytes, ⟨buffer, bytes, s.offset + readSize, got.2⟩)
  else some ((s.buffer.drop s.bufferOffset).take bytes, { s with bufferOffset := s.bufferOffset + bytes })

/-- A sequence of reads. -/
def readAll (cap : Nat) (file : Bytes) (reader : Reader) : List Nat → State → Option (List Bytes × State)
  | [], s => some ([], s)
  | n :: ns, s =>
    (read cap file reader n s).bind fun r => (readAll cap file reader ns r.2).map fun rest => (r.1 :: rest.1, rest.2)

/-- A file that was just opened and started; `garbage` is what `malloc` left in the buffer (storage.h:153). -/
def opened (cap : Nat) (garbage : Bytes) : State := start cap ⟨garbage, 0, 0, ⟨0, 0⟩⟩

end DeepGNN.Stream
