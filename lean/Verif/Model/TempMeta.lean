import Verif.Model.Bytes

/-
Metadata of graphs on HDFS: src/cc/lib/graph/metadata.cc:26-50.  The constructor copies meta.json to the directory for temporary files of
the machine, under the same name, and parses the copy.  Any number of constructors run at the same time, in threads or processes; an
action is a call of the operating system, or several of one constructor.
-/

namespace DeepGNN.TempMeta

/-- Where a constructor is: meta.json is in memory, the copy is open with so many bytes written, the copy is closed, these are the bytes
that are parsed (`none`: there is no file). -/
inductive Phase where
  | fetched
  | writing (pos : Nat)
  | closed
  | parsed (bytes : Option Bytes)
deriving DecidableEq

structure State where
  copy : Option Bytes
  phase : Nat → Phase

inductive Act where
  | create (i : Nat)
  | write (i n : Nat)
  | close (i : Nat)
  | parse (i : Nat)
deriving DecidableEq

/-- Who acts. -/
def Act.who : Act → Nat
  | .create i | .write i _ | .close i | .parse i => i

/-- `write` at a position; a gap is filled with zeros. -/
def writeAt (file : Bytes) (pos : Nat) (bytes : Bytes) : Bytes :=
  if bytes = [] then file
  else file.take pos ++ List.replicate (pos - file.length) 0 ++ bytes ++ file.drop (pos + bytes.length)

/-- Change of the phase of `i`. -/
def setPhase (s : State) (i : Nat) (p : Phase) : Nat → Phase := fun j => if j = i then p else s.phase j

/-- One action, `content i` is meta.json of the graph `i` loads; `none` if it is not possible. -/
def exec (content : Nat → Bytes) (s : State) : Act → Option State
  -- `open_meta(path, "w")` (metadata.cc:36-37, locator.cc:10-23)
  | .create i =>
    match s.phase i with
    | .fetched => some ⟨some [], setPhase s i (.writing 0)⟩
    | _ => none
  -- `fprintf` when its buffer is full (metadata.cc:38-44)
  | .write i n =>
    match s.phase i with
    | .writing pos =>
      some ⟨s.copy.map fun f => writeAt f pos (((content i).drop pos).take n),
        setPhase s i (.writing (min (pos + n) (content i).length))⟩
    | _ => none
  -- `fclose` writes the rest (metadata.cc:45)
  | .close i =>
    match s.phase i with
    | .writing pos => some ⟨s.copy.map fun f => writeAt f pos ((content i).drop pos), setPhase s i .closed⟩
    | _ => none
  -- `ifstream` and `json::parse` (metadata.cc:49-50)
  | .parse i =>
    match s.phase i with
    | .closed => some ⟨s.copy, setPhase s i (.parsed s.copy)⟩
    | _ => none

def run (content : Nat → Bytes) : State → List Act → Option State
  | s, [] => some s
  | s, a :: as => (exec content s a).bind fun t => run content t as

/-- Before the constructors start; the directory may have a meta.json. -/
def init (copy : Option Bytes) : State := ⟨copy, fun _ => .fetched⟩

end DeepGNN.TempMeta
