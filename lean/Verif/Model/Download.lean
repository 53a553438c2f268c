/-
Loading a graph from remote storage (src/python/deepgnn/graph_engine/snark/_downloader.py:34-102, meta.py:17-88; called by
snark/client.py:222-249, server.py:74-105), and the files that the engine then opens (src/cc/lib/graph/graph.cc:38-100,
locator.cc:25-87, partition.cc:138-206, 338-350, sampler.cc:216-232, 354-372, 486-492).
Simplifications: a file system is a number, 0 is the local one, and its content a list of files per directory; file names are lists
of characters without separators; the contents of files are opaque.  `fs.get` of a list of patterns (fsspec 2024.6.1) copies all
matching files to the target directory under their own names and raises if nothing matches.  The parsed meta.json is given with
the file.  `stoi` accepts no blanks and no sign and has no upper limit.
-/

namespace DeepGNN.Download

abbrev Name := List Char

/-- The files of a directory with their contents. -/
abbrev Dir (α : Type) := List (Name × α)

/-- What is stored: `protocol` tells the file system of a path (`get_fs`, _base.py:219-227), `files` its directories. -/
structure World (α : Type) where
  protocol : String → Nat
  files : Nat → String → Dir α

/-- A pattern with one `*`. -/
structure Pattern where
  pre : Name
  suf : Name

def Pattern.matches (x : Pattern) (n : Name) : Bool :=
  x.pre.isPrefixOf n && x.suf.isSuffixOf n && decide (x.pre.length + x.suf.length ≤ n.length)

/-- Numbers in file names. -/
def num (p : Nat) : Name := Nat.toDigits 10 p

def node : Name := ['n', 'o', 'd', 'e', '_']
def edge : Name := ['e', 'd', 'g', 'e', '_']
def features : Name := ['f', 'e', 'a', 't', 'u', 'r', 'e', 's', '_']
def neighbors : Name := ['n', 'e', 'i', 'g', 'h', 'b', 'o', 'r', 's', '_']
def dotMap : Name := ['.', 'm', 'a', 'p']
def dotIndex : Name := ['.', 'i', 'n', 'd', 'e', 'x']
def dotData : Name := ['.', 'd', 'a', 't', 'a']
def dotAlias : Name := ['.', 'a', 'l', 'i', 'a', 's']
def dotTimestamp : Name := ['.', 't', 'i', 'm', 'e', 's', 't', 'a', 'm', 'p']
def metaName : Name := ['m', 'e', 't', 'a', '.', 'j', 's', 'o', 'n']

/-- What meta.json says. -/
structure Info where
  nodeFeatures : Nat
  edgeFeatures : Nat
  watermark : Int

/-- The patterns for partition `p` (_downloader.py:50-96, meta.py:22-88 with iteration and type -1). -/
def patterns (c : Info) (p : Nat) : List Pattern :=
  [⟨node ++ num p ++ ['_'], dotMap⟩, ⟨neighbors ++ num p ++ ['_'], dotIndex⟩, ⟨node ++ num p ++ ['_'], dotIndex⟩,
    ⟨edge ++ num p ++ ['_'], dotIndex⟩] ++
  (if 0 < c.nodeFeatures then
    [⟨node ++ features ++ num p ++ ['_'], dotData⟩, ⟨node ++ features ++ num p ++ ['_'], dotIndex⟩] else []) ++
  (if 0 < c.edgeFeatures then
    [⟨edge ++ features ++ num p ++ ['_'], dotData⟩, ⟨edge ++ features ++ num p ++ ['_'], dotIndex⟩] else []) ++
  [⟨node, ['_'] ++ num p ++ dotAlias⟩, ⟨edge, ['_'] ++ num p ++ dotAlias⟩]

/-- The files that match the patterns in directories of file system `k`; `none` is the exception. -/
def fetch {α} (w : World α) (k : Nat) (l : List (String × Pattern)) : Option (Dir α) :=
  let found := l.flatMap fun y => (w.files k y.1).filter fun f => y.2.matches f.1
  if found.isEmpty then none else some found

/-- A file written to a directory. -/
def put {α} (d : Dir α) (f : Name × α) : Dir α := d.filter (fun x => x.1 != f.1) ++ [f]

/-- The content of a file. -/
def read {α} (d : Dir α) (n : Name) : Option α := (d.find? fun x => x.1 == n).map (·.2)

/-- A directory the engine is told to load: the temporary one, or that of a path. -/
inductive Place where
  | temp
  | path (s : String)

/-- `download_graph_data`: the temporary directory if there is one, and the partitions; `none` if it raises.
`parse` reads meta.json.  `fs` is the variable of that name: after the loop it is the file system of the last partition. -/
def download {α} (w : World α) (parse : α → Option Info) (path : String) (partitions : List (String × Nat)) :
    Option (Option (Dir α) × List (Place × Nat)) :=
  if w.protocol path = 0 then some (none, partitions.map fun y => (.path y.1, y.2))
  else
    (read (w.files (w.protocol path) path) metaName).bind fun a =>
    (parse a).bind fun c =>
    let lpath := partitions.flatMap fun y => if w.protocol y.1 = 0 then [] else (patterns c y.2).map fun x => (y.1, x)
    let fs := partitions.foldl (fun _ y => w.protocol y.1) (w.protocol path)
    (fetch w fs lpath).map fun found =>
      (some (found.foldl put [(metaName, a)]),
        partitions.map fun y => (if w.protocol y.1 = 0 then .path y.1 else .temp, y.2))

/-! Loading. -/

/-- The directory the engine opens: the temporary one, or the local one of that path (client.py:251-290; paths adl://, hdfs:// and
file:/// would be streamed by the engine, hdfs_wrap.cc:334-338, which is not modelled). -/
def opened {α} (w : World α) (t : Option (Dir α)) : Place → Dir α
  | .temp => t.getD []
  | .path s => w.files 0 s

/-- `path.stem()`. -/
def stem (n : Name) : Name :=
  match n.reverse.dropWhile (· != '.') with
  | [] => n
  | [_] => n
  | _ :: r => r.reverse

/-- `stoi`; `none` is the exception. -/
def stoi (cs : Name) : Option Nat :=
  let ds := cs.takeWhile Char.isDigit
  if ds.isEmpty then none else some (Nat.ofDigitChars 10 ds 0)

/-- `operator<` of strings, the reflexive closure. -/
def leName : Name → Name → Bool
  | [], _ => true
  | _ :: _, [] => false
  | a :: as, b :: bs => if a = b then leName as bs else decide (a.toNat < b.toNat)

def insertName (a : Name) : List Name → List Name
  | [] => [a]
  | b :: l => if leName a b then a :: b :: l else b :: insertName a l

def sortNames : List Name → List Name
  | [] => []
  | a :: l => insertName a (sortNames l)

/-- The suffix of a file that belongs to partition `p`, if any (graph.cc:60-74); `none` is the exception. -/
def suffix (p : Nat) (n : Name) : Option (Option Name) :=
  let full := stem n
  if full.length ≤ neighbors.length ∨ neighbors.isPrefixOf full = false then some none
  else (stoi (full.drop neighbors.length)).map fun q => if q = p then some (full.drop neighbors.length) else none

/-- The suffixes of partition `p` in a directory, in order (graph.cc:53-92). -/
def suffixes {α} (d : Dir α) (p : Nat) : Option (List Name) :=
  (d.mapM fun f => suffix p f.1).map fun l => sortNames (l.filterMap id)

/-- The files that are opened for a suffix (partition.cc:147-206, 338-350; graph.cc:96). -/
def names (c : Info) (s : Name) : List Name :=
  [node ++ s ++ dotMap, node ++ s ++ dotIndex] ++
  (if c.nodeFeatures = 0 then [] else [node ++ features ++ s ++ dotIndex, node ++ features ++ s ++ dotData]) ++
  [neighbors ++ s ++ dotIndex, edge ++ s ++ dotIndex] ++
  (if 0 ≤ c.watermark then [edge ++ s ++ dotTimestamp] else []) ++
  (if 0 < c.edgeFeatures then [edge ++ features ++ s ++ dotIndex, edge ++ features ++ s ++ dotData] else []) ++
  [node ++ s ++ dotMap]

/-- What the engine reads for partition `p` from a directory; `none` if a file is missing. -/
def load {α} (c : Info) (d : Dir α) (p : Nat) : Option (List (List α)) :=
  (suffixes d p).bind fun l => l.mapM fun s => (names c s).mapM (read d)

/-- Alias tables of nodes and edges (locator.cc:75-86). -/
def nodeAlias (tp p : Nat) : Name := node ++ num tp ++ ['_'] ++ num p ++ dotAlias
def edgeAlias (tp p : Nat) : Name := edge ++ num tp ++ ['_'] ++ num p ++ dotAlias

/-- The table read by a node sampler (sampler.cc:226-230). -/
def nodeTable {α} (_metaDir partDir : Dir α) (tp p : Nat) : Option α := read partDir (nodeAlias tp p)

/-- The table read by an edge sampler: the weighted one looks in the directory of the metadata (sampler.cc:366-370, 488-492). -/
def edgeTable {α} (weighted : Bool) (metaDir partDir : Dir α) (tp p : Nat) : Option α :=
  read (if weighted then metaDir else partDir) (edgeAlias tp p)

end DeepGNN.Download
