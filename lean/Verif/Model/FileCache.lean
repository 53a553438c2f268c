import Verif.Model.Bytes

/-
Cache of downloaded files (src/python/deepgnn/pytorch/encoding/twinbert/deepspeed/file_utils.py), with crashes.
-/

namespace DeepGNN.FileCache

/-- File names, urls and entity tags are strings. -/
abbrev Name := List Char

/-- A file of the cache directory: bytes, the metadata written by `json.dump` (file_utils.py:235-238), or metadata that
is not completely written.  Simplification: the json text is not modelled. -/
inductive File
  | data (b : Bytes)
  | info (url : Name) (etag : Option Name)
  | broken
deriving DecidableEq, Repr

/-- The cache directory. -/
abbrev Dir := Name → Option File

/-- A call of `get_from_cache`: the url, the entity tag in the answer to the HEAD request (`s3_etag` for S3), and the
chunks the GET request yields. -/
structure Call where
  url : Name
  etag : Option Name
  chunks : List Bytes
deriving DecidableEq, Repr

/-- `url_to_filename` (file_utils.py:46-61); `h` is the hexadecimal SHA-256 digest. -/
def urlToFilename (h : Name → Name) (url : Name) : Option Name → Name
  | none => h url
  | some e => if e = [] then h url else h url ++ '.' :: h e

/-- The name of the metadata file (file_utils.py:236). -/
def metaName (p : Name) : Name := p ++ ['.', 'j', 's', 'o', 'n']

/-- What a call does, in small steps: write a chunk to the temporary file, open the cache file for writing, append a byte
to it, open the metadata file for writing, complete it.  Bytes are single steps because any prefix of what
`shutil.copyfileobj` writes may be in the file. -/
inductive Act
  | fetch (chunk : Bytes)
  | create (n : Name)
  | append (n : Name) (b : UInt8)
  | createMeta (n : Name)
  | writeMeta (n : Name) (url : Name) (etag : Option Name)
deriving DecidableEq, Repr

/-- Write a file. -/
def put (d : Dir) (n : Name) (f : File) : Dir := fun x => if x = n then some f else d x

/-- The effect of a step on the cache directory; the temporary file is not in it. -/
def Act.run (d : Dir) : Act → Dir
  | .fetch _ => d
  | .create n => put d n (.data [])
  | .append n b => put d n (match d n with | some (.data l) => .data (l ++ [b]) | _ => .data [b])
  | .createMeta n => put d n .broken
  | .writeMeta n u e => put d n (.info u e)

/-- The chunks `http_get` writes (file_utils.py:175-178): those that are not empty. -/
def Call.kept (c : Call) : List Bytes := c.chunks.filter fun b => b ≠ []

/-- `cache_path` (file_utils.py:206-209), relative to the cache directory. -/
def Call.path (h : Name → Name) (c : Call) : Name := urlToFilename h c.url c.etag

/-- The steps of `get_from_cache` (file_utils.py:211-238). -/
def Call.acts (h : Name → Name) (c : Call) (d : Dir) : List Act :=
  if (d (c.path h)).isSome then []
  else c.kept.map .fetch ++ (.create (c.path h) :: (c.kept.flatten.map (.append (c.path h)) ++
    [.createMeta (metaName (c.path h)), .writeMeta (metaName (c.path h)) c.url c.etag]))

/-- `get_from_cache` (file_utils.py:182-242): the directory afterwards and the returned path.  `crash = some k`: the
process is killed after `k` steps.  The directory exists and the HEAD request succeeds. -/
def Call.get (h : Name → Name) (c : Call) (crash : Option Nat) (d : Dir) : Dir × Option Name :=
  match crash with
  | none => ((c.acts h d).foldl Act.run d, some (c.path h))
  | some k => (((c.acts h d).take k).foldl Act.run d, none)

/-- Calls one after the other. -/
def runs (h : Name → Name) (evs : List (Call × Option Nat)) (d : Dir) : Dir :=
  evs.foldl (fun d e => (e.1.get h e.2 d).1) d

/-- `filename_to_url` (file_utils.py:64-87).  `none`: an exception, because a file is missing or not json. -/
def filenameToUrl (d : Dir) (n : Name) : Option (Name × Option Name) :=
  (d n).bind fun _ => match d (metaName n) with
    | some (.info u e) => some (u, e)
    | _ => none

end DeepGNN.FileCache
