import Verif.Model.Download
import Verif.Model.Graph

/-
Opening a graph whose partitions are in given directories: src/cc/lib/graph/graph.cc:39-102 with partition.cc:138-206, 338-395 and
locator.cc:25-70, called by py_graph.cc:234-250 (`MemoryGraph(meta_path, [(path, partition), ...])`, snark/client.py:206-290); the server
does the same (src/cc/lib/distributed/graph_engine.cc:28-92).  Listing of directories and names of files are those of
`Model/Download.lean`, the contents are bytes.
-/

namespace DeepGNN.Folders

open DeepGNN Download

/-- The files `Partition` and `Graph::ReadNodeMap` open for a suffix (partition.cc:138-206, 338-395); files of features and times are
opened only if the metadata say that there are any.  `none`: a file is missing, the process ends (locator.cc:10-23). -/
def filesOf (m : Meta) (d : Dir Bytes) (s : Name) : Option PartitionFiles :=
  (read d (node ++ s ++ dotMap)).bind fun nodeMap =>
  (read d (node ++ s ++ dotIndex)).bind fun nodeIndex =>
  (if m.nodeFeatureCount = 0 then some [] else read d (node ++ features ++ s ++ dotIndex)).bind fun nodeFeatureIndex =>
  (if m.nodeFeatureCount = 0 then some [] else read d (node ++ features ++ s ++ dotData)).bind fun nodeFeatureData =>
  (read d (neighbors ++ s ++ dotIndex)).bind fun neighborsIndex =>
  (read d (edge ++ s ++ dotIndex)).bind fun edgeIndex =>
  (if m.watermark ≥ 0 then read d (edge ++ s ++ dotTimestamp) else some []).bind fun edgeTimestamps =>
  (if m.edgeFeatureCount > 0 then read d (edge ++ features ++ s ++ dotIndex) else some []).bind fun edgeFeatureIndex =>
  (if m.edgeFeatureCount > 0 then read d (edge ++ features ++ s ++ dotData) else some []).map fun edgeFeatureData =>
  { nodeMap, nodeIndex, nodeFeatureIndex, nodeFeatureData, neighborsIndex, edgeIndex, edgeFeatureIndex, edgeFeatureData,
    edgeTimestamps, nodeFeatureCount := m.nodeFeatureCount, edgeFeatureCount := m.edgeFeatureCount }

/-- `Graph::Graph` for requested partitions, each with the directory it is in (graph.cc:39-102). -/
def openGraph (C : WeightCodec) (m : Meta) (requests : List (Dir Bytes × Nat)) : Option Graph :=
  (requests.mapM fun y => (suffixes y.1 y.2).bind fun l => l.mapM (filesOf m y.1)).bind (loadGraph C m)

/-- The files the converter writes for partition `p` (writers.py:180-197, 241-266, 318-345, 430-440; meta.py:22-93); iteration is
always 0; the file of times is written if there is a watermark `wm`. -/
def written (wm : Option Nat) (p : Nat) (f : PartitionFiles) : Dir Bytes :=
  [(node ++ num p ++ ['_', '0'] ++ dotMap, f.nodeMap),
    (node ++ num p ++ ['_', '0'] ++ dotIndex, f.nodeIndex),
    (node ++ features ++ num p ++ ['_', '0'] ++ dotIndex, f.nodeFeatureIndex),
    (node ++ features ++ num p ++ ['_', '0'] ++ dotData, f.nodeFeatureData),
    (neighbors ++ num p ++ ['_', '0'] ++ dotIndex, f.neighborsIndex),
    (edge ++ num p ++ ['_', '0'] ++ dotIndex, f.edgeIndex),
    (edge ++ features ++ num p ++ ['_', '0'] ++ dotIndex, f.edgeFeatureIndex),
    (edge ++ features ++ num p ++ ['_', '0'] ++ dotData, f.edgeFeatureData)] ++
  (match wm with | none => [] | some _ => [(edge ++ num p ++ ['_', '0'] ++ dotTimestamp, f.edgeTimestamps)])

/-! Directories on HDFS. -/

/-- `full.find(pat)`: what follows the first occurrence. -/
def after (pat : Name) : Name → Option Name
  | [] => none
  | c :: l => if pat.isPrefixOf (c :: l) then some ((c :: l).drop pat.length) else after pat l

/-- The last component of a path. -/
def lastPart (n : Name) : Name := (n.reverse.takeWhile (· != '/')).reverse

/-- The suffix of a file with this path that belongs to partition `p`, if any (graph.cc:80-92, graph_engine.cc:71-83); `hdfsListDirectory`
gives full paths (hdfs_wrap.cc:189-200).  `none` is the exception. -/
def hdfsSuffix (p : Nat) (full : Name) : Option (Option Name) :=
  match after neighbors full with
  | none => some none
  | some rest => (stoi rest).map fun q => if q = p then some (stem (lastPart rest)) else none

/-- The suffixes of partition `p` in a directory on HDFS with this path. -/
def hdfsSuffixes {α} (folder : Name) (d : Dir α) (p : Nat) : Option (List Name) :=
  (d.mapM fun f => hdfsSuffix p (folder ++ '/' :: f.1)).map fun l => sortNames (l.filterMap id)

end DeepGNN.Folders
