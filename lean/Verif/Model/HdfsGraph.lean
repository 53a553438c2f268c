import Verif.Model.Folders
import Verif.Model.Hdfs

/-
Opening a graph that lies on HDFS: src/cc/lib/graph/graph.cc:39-102, 633-694, partition.cc:138-450, storage.h:122-234,
hdfs_wrap.cc:43-77, 221-279 and metadata.cc:26-50.  Single files are read as in `Model/Hdfs.lean`, directories are those of
`Model/Folders.lean`.
-/

namespace DeepGNN.HdfsGraph

open DeepGNN Download Folders Stream

/-- One opening of a file: what the calls of `hdfsRead` return, and what `malloc` left in the buffer of `HDFSStreamStorage`. -/
structure Opening where
  reader : Reader
  garbage : Bytes

/-- `HDFSStreamStorage`: reads of the given sizes after `start` (storage.h:136-215), the bytes that were read one after another. -/
def stream (o : Opening) (sizes : List Nat) (file : Bytes) : Option Bytes :=
  (readAll bufferSize file o.reader sizes (opened bufferSize o.garbage)).map fun r => r.1.flatten

/-- `HDFSStorage` and `read_hdfs<uint8_t>` (storage.h:122-128, hdfs_wrap.cc:261-279). -/
def whole (o : Opening) (file : Bytes) : Option Bytes :=
  (connRead bufferSize file o.reader file.length file.length ⟨0, 0⟩).map (·.1)

/-- Reads of `ReadNodeMap`: id and internal id, then the type (partition.cc:165-180, graph.cc:646-693). -/
def nodeMapReads (size : Nat) : List Nat := (List.replicate (size / 20) [16, 4]).flatten

/-- All numbers of a file in one read (partition.cc:216-222, 365-371, 387-393). -/
def numberReads (size : Nat) : List Nat := [8 * (size / 8)]

/-- `ReadEdgeFeaturesIndex` asks for all bytes (partition.cc:428-435). -/
def byteReads (size : Nat) : List Nat := [size]

/-- Edges of a node by the numbers of its neighbours in the index (partition.cc:287-300). -/
def edgeCount : List Nat → Nat
  | start :: stop :: idx => (stop - start) + edgeCount (stop :: idx)
  | _ => 0

/-- Reads of `ReadEdgeIndex`: the edges of all nodes and one more record (partition.cc:287-327). -/
def edgeReads (neighborsIndex : List Nat) : List Nat := List.replicate (edgeCount neighborsIndex + 1) 24

/-- Reads of `ReadEdgeTimestamps`: none from an empty file, the watermark, then pairs (partition.cc:239-266). -/
def timestampReads (size : Nat) : List Nat := if size / 8 = 0 then [] else List.replicate (1 + 2 * ((size / 8 - 1) / 2)) 8

/-- The bytes of the files of one suffix as they arrive from HDFS; `net path again` is the opening of the file with this path, the map of
nodes is opened again by the graph.  Files that the metadata say nothing about are not opened.  The map of the second opening must be
that of the first for the result to be one set of files: this is the case if both succeed (`C47_bytes`). -/
def streamFiles (net : Name → Bool → Opening) (m : Meta) (folder : Name) (d : Dir Bytes) (s : Name) : Option PartitionFiles :=
  (filesOf m d s).bind fun f =>
  (stream (net (folder ++ '/' :: (node ++ s ++ dotMap)) false) (nodeMapReads f.nodeMap.length) f.nodeMap).bind fun nodeMap =>
  (stream (net (folder ++ '/' :: (node ++ s ++ dotMap)) true) (nodeMapReads f.nodeMap.length) f.nodeMap).bind fun nodeMap' =>
  if nodeMap ≠ nodeMap' then none else
  (stream (net (folder ++ '/' :: (node ++ s ++ dotIndex)) false) (numberReads f.nodeIndex.length) f.nodeIndex).bind fun nodeIndex =>
  (if m.nodeFeatureCount = 0 then some [] else stream (net (folder ++ '/' :: (node ++ features ++ s ++ dotIndex)) false)
    (numberReads f.nodeFeatureIndex.length) f.nodeFeatureIndex).bind fun nodeFeatureIndex =>
  (if m.nodeFeatureCount = 0 then some [] else whole (net (folder ++ '/' :: (node ++ features ++ s ++ dotData)) false)
    f.nodeFeatureData).bind fun nodeFeatureData =>
  (stream (net (folder ++ '/' :: (neighbors ++ s ++ dotIndex)) false) (numberReads f.neighborsIndex.length)
    f.neighborsIndex).bind fun neighborsIndex =>
  (stream (net (folder ++ '/' :: (edge ++ s ++ dotIndex)) false) (edgeReads (readU64File neighborsIndex))
    f.edgeIndex).bind fun edgeIndex =>
  (if m.watermark ≥ 0 then stream (net (folder ++ '/' :: (edge ++ s ++ dotTimestamp)) false)
    (timestampReads f.edgeTimestamps.length) f.edgeTimestamps else some []).bind fun edgeTimestamps =>
  (if m.edgeFeatureCount > 0 then stream (net (folder ++ '/' :: (edge ++ features ++ s ++ dotIndex)) false)
    (byteReads f.edgeFeatureIndex.length) f.edgeFeatureIndex else some []).bind fun edgeFeatureIndex =>
  (if m.edgeFeatureCount > 0 then whole (net (folder ++ '/' :: (edge ++ features ++ s ++ dotData)) false)
    f.edgeFeatureData else some []).map fun edgeFeatureData =>
  { nodeMap, nodeIndex, nodeFeatureIndex, nodeFeatureData, neighborsIndex, edgeIndex, edgeFeatureIndex, edgeFeatureData,
    edgeTimestamps, nodeFeatureCount := m.nodeFeatureCount, edgeFeatureCount := m.edgeFeatureCount }

/-- A directory on HDFS: its path and its files. -/
structure Folder where
  path : Name
  files : Dir Bytes

/-- `Graph::Graph` for partitions on HDFS (graph.cc:39-102). -/
def openHdfs (C : WeightCodec) (net : Name → Bool → Opening) (m : Meta) (requests : List (Folder × Nat)) : Option Graph :=
  (requests.mapM fun y => (hdfsSuffixes y.1.path y.1.files y.2).bind fun l => l.mapM (streamFiles net m y.1.path y.1.files)).bind
    (loadGraph C m)

/-! Paths. -/

/-- The path contains `pat`. -/
def contains (pat full : Name) : Bool := (after pat full).isSome

/-- `is_hdfs_path` (hdfs_wrap.cc:334-338). -/
def isHdfs (full : Name) : Bool :=
  "adl://".toList.isPrefixOf full || "hdfs://".toList.isPrefixOf full || "file:///".toList.isPrefixOf full

/-- Host and port `parse_hdfs_path` finds (hdfs_wrap.cc:43-77); the path for reading is always all of it.  `none` is an exception of `stoi`
(without spaces, signs and overflow). -/
def parsePath (full : Name) : Option (Name × Nat) :=
  if ¬ isHdfs full then some ("default".toList, 0)
  else if contains "file:///".toList full then some (full, 0)
  else
    let i := 1 + ((full.drop 1).takeWhile (· != '/')).length
    let host := full.take i ++ (full.drop i).takeWhile (· != ':')
    match (full.drop i).dropWhile (· != ':') with
    | [] => some (host, 0)
    | _ :: r => (stoi (r.takeWhile (· != '/'))).map fun port => (host, port)

end DeepGNN.HdfsGraph
