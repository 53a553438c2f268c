{"id": "C01", "title": "Fixed-width binary fields survive conversion", "statement": "Every integer field the converter writes to the binary graph files (node ids, offsets and counts as 64-bit, types as 32-bit, timestamps as signed 64-bit) is read back by the graph engine with exactly the value that was written, and a sequence of such records is read back as the same sequence.", "quantifier": "all values in the range of each field, all record sequences of any length", "why_tests_cant": "the value ranges are 2^64 and 2^32 and the sequences are unbounded; tests write a handful of small ids", "anchors": ["src/python/deepgnn/graph_engine/snark/converter/writers.py: NodeWriter.add, EdgeWriter.add, EdgeWriter.close", "src/cc/lib/graph/partition.cc: Partition::ReadNodeMap, ReadEdges, ReadEdgeIndex"]}
{"id": "C02", "title": "Neighbours survive conversion and loading", "statement": "After converting any stream of node and edge records and loading the resulting partition, asking for the neighbours of a node with all of its edge types returns exactly the destinations, types and weights of that node's edges, in the order they were given to the converter, and nothing else.", "quantifier": "all record streams accepted by the converter (any number of nodes, edges, types, nodes without edges, sources without a node record), all nodes", "why_tests_cant": "the neighbour list depends on cumulative offsets of everything written before the node; tests use graphs with a few nodes", "anchors": ["src/python/deepgnn/graph_engine/snark/converter/writers.py: BinaryWriter.add, NodeWriter.add, EdgeWriter.add_node, EdgeWriter.add, EdgeWriter.close", "src/cc/lib/graph/partition.cc: Partition::ReadNodeMap, ReadNeighborsIndex, ReadEdgeIndex, FullNeighbor"]}
{"id": "C03", "title": "Edge type filter is exact", "statement": "The neighbours returned for a list of edge types are exactly the node's neighbours whose edge type is in the list: no edge of another type is returned and no edge of a requested type is left out.", "quantifier": "all nodes, all sorted sets of requested edge types, all type layouts of the stored edges", "why_tests_cant": "the filter is a two-pointer walk whose correctness depends on how the requested types interleave with the stored ones; tests request types that all exist", "anchors": ["src/cc/lib/graph/partition.cc: NeighborIndexIterator, Partition::FullNeighbor, Partition::NeighborCount"]}
{"id": "C04", "title": "neighbor_count agrees with neighbors", "statement": "For every node and edge type list, without timestamps, the neighbour count reported by the graph equals the number of neighbours returned by the full neighbour query, for one partition and summed over any number of partitions.", "quantifier": "all graphs, partitions, nodes and edge type lists", "why_tests_cant": "two separate code paths must agree on all inputs", "anchors": ["src/cc/lib/graph/partition.cc: Partition::NeighborCount, Partition::FullNeighbor", "src/cc/lib/graph/graph.cc: Graph::NeighborCount, Graph::FullNeighbor"]}
{"id": "C05", "title": "Temporal neighbours are the snapshot at the timestamp", "statement": "In a temporal graph, neighbours of a node at timestamp t are exactly its edges of the requested types created at or before t and not removed at or before t.", "quantifier": "all temporal edge lists, all timestamps, all nodes", "why_tests_cant": "the selection depends on the relative order of three unbounded integers per edge and on early exit from the scan", "anchors": ["src/cc/lib/graph/partition.cc: NeighborIndexIterator, Partition::FullNeighbor, find_start, find_last", "src/python/deepgnn/graph_engine/snark/converter/writers.py: EdgeWriter.add"]}
{"id": "C06", "title": "Temporal neighbor_count agrees with temporal neighbors", "statement": "In a temporal graph, the neighbour count of a node at timestamp t equals the number of neighbours returned at the same timestamp.", "quantifier": "all temporal edge lists, all timestamps", "why_tests_cant": "the count is computed by binary searches that assume an order of the stored timestamps nobody checks; tests use friendly orders", "anchors": ["src/cc/lib/graph/partition.cc: Partition::NeighborCount, find_start, find_last, Partition::FullNeighbor"]}
{"id": "C07", "title": "Last-N neighbours are the N most recent ones", "statement": "Asking for the last N created neighbours at timestamp t returns N entries: the min(N, live) most recently created live edges of the requested types, and the default values for the rest.", "quantifier": "all temporal edge lists, all N > 0, all timestamps, any number of partitions", "why_tests_cant": "a bounded priority queue must keep the right elements for all arrival orders and ties", "anchors": ["src/cc/lib/graph/partition.cc: Partition::LastNCreatedNeighbors", "src/cc/lib/graph/graph.cc: Graph::LastNCreatedNeighbors", "src/cc/lib/graph/merger.h: MergeLastNCreatedNeighbors"]}
{"id": "C08", "title": "Dense node features survive conversion", "statement": "The feature bytes returned for a node and feature id are the bytes given to the converter for that node and feature, truncated or zero padded to the requested size; a node without that feature yields zeros.", "quantifier": "all nodes, all feature lists including missing features in the middle, all requested ids and sizes", "why_tests_cant": "feature positions are cumulative offsets into two files; a single off-by-one shifts all later features", "anchors": ["src/python/deepgnn/graph_engine/snark/converter/writers.py: NodeFeatureWriter.add, NodeFeatureWriter.close, convert_features", "src/cc/lib/graph/partition.cc: Partition::GetNodeFeature, ReadNodeFeatures"]}
{"id": "C09", "title": "Edge features belong to the requested edge", "statement": "Edge feature lookup finds a feature record if and only if the node has an edge with the requested destination and type, and the bytes returned are the ones given to the converter for that edge.", "quantifier": "all nodes, all edge lists including parallel edges and types, all requested triples", "why_tests_cant": "the lookup is a pair of searches over ordered types and unordered destinations; tests look up edges of tiny graphs", "anchors": ["src/cc/lib/graph/partition.cc: Partition::EdgeFeatureOffset, Partition::GetEdgeFeature", "src/python/deepgnn/graph_engine/snark/converter/writers.py: EdgeFeatureWriter.add, EdgeWriter.add"]}
{"id": "C10", "title": "Temporal feature value is the latest one not after the timestamp", "statement": "For a feature with a history of timestamped values, a query at timestamp t returns the value with the greatest creation time not after t, or nothing if no value is that old.", "quantifier": "all histories of any length with distinct times, all values of any byte length, all t", "why_tests_cant": "the value is found by scanning an index of unbounded length packed together with the data", "anchors": ["src/python/deepgnn/graph_engine/snark/decoders.py: JsonDecoder._serialize_temporal_features", "src/cc/lib/graph/partition.cc: deserialize_temporal_feature"]}
{"id": "C11", "title": "String features are returned whole and in order", "statement": "The string feature reply for a list of nodes and features consists of the stored values concatenated in request order, together with one length per (node, feature) whose running sum locates each value; absent values have length 0.", "quantifier": "all node and feature lists, all stored values, any number of partitions/shards", "why_tests_cant": "the reply is assembled from offsets over unbounded lists; misalignment shows only for particular mixtures of missing values", "anchors": ["src/cc/lib/graph/partition.cc: Partition::GetNodeStringFeature", "src/cc/lib/graph/graph.cc: Graph::GetNodeStringFeature", "src/cc/lib/graph/merger.h: UpdateStringFeatureIndex, ExtractStringFeatures"]}
{"id": "C12", "title": "Sparse features decode to what was encoded", "statement": "A sparse feature given to the converter as coordinates and values is returned with the same coordinates, prefixed by the index of the node in the request, and the same value bytes.", "quantifier": "all coordinate arrays, value arrays and dimensions, all request positions", "why_tests_cant": "the packed format mixes counts, dimensions and payload; the decode has special cases", "anchors": ["src/python/deepgnn/graph_engine/snark/converter/writers.py: convert_features", "src/cc/lib/graph/partition.cc: deserialize_sparse_features, Partition::GetNodeSparseFeature"]}
{"id": "C13", "title": "Node type lookup", "statement": "The type returned for a node is the type in its node record; a node that was never given a record gets the caller's default type, locally and remotely alike.", "quantifier": "all graphs with any number of partitions in any load order, all nodes, all default types", "why_tests_cant": "the answer depends on which partitions know the node and in which order they are visited", "anchors": ["src/cc/lib/graph/graph.cc: Graph::GetNodeType", "src/cc/lib/distributed/graph_engine.cc: GraphEngineServiceImpl::GetNodeTypes", "src/cc/lib/distributed/client.cc: GRPCClient::GetNodeType"]}
{"id": "C14", "title": "A node split over partitions is queried as one", "statement": "When the edges of a node are spread over several loaded partitions, the neighbours of the node are the concatenation of its neighbours in each partition in load order, each edge exactly once, and the counts add up.", "quantifier": "all assignments of edges to partitions, all load orders", "why_tests_cant": "requires induction over partitions and the node map; tests use two partitions", "anchors": ["src/cc/lib/graph/graph.cc: Graph::ReadNodeMap, Graph::FullNeighbor, Graph::NeighborCount"]}
{"id": "C15", "title": "Uniform neighbour sampling returns only real neighbours", "statement": "Sampling with replacement returns, for every requested node, exactly count entries, each of which is a neighbour of that node with a requested edge type, or the default if the node has no such neighbour.", "quantifier": "all graphs, all counts, all random draws", "why_tests_cant": "the statement quantifies over all random generator outputs", "anchors": ["src/cc/lib/graph/partition.cc: Partition::UniformSampleNeighborWithReplacement, advance_edge_types", "src/cc/lib/graph/graph.cc: Graph::UniformSampleNeighbor", "src/cc/lib/graph/reservoir.cc: WithReplacement::add"]}
{"id": "C16", "title": "Sampling without replacement never repeats an edge", "statement": "Uniform sampling without replacement returns distinct edges of the node: min(count, degree) of them, the rest being the default values.", "quantifier": "all graphs and partitions, all counts, all random draws", "why_tests_cant": "the property must hold for each of the 2^64 seeds and every degree", "anchors": ["src/cc/lib/graph/partition.cc: Partition::UniformSampleNeighborWithoutReplacement", "src/cc/lib/graph/reservoir.cc: AlgorithmL::add"]}
{"id": "C17", "title": "Reservoir keeps distinct stream positions", "statement": "A size-k reservoir fed with blocks of any sizes holds min(k, seen) distinct elements of the stream after every block, at slots 0..min(k,seen)-1.", "quantifier": "all k, all block sequences, all random draws and skip lengths", "why_tests_cant": "unbounded streams and arbitrary skips", "anchors": ["src/cc/lib/graph/reservoir.cc: AlgorithmL::add"]}
{"id": "C18", "title": "Merging reservoirs without replacement", "statement": "Merging per-shard samples without replacement keeps every slot filled with a distinct element, and every element that has been offered can still be in the result.", "quantifier": "all k, all shard sizes, all random draws", "why_tests_cant": "the second half is an existence statement over random outcomes and the first a universal one", "anchors": ["src/cc/lib/graph/reservoir.cc: WithoutReplacementMerge::add, sample_n", "src/cc/lib/distributed/client.cc: GRPCClient::UniformSampleNeighbor"]}
{"id": "C19", "title": "Weighted neighbour sampling follows the weights", "statement": "Weighted sampling returns the neighbour whose cumulative weight interval contains the random draw: over the interval of draws, each neighbour of a requested type is selected on a set of measure proportional to its weight, and neighbours with zero weight are never selected.", "quantifier": "all weight vectors, all requested types, all draws", "why_tests_cant": "a distributional statement over a continuum of draws", "anchors": ["src/cc/lib/graph/partition.cc: Partition::SampleNeighbor"]}
{"id": "C20", "title": "Alias tables represent the weights exactly", "statement": "The alias table built for weights w gives element i probability w_i / sum(w), for every non-empty list of non-negative weights with positive sum, and its construction terminates with indices in range.", "quantifier": "all weight vectors of any length", "why_tests_cant": "an exact statement about a loop over unbounded input; tests sample frequencies", "anchors": ["src/python/deepgnn/graph_engine/snark/alias.py: Vose"]}
{"id": "C21", "title": "Alias records select the right element", "statement": "Sampling a node (edge) through the stored alias records returns an element of the requested type, and the probability of each element over a uniform record choice and a uniform real draw is its weight share.", "quantifier": "all alias tables produced by the converter, all draws", "why_tests_cant": "quantifies over draws and over tables", "anchors": ["src/python/deepgnn/graph_engine/snark/converter/writers.py: NodeAliasWriter.close, EdgeAliasWriter.close", "src/cc/lib/graph/sampler.cc: WeightedNodeSamplerPartition, WeightedEdgeSamplerPartition"]}
{"id": "C22", "title": "Sampler returns the requested number of elements of the requested types", "statement": "A node or edge sampler fills exactly the requested number of output positions with elements of the requested types (without replacement: the smaller of the request and what is available, each at most once).", "quantifier": "all partitions and type selections, all sizes, all random draws", "why_tests_cant": "the split over types and partitions is a chain of random binomial draws", "anchors": ["src/cc/lib/graph/sampler.cc: SamplerImpl::Sample, SampleWithReplacement, SampleWithoutReplacement, conditional_probabilities"]}
{"id": "C23", "title": "Remote neighbour queries do not depend on reply order", "statement": "The neighbours, weights, types and counts assembled by the client from any number of servers are the same for all orders in which the replies arrive: for each node, the concatenation over the servers in their configured order.", "quantifier": "all numbers of servers, all replies, all arrival orders", "why_tests_cant": "the number of interleavings is factorial in the number of servers", "anchors": ["src/cc/lib/distributed/client.cc: GRPCClient::FullNeighbor, GRPCClient::NeighborCount", "src/cc/lib/distributed/graph_engine.cc: GraphEngineServiceImpl::GetNeighbors"]}
{"id": "C24", "title": "Remote node features do not depend on reply order", "statement": "The node feature values assembled from several servers are the same for all reply orders, and are the values with the latest timestamp among the servers that have the node.", "quantifier": "all replies and arrival orders", "why_tests_cant": "factorially many interleavings", "anchors": ["src/cc/lib/distributed/client.cc: GRPCClient::GetNodeFeature, GRPCClient::GetEdgeFeature", "src/cc/lib/distributed/graph_engine.cc: GraphEngineServiceImpl::GetNodeFeatures"]}
{"id": "C25", "title": "Serving a graph from several servers changes nothing", "statement": "For every way of distributing the partitions of a graph over servers, remote neighbour counts equal local ones and remote neighbours are the same multiset as local ones.", "quantifier": "all distributions of partitions over servers, all queries", "why_tests_cant": "unbounded number of partitions and servers", "anchors": ["src/cc/lib/distributed/client.cc: GRPCClient::FullNeighbor, GRPCClient::NeighborCount", "src/cc/lib/graph/graph.cc: Graph::FullNeighbor", "src/python/deepgnn/graph_engine/snark/distributed.py: Server.__init__"]}
{"id": "C26", "title": "Sampled neighbours go to the node that asked for them", "statement": "When servers answer a sampling request only for the nodes they know, the client writes each answer to the rows of exactly the nodes it belongs to, also when a node occurs several times in the request.", "quantifier": "all request node lists (with repetitions), all subsets of known nodes per server", "why_tests_cant": "the alignment is a zip of a list with a filtered copy of itself", "anchors": ["src/cc/lib/distributed/client.cc: GRPCClient::UniformSampleNeighbor, GRPCClient::WeightedSampleNeighbor", "src/cc/lib/distributed/graph_engine.cc: GraphEngineServiceImpl::UniformSampleNeighbors, WeightedSampleNeighbors"]}
{"id": "C27", "title": "Remote node sampling fills the output once", "statement": "Sampling nodes remotely assigns the output positions to servers in disjoint consecutive ranges that cover the requested size, for all random splits.", "quantifier": "all server weights, sizes and binomial draws", "why_tests_cant": "quantifies over draws", "anchors": ["src/cc/lib/distributed/client.cc: GRPCClient::SampleNodes, GRPCClient::SampleEdges"]}
{"id": "C28", "title": "Graph metadata survives write and read and reaches the client", "statement": "Metadata written to disk is read back unchanged, and the metadata a distributed client shows (counts, types, features, partitions, weights and counts per type, watermark) is that of the file its servers loaded.", "quantifier": "all metadata contents, all numbers of partitions, types and servers", "why_tests_cant": "unbounded numbers of types and partitions", "anchors": ["src/cc/lib/graph/metadata.cc: Metadata::Metadata, Metadata::Write", "src/cc/lib/distributed/client.cc: GRPCClient::WriteMetadata", "src/cc/lib/distributed/graph_engine.cc: GraphEngineServiceImpl::GetMetadata"]}
{"id": "C29", "title": "Converting with several workers merges to the single-worker metadata", "statement": "Merging the metadata files of several converter workers yields the partitions in order, with counts and weights per type equal to the sums over workers.", "quantifier": "all numbers of workers, all per-worker metadata", "why_tests_cant": "unbounded; and the merge has shared mutable rows", "anchors": ["src/python/deepgnn/graph_engine/snark/meta_merger.py: merge, merge_metadata_files, Meta"]}
{"id": "C30", "title": "Every input record is converted exactly once", "statement": "For every number of workers, files and partitions, every node record of the input is written to exactly one partition.", "quantifier": "all worker counts, partition counts and file lists", "why_tests_cant": "combinatorial in workers x partitions x files", "anchors": ["src/python/deepgnn/graph_engine/snark/convert.py: MultiWorkersConverter.__init__, convert", "src/python/deepgnn/graph_engine/snark/dispatcher.py: PipeDispatcher, QueueDispatcher", "src/python/deepgnn/graph_engine/_adl_reader.py: TextFileIterator.get_worker_files"]}
{"id": "C31", "title": "Text reader yields every line once whatever the block size", "statement": "Reading text files through the block reader yields the non-empty lines of the files in order, each exactly once, and no empty line that is not in the files, in batches of the requested size (only the last may be smaller), for all block sizes and numbers of reading threads.", "quantifier": "all file contents, block sizes, thread counts and batch sizes", "why_tests_cant": "line fragments at block boundaries can be split in unboundedly many ways", "anchors": ["src/python/deepgnn/graph_engine/_adl_reader.py: TextFileIterator._read_block_by_threads, _read_block, __next__"]}
{"id": "C32", "title": "Files are divided among workers", "statement": "The files assigned to the workers are pairwise disjoint, cover all the files, and are assigned only when there are at least as many files as workers.", "quantifier": "all file lists, all numbers of workers", "why_tests_cant": "unbounded", "anchors": ["src/python/deepgnn/graph_engine/samplers.py: get_files", "src/python/deepgnn/graph_engine/_adl_reader.py: TextFileIterator.get_worker_files"]}
{"id": "C33", "title": "Array samplers visit every element once per epoch", "statement": "Over all data-parallel workers, an array (file node/edge) sampler yields each element exactly `epochs` times, padded only by the backfill value, and the number of batches equals the reported length.", "quantifier": "all array lengths, batch sizes, epochs, numbers of data-parallel workers, drop_last settings", "why_tests_cant": "four unbounded parameters interact through integer division", "anchors": ["src/python/deepgnn/graph_engine/samplers.py: _NumpyIterator, FileNodeSampler, FileEdgeSampler"]}
{"id": "C34", "title": "Range samplers visit every id once", "statement": "Over all workers and data-parallel workers, a range sampler over [first, last) yields each id exactly once, padded only with the backfill id.", "quantifier": "all ranges, batch sizes, numbers of workers and data-parallel workers", "why_tests_cant": "integer division at the range end for particular remainders", "anchors": ["src/python/deepgnn/graph_engine/samplers.py: _RangeNodeIterator, RangeNodeSampler, _RangeEdgeIterator, RangeEdgeSampler"]}
{"id": "C35", "title": "CSV node sampler partitions the nodes", "statement": "Over all data-parallel workers the CSV node sampler yields each listed node exactly once per pass and reports the number of batches it yields.", "quantifier": "all node lists, batch sizes and numbers of data-parallel workers", "why_tests_cant": "integer division", "anchors": ["src/python/deepgnn/graph_engine/samplers.py: CSVNodeSampler"]}
{"id": "C36", "title": "Prefetching loses and duplicates nothing", "statement": "Iterating over a prefetching generator yields the query result of each sample exactly once and then stops, for all completion orders of the worker threads and wherever the end marker lands among the results, and never holds more than the configured numbers of results and pending samples.", "quantifier": "all sampler lengths, all interleavings of completions and of the end marker", "why_tests_cant": "factorially many schedules", "anchors": ["src/python/deepgnn/graph_engine/prefetch.py: Generator.__next__, _produce_func"]}
{"id": "C37", "title": "Clients start after all servers and servers stop after all clients", "statement": "A synchronized client connects only when every server has been created, and can connect once they all have published their addresses; and unless it times out a synchronized server is torn down only when no client sync file exists.", "quantifier": "all interleavings of any number of clients and servers", "why_tests_cant": "interleavings of unboundedly many processes", "anchors": ["src/python/deepgnn/graph_engine/backends/snark/synchronized.py: SynchronizedClient, SynchronizedServer, _ServerProcess"]}
{"id": "C38", "title": "Distributed sync is a barrier", "statement": "No task returns from sync(tag) before every task has called sync(tag), for each fresh tag, provided task 0 cleaned the folder before the others started.", "quantifier": "all interleavings, all numbers of tasks and tags", "why_tests_cant": "interleavings of unboundedly many processes", "anchors": ["src/python/deepgnn/tf/common/dist_sync.py: DistributedSync"]}
{"id": "C39", "title": "Skip-gram generation", "statement": "gen_skipgrams produces for each path exactly the ordered pairs of distinct positions within the window, as many as get_skipgrams_size announces.", "quantifier": "all path lengths, window sizes and batches", "why_tests_cant": "three unbounded sizes; asymmetrical windows", "anchors": ["src/python/deepgnn/graph_engine/graph_ops.py: gen_skipgrams, get_skipgrams_size"]}
{"id": "C40", "title": "sub_graph is the k-hop neighbourhood", "statement": "sub_graph returns the seed nodes and every node reachable within num_hops edges of the requested types, and its edge list contains every edge leaving a node within num_hops - 1 hops; src_nodes_idx locates the seeds.", "quantifier": "all graphs, seeds and numbers of hops", "why_tests_cant": "reachability over arbitrary graphs", "anchors": ["src/python/deepgnn/graph_engine/graph_ops.py: sub_graph"]}
{"id": "C41", "title": "Multi-hop fanout shapes and provenance", "statement": "sample_fanout returns per hop exactly (number of nodes in the previous hop) x fanout entries and entry j of a hop was sampled for entry j / fanout of the previous hop; get_neighbor's adjacency lists each edge of the frontier once, with indices into the unique next nodes.", "quantifier": "all graphs, metapaths, fanouts", "why_tests_cant": "unbounded depth", "anchors": ["src/python/deepgnn/graph_engine/multihop.py: sample_fanout, get_neighbor"]}
{"id": "C42", "title": "Random walks follow edges", "statement": "A random walk result row has walk_len + 1 entries, starts with the input node, and every consecutive pair is connected by an edge of the graph or is filled with the default node; the next node is chosen with the probabilities of node2vec for the given p and q.", "quantifier": "all graphs, walk lengths, parameters p and q and random draws", "why_tests_cant": "quantifies over random draws and walk lengths", "anchors": ["src/cc/lib/py_graph.cc: RandomWalk"]}
{"id": "C43", "title": "Approximate PPR scores are bounded and complete", "statement": "ppr_neighbors assigns non-negative scores whose sum is at most 1, terminates for eps > 0, and returns the count best scored nodes.", "quantifier": "all graphs, alpha in (0,1], eps > 0", "why_tests_cant": "a loop whose termination depends on mass conservation", "anchors": ["src/cc/lib/py_graph.cc: PPRSampleNeighbor"]}
{"id": "C44", "title": "Forest fire sample is a subgraph of the requested size", "statement": "forest_fire returns a subgraph of the input with exactly sample_size nodes.", "quantifier": "all graphs, sizes and random draws", "why_tests_cant": "quantifies over random draws", "anchors": ["src/python/deepgnn/graph_engine/snark/preprocess/sampler/forest_fire.py: forest_fire"]}
{"id": "C45", "title": "MRR metric equals mean reciprocal rank", "statement": "MRR.compute returns the mean over the examples of 1/rank of the labelled item, rank being 1 plus the number of items scored above it.", "quantifier": "all score matrices with distinct scores per row, all one-hot labels", "why_tests_cant": "all permutations of unbounded length", "anchors": ["src/python/deepgnn/pytorch/common/metrics.py: MRR.compute"]}
{"id": "C46", "title": "Checkpoint rotation keeps the newest checkpoints", "statement": "After saving, at most max_saved_ckpts checkpoints remain and they are the most recent ones by (epoch, step).", "quantifier": "all sequences of saved (epoch, step), all limits", "why_tests_cant": "unbounded numbers and string comparison", "anchors": ["src/python/deepgnn/pytorch/common/utils.py: rotate_checkpoints, get_sorted_checkpoints", "src/python/deepgnn/pytorch/training/trainer.py: _save_checkpoint"]}
{"id": "C47", "title": "Streaming reads equal plain reads", "statement": "Reading an HDFS stream through the 4096-byte buffer in pieces of any sizes returns the bytes of the file in order, for all read size sequences that stay within the file.", "quantifier": "all file contents and read size sequences", "why_tests_cant": "buffer refill boundaries for all sequences of sizes", "anchors": ["src/cc/lib/graph/storage.h: HDFSStreamStorage::read"]}
{"id": "C48", "title": "Servers load every partition exactly once", "statement": "Starting servers 0..n-1 of n over a graph with any number of partitions loads every partition on exactly one server; a local client loads exactly the partitions it was asked for.", "quantifier": "all partition counts, server counts and partition lists", "why_tests_cant": "unbounded", "anchors": ["src/python/deepgnn/graph_engine/snark/distributed.py: Server.__init__", "src/python/deepgnn/graph_engine/snark/local.py: Client.__init__"]}
{"id": "C49", "title": "Sampler cache respects the request", "statement": "sample_nodes and sample_edges use a sampler created for the requested types and the requested strategy, whatever was sampled before.", "quantifier": "all histories of sampling calls", "why_tests_cant": "depends on the history of calls", "anchors": ["src/python/deepgnn/graph_engine/snark/local.py: Client.sample_nodes, Client.sample_edges"]}
{"id": "C50", "title": "Edge list lines decode to the records they describe", "statement": "Decoding a comma separated node or edge line yields the ids, type, weight, timestamps and features written in it.", "quantifier": "all field values and feature lists", "why_tests_cant": "the cursor arithmetic over feature lengths is unbounded", "anchors": ["src/python/deepgnn/graph_engine/snark/decoders.py: EdgeListDecoder.decode, _get_feature"]}
{"id": "C51", "title": "Learning-rate schedules", "statement": "The warmup schedules rise from 0 to 1 during warmup and the linear schedule then decreases to 0 at the last step, staying within [0,1] for all steps.", "quantifier": "all warmup and training step counts, all steps", "why_tests_cant": "unbounded step counts", "anchors": ["src/python/deepgnn/pytorch/common/optimization.py: get_linear_schedule_with_warmup, get_constant_schedule_with_warmup"]}
{"id": "C52", "title": "Bulk embedding writer keeps every line", "statement": "writelines splits any number of lines into chunks so that every line is enqueued exactly once, in order per chunk, and each file receives at most max_chunks_per_file chunks.", "quantifier": "all line counts, chunk sizes, process counts", "why_tests_cant": "unbounded", "anchors": ["src/python/deepgnn/graph_engine/adl_uploader.py: AdlDataWriter.writelines, MultiThreadsAdlDataWriter._create_worker"]}
{"id": "C53", "title": "Training resumes after a crash", "statement": "A training that is killed at any point and started again, any number of times, ends with the same parameters as a training that is never killed, can always be started again, keeps in every checkpoint the parameters its name says, does not repeat what a finished checkpoint holds, loses less than save_ckpt_by_steps batches by a kill, and keeps no more than max_saved_ckpts checkpoints.", "quantifier": "all datasets, checkpoint settings, models and optimizers, all kill points and numbers of restarts", "why_tests_cant": "crash points and histories cannot be enumerated", "anchors": ["src/python/deepgnn/pytorch/training/trainer.py: _train, _train_one_epoch, _train_one_step, _save_checkpoint, _load_checkpoint"]}
{"id": "C54", "title": "Result of a training is on disk", "statement": "When training has ended, loading the newest checkpoint gives the parameters of the complete training.", "quantifier": "all epoch counts, checkpoint settings and histories of restarts", "why_tests_cant": "all combinations of settings and crash histories", "anchors": ["src/python/deepgnn/pytorch/training/trainer.py: _train_one_epoch, _save_checkpoint"]}
{"id": "C55", "title": "max_samples limits the samples of an epoch", "statement": "With max_samples > 0 the workers together train on at most max_samples samples per epoch and stop early only if another batch per worker would exceed it.", "quantifier": "all values of max_samples, world size, batch size and datasets", "why_tests_cant": "unbounded numbers", "anchors": ["src/python/deepgnn/pytorch/training/trainer.py: _init_max_steps, _should_stop"]}
{"id": "C56", "title": "Evaluation covers the evaluation set", "statement": "Evaluation looks at every batch of the evaluation set, or the first max_samples of them in a separate evaluation.", "quantifier": "all datasets, limits and training steps at which evaluation starts", "why_tests_cant": "all steps", "anchors": ["src/python/deepgnn/pytorch/training/trainer.py: _evaluate, _evaluate_one_step, _should_stop"]}
{"id": "C57", "title": "Merged weighted samples follow the weights", "statement": "When several servers know a node, a weighted neighbour sample is taken from the answer of each server with probability proportional to the total weight of the node's neighbours on that server, in whatever order the servers answer.", "quantifier": "all requests (also with repeated nodes), numbers of servers, answers, weights that float32 sums exactly, orders of replies and callbacks, places in the output", "why_tests_cant": "distribution over all random numbers and all orders of replies", "anchors": ["src/cc/lib/distributed/client.cc: GRPCClient::WeightedSampleNeighbor", "src/cc/lib/graph/merger.h: MergeWeightedSampledNeighbors"]}
{"id": "C58", "title": "Valid input is converted, invalid input is refused", "statement": "Conversion succeeds and the result loads if ids, types and timestamps are in range, edges of a node follow in order of type and live while their node lives; it fails if one of these is violated, so a graph is never built from such input.", "quantifier": "all inputs: partitions, add calls, records, features, timestamps", "why_tests_cant": "all inputs; a false rejection or acceptance may depend on any combination of records", "anchors": ["src/python/deepgnn/graph_engine/snark/converter/writers.py: BinaryWriter.add, NodeWriter.add, EdgeWriter.add"]}
{"id": "C59", "title": "JSON lines: what is described is served", "statement": "A graph given as JSON lines is converted whatever the order of the edges in a line; queries return the edges, lifetimes and feature values written in the lines, edges without times having those of their node and the value given last for an index counting.", "quantifier": "all lines, features, edges in any order, distributions over partitions, nodes, requested types and times", "why_tests_cant": "all inputs and orders, through decoder, converter, loader and query", "anchors": ["src/python/deepgnn/graph_engine/snark/decoders.py: JsonDecoder", "src/python/deepgnn/graph_engine/snark/converter/writers.py: BinaryWriter.add, convert_features", "src/cc/lib/graph/graph.cc: FullNeighbor, GetNodeFeature"]}
{"id": "C60", "title": "TSV lines: what is described is served", "statement": "A graph given as TSV lines is converted whatever the order of the neighbours in a line; queries return the neighbours, weights and feature values written in the lines, 0 for a type or weight that was left empty.", "quantifier": "all lines, features, neighbours in any order, distributions over partitions, nodes and requested types", "why_tests_cant": "all texts and orders, through decoder, converter, loader and query", "anchors": ["src/python/deepgnn/graph_engine/snark/decoders.py: TsvDecoder", "src/python/deepgnn/graph_engine/snark/converter/writers.py: BinaryWriter.add", "src/cc/lib/graph/graph.cc: FullNeighbor, GetNodeFeature"]}
{"id": "C61", "title": "Edge lists: what is described is served, however the lines are distributed", "statement": "A graph given as an edge list is converted with any number of workers if the edges of each node are in order of their types; queries return the edges, weights, lifetimes and feature values written in the file.", "quantifier": "all files, configurations of the decoder, distributions of the lines over workers, nodes, times and requested types", "why_tests_cant": "all files and all distributions over workers, through decoder, converter, loader and query", "anchors": ["src/python/deepgnn/graph_engine/snark/decoders.py: EdgeListDecoder", "src/python/deepgnn/graph_engine/snark/converter/process.py: converter_process", "src/python/deepgnn/graph_engine/snark/converter/writers.py: BinaryWriter.add, convert_features", "src/cc/lib/graph/graph.cc: FullNeighbor, GetNodeFeature"]}
{"id": "C62", "title": "Weighted neighbour sampling: expected number of each neighbour, over several servers", "statement": "When count neighbours of a node are sampled by weight, each neighbour is returned count times its weight divided by the total weight on average, over all draws, whether the graph is in one process or split over several servers whose replies arrive in any order; the samples are independent; only neighbours with positive weight are returned, defaults only if there is none.", "quantifier": "all graphs, splits over servers, nodes, types, counts, draws of servers and client, orders of replies", "why_tests_cant": "a distribution over all draws, for all graphs and all orders of replies", "anchors": ["src/cc/lib/graph/partition.cc: SampleNeighbor", "src/cc/lib/distributed/graph_engine.cc: WeightedSampleNeighbors", "src/cc/lib/distributed/client.cc: WeightedSampleNeighbor"]}
{"id": "C63", "title": "Uniform neighbour sampling over several servers", "statement": "When the edges of a node are split over several servers, sampling without replacement returns distinct edges from all servers, min(count, total) of them, then defaults; sampling with replacement returns only edges of the node, defaults only if it has none; at a timestamp only edges that exist then; every neighbour can be returned.", "quantifier": "all graphs, splits over servers, nodes (repeated or unknown), types, timestamps, counts, draws of servers and client", "why_tests_cant": "all splits of the edges over servers, all random draws of every server and of the client", "anchors": ["src/cc/lib/distributed/graph_engine.cc: UniformSampleNeighbors", "src/cc/lib/distributed/client.cc: UniformSampleNeighbor", "src/cc/lib/graph/reservoir.cc"]}
{"id": "C64", "title": "Node types from several servers", "statement": "When a graph is served by several servers, the type of a node is the type in its node record, on whichever server it is, and the default if it has no node record, independently of the order of the replies.", "quantifier": "all graphs, distributions over servers, nodes (repeated or unknown), defaults, orders of replies and interleavings of their callbacks", "why_tests_cant": "all orders of replies and thread interleavings, all distributions of the partitions", "anchors": ["src/cc/lib/distributed/client.cc: GetNodeType", "src/cc/lib/distributed/graph_engine.cc: GetNodeTypes"]}
{"id": "C65", "title": "Edge features from several servers", "statement": "When a graph is served by several servers, the features of an edge are those a graph with all partitions returns, whatever the distribution of the partitions, the order of the replies and the interleaving of the callbacks that process them; zeros if the edge has no features.", "quantifier": "all graphs, distributions over servers, edges (repeated or unknown), features and sizes, orders of replies and interleavings of their callbacks", "why_tests_cant": "all orders of replies and thread interleavings, all distributions of the partitions", "anchors": ["src/cc/lib/distributed/client.cc: GetEdgeFeature", "src/cc/lib/distributed/graph_engine.cc: GetEdgeFeatures"]}
{"id": "C66", "title": "String features from several servers", "statement": "When a graph is served by several servers, the string features of nodes and edges are those a graph with all partitions returns, one string per node (edge) and feature in the order of the request, whatever the distribution of the partitions and the order in which replies are merged; at a timestamp the latest value not after it is returned.", "quantifier": "all graphs, distributions over servers, nodes or edges (repeated or unknown), features, orders of the critical sections of all callbacks", "why_tests_cant": "all orders of replies and thread interleavings, all distributions of the partitions", "anchors": ["src/cc/lib/distributed/client.cc: GetStringFeature", "src/cc/lib/distributed/graph_engine.cc: GetNodeStringFeatures, GetEdgeStringFeatures", "src/cc/lib/graph/merger.h: UpdateStringFeatureIndex, ExtractStringFeatures"]}
{"id": "C67", "title": "Sparse features from several servers", "statement": "When a graph is served by several servers, the sparse features of nodes and edges are those a graph with all partitions returns: per feature the dimension, the coordinates in request order, each behind the position of its node (edge), and the values in the same order, whatever the distribution of the partitions and the order in which replies are merged.", "quantifier": "all graphs, distributions over servers, nodes or edges (repeated or unknown), features, orders of the critical sections of all callbacks", "why_tests_cant": "all orders of replies and thread interleavings, all distributions of the partitions, all shapes of sparse values", "anchors": ["src/cc/lib/distributed/client.cc: GetSparseFeature", "src/cc/lib/distributed/graph_engine.cc: GetNodeSparseFeatures, GetEdgeSparseFeatures", "src/cc/lib/graph/merger.h: UpdateSparseFeatureIndex, ExtractFeatures"]}
{"id": "C68", "title": "The last created neighbours from several servers", "statement": "When a temporal graph is served by several servers, a request for the N last created neighbours returns, for every node and timestamp, N most recently created live neighbours of the requested types over all servers, and defaults if there are fewer, whatever the distribution of the partitions and the order of replies.", "quantifier": "all temporal graphs, distributions over servers, lists of nodes and timestamps, edge types, counts, orders of replies and callbacks", "why_tests_cant": "all orders of replies, all distributions of the partitions, all lifetimes of edges", "anchors": ["src/cc/lib/distributed/client.cc: GRPCClient::LastNCreated", "src/cc/lib/distributed/graph_engine.cc: GetLastNCreatedNeighbors", "src/cc/lib/graph/merger.h: MergeLastNCreatedNeighbors"]}
{"id": "C69", "title": "Weighted neighbour sampling at a timestamp", "statement": "Weighted sampling at a timestamp returns for every node the requested number of neighbours that exist at that time, over the requested types and with their weights, each in proportion to its weight among the neighbours existing then, and defaults if their total weight is 0.", "quantifier": "all temporal graphs, nodes, 32-bit timestamps, edge types, counts and random draws", "why_tests_cant": "all random draws, all lifetimes of edges, all distributions of a node over partitions", "anchors": ["src/cc/lib/graph/partition.cc: Partition::SampleNeighbor", "src/cc/lib/graph/graph.cc: Graph::SampleNeighbor", "src/python/deepgnn/graph_engine/snark/client.py: MemoryGraph.weighted_sample_neighbors"]}
{"id": "C70", "title": "Features on disk are the features in memory", "statement": "A graph loaded with the feature data left on disk answers every feature query, dense, string or sparse, of nodes and of edges, with and without timestamps, exactly as the same graph loaded into memory.", "quantifier": "all converted graphs, nodes, edges, timestamps, feature ids and sizes, and contents of the feature files", "why_tests_cant": "all sizes of files and positions of values in them, in particular beyond 32 bits, and all empty values", "anchors": ["src/cc/lib/graph/storage.h: MemoryStorage, DiskStorage", "src/cc/lib/graph/locator.cc: platform_fseek", "src/cc/lib/graph/partition.cc: Partition::GetNodeFeature, GetEdgeFeature, GetNodeStringFeature, GetNodeSparseFeature", "src/python/deepgnn/graph_engine/snark/client.py: PartitionStorageType"]}
{"id": "C71", "title": "A server answers every request once", "statement": "Whatever the order in which clients send requests and the threads of a server act: every request is answered exactly once, with the reply and status of the service called one request after the other; no freed call object is used; no request is stuck before a shutdown; a shutdown comes to an end, with every request already taken answered and everything freed.", "quantifier": "all services, numbers of queues, requests and interleavings of server threads, the gRPC runtime and shutdown", "why_tests_cant": "all interleavings of any number of threads and requests, and any moment of the shutdown", "anchors": ["src/cc/lib/distributed/call_data.cc: Proceed", "src/cc/lib/distributed/server.cc: GRPCServer::HandleRpcs, GRPCServer::~GRPCServer"]}
{"id": "C72", "title": "Failed calls do not change results", "statement": "Whatever calls to servers fail, in whatever order replies, failures and callbacks come: a query is attempted at most as often as configured; an exception is raised only if every attempt lost a call; a result that is returned is the one of servers that never fail, with nothing left over from failed attempts in the reused output; delays follow the configured policy.", "quantifier": "all numbers of servers and attempts, replies, failures, interleavings of callbacks, contents of the output memory and retry policies", "why_tests_cant": "all orders of replies, failures and callbacks of any number of servers and attempts", "anchors": ["src/python/deepgnn/graph_engine/snark/client.py: _parse_grpc_options, DistributedGraph.__init__", "src/cc/lib/distributed/client.cc: WaitForFutures, GRPCClient::AsyncCompleteRpc, GRPCClient::NeighborCount, GRPCClient::FullNeighbor, GRPCClient::LastNCreatedNeighbor, GRPCClient::GetNodeFeature, GRPCClient::GetNodeType, GRPCClient::GetEdgeFeature, GRPCClient::SampleNodes"]}
{"id": "C73", "title": "Datasets divide the samples among training workers and loader processes", "statement": "When several training workers iterate over datasets that differ only in the worker index, each with any number of loader processes, the batches passed to the query functions of all of them together hold every sample of the files once per epoch, apart from padding or dropped samples of last batches; for samples drawn from the graph there are enough batches for the epochs and less than one batch per loader process to spare.", "quantifier": "all sampler classes, arguments, numbers of training workers and loader processes, files and their listings, permutations drawn", "why_tests_cant": "all combinations of numbers of workers, loader processes, files, batch sizes and epochs", "anchors": ["src/python/deepgnn/graph_engine/graph_dataset.py: DeepGNNDataset", "src/python/deepgnn/pytorch/common/dataset.py: TorchDeepGNNDataset", "src/python/deepgnn/graph_engine/samplers.py: GENodeSampler, GEEdgeSampler, FileNodeSampler, FileEdgeSampler, RangeNodeSampler, CSVNodeSampler, FileTupleSampler, TextFileSampler, FileTupleSamplerV2"]}
{"id": "C74", "title": "A distributed job starts every graph server exactly once", "statement": "When every process of a job creates a distributed backend with the same graph and the same servers, the processes together start each graph server exactly once and on its own host, all clients connect to the same list of servers in the same order and have different ranks, and every partition of the graph is loaded by exactly one process.", "quantifier": "all launchers (torch, MPI, Horovod, TensorFlow arguments or TF_CONFIG, explicit places), numbers of hosts and of processes per host, server lists, worker lists, contents and listings of the address files, sets of partitions", "why_tests_cant": "the number of processes and hosts, the launcher and the order in which a file system lists files cannot be enumerated by tests on one machine", "anchors": ["src/python/deepgnn/graph_engine/backends/snark/client.py: SnarkDistributedBackend, _AddressFinder, _AddressReader", "src/python/deepgnn/graph_engine/backends/options.py: BackendOptions"]}
{"id": "C75", "title": "A conversion that returns has converted every line, an interrupted one leaves nothing that loads", "statement": "When convert returns, every line of the input has been written to exactly one partition, in order, and the files of every partition are closed. If a line cannot be converted or a process dies, convert does not return and raises, and whatever the moment of an interruption there is no metadata next to incomplete partitions. Every conversion comes to an end.", "quantifier": "all inputs, numbers of processes, sizes of the pipes, dispatchers, lines that fail, schedules of the dispatching thread and the converters, moments at which processes die", "why_tests_cant": "schedules and crash points are unbounded; a test sees one interleaving and rarely a crash", "anchors": ["src/python/deepgnn/graph_engine/snark/convert.py: MultiWorkersConverter", "src/python/deepgnn/graph_engine/snark/dispatcher.py: PipeDispatcher, QueueDispatcher", "src/python/deepgnn/graph_engine/snark/converter/process.py: converter_process", "src/python/deepgnn/graph_engine/_adl_reader.py: TextFileIterator"]}
{"id": "C76", "title": "Calls of the Python client return the documented arrays", "statement": "For every call of the Python client on a loaded graph the arrays that are returned have the documented shapes, all their elements are written, and they hold the documented values for each of the nodes or edges in the order of the request; no memory outside of the arrays of the call is read or written. The order and repetitions of the requested types do not matter. Counts by type count each node or edge of a requested type once, and samplers use the requested types that exist.", "quantifier": "all graphs, arrays of nodes and edges, lists of types and timestamps, counts, defaults, features and element sizes, random numbers", "why_tests_cant": "the arrays of tests are one-dimensional, have matching lengths, and memory errors do not always show", "anchors": ["src/python/deepgnn/graph_engine/snark/client.py: MemoryGraph, NodeSampler, EdgeSampler", "src/python/deepgnn/graph_engine/snark/local.py: Client", "src/cc/lib/py_graph.cc: GetNodeType, GetNodeFeature, GetEdgeFeature, GetNodeStringFeature, NeighborCount, GetNeighbors, WeightedSampleNeighbor, UniformSampleNeighbor, LastNCreatedNeighbor, RandomWalk"]}
{"id": "C77", "title": "Bundled datasets serve the raw graph and keep test nodes out of training edges", "statement": "A bundled dataset of papers, proteins or posts serves exactly the graph of its raw files: neighbours of a node are the papers that cite it or are cited by it, once each (for proteins and posts: the links, of those that were kept, in both directions), features are the numbers and the label of its line, and its type says whether it is for training. Every node is listed in exactly one of the node files, and as many are for training as asked for. Neighbours over edges of type 0 are only between training nodes: nothing for tests is reached from them.", "quantifier": "all raw files that can be read, shares and random selections of training nodes, numbers of partitions, distributions of lines, and requested types", "why_tests_cant": "tests load the downloaded files with one partition and compare a few nodes", "anchors": ["src/python/deepgnn/graph_engine/data/data_util.py: Dataset, get_edge_list_node, select_training_test_nodes, write_node_files", "src/python/deepgnn/graph_engine/data/cora.py: CoraFull", "src/python/deepgnn/graph_engine/data/citeseer.py: Citeseer", "src/python/deepgnn/graph_engine/data/ppi.py: PPI", "src/python/deepgnn/graph_engine/data/reddit.py: Reddit"]}
{"id": "C78", "title": "Every seed gives a generator that never gets stuck, and different seeds give different results", "statement": "The generator behind all samplers and walks works for every seed: among any 129 successive results there are an even and an odd one, so it never dies or repeats one value. Two different seeds below 2^64 never give the same results for 128 draws in a row, from whatever draw on. The sequence of results of a seed repeats from its start.", "quantifier": "all 64-bit seeds, all pairs of different seeds and all draw numbers", "why_tests_cant": "tests look at a few draws of a few seeds; there are 2^64 seeds and no bound on the number of draws", "anchors": ["src/cc/lib/graph/xoroshiro.h: SplitMix64Generator, Xoroshiro128PlusGenerator", "src/python/deepgnn/graph_engine/snark/client.py: seed arguments"]}
{"id": "C79", "title": "GraphSAGE gives every node of a batch the vector of its own tree of sampled neighbours", "statement": "The output of GraphSAGE (TensorFlow) has one row per input node, in order. It is what the layers make of the tree of that node: the neighbours drawn for it, those drawn for each of them, and so on. No row depends on other nodes of the batch or on nodes occurring several times. With means or maxima it does not depend on the order in which neighbours were drawn. With a table of embeddings, every node has its own row and nodes that were not found have the last one.", "quantifier": "all numbers of layers, fanouts, widths, kinds of aggregators, weights, batches with repeated nodes, and answers of the sampler", "why_tests_cant": "tests train a model of two layers on one small graph and compare losses; they do not tell which neighbours went into which row", "anchors": ["src/python/deepgnn/tf/nn/sage_conv.py: aggregate, init_aggregators, MeanAggregator, MaxPoolingAggregator, LSTMAggregator", "examples/tensorflow/sage/sage.py: SAGEQuery, GraphSAGE.call"]}
{"id": "C80", "title": "The PyTorch GraphSAGE encoder gives every node the vector of its own sampled neighbours", "statement": "The PyTorch encoder returns one row per node of the batch, in order, made of the features of the node and the mean of those of the neighbours drawn for it. With an encoder as the features of another one (two layers) it is made of the vectors of the neighbours, each from the neighbours drawn for it, whatever other nodes are in the batch and however often nodes repeat.", "quantifier": "all batches with repeated nodes, answers of the sampler, weights, activations and numbers of layers and neighbours", "why_tests_cant": "tests run one batch of a small graph with the same number of neighbours in both layers and compare a loss", "anchors": ["src/python/deepgnn/pytorch/encoding/gnn_encoder_sage.py: SageEncoder", "src/python/deepgnn/pytorch/common/aggregators.py: MeanAggregator"]}
{"id": "C81", "title": "The embedding of a node does not depend on the rest of the batch (GAT and GCN)", "statement": "The GAT and GCN models return every node of the batch once, in increasing order of ids, together with its embedding. The embedding is that of two layers on the whole graph: it does not depend on the other nodes of the batch, on the order of the batch or on the number of hops asked for.", "quantifier": "all graphs, batches with repeated nodes, features, weights, numbers of heads and hops, and every arithmetic of numbers", "why_tests_cant": "tests train on one batch of all nodes of one dataset, and compare accuracy", "anchors": ["examples/tensorflow/gat/gat.py: GATQuery.query_training, GAT.forward, GAT.call", "examples/tensorflow/gcn/gcn.py: GCNQuery.query_training, GCN.forward, GCN.call", "src/python/deepgnn/tf/nn/gat_conv.py: AttnHead, GATConv", "src/python/deepgnn/tf/nn/gcn_conv.py: gcn_norm_adj, GCNConv", "src/python/deepgnn/graph_engine/graph_ops.py: sub_graph"]}
{"id": "C82", "title": "Layers give the same with a sparse and a dense adjacency matrix", "statement": "A GAT or GCN layer gives the same output whether the adjacency matrix is passed as a sparse or as a dense tensor.", "quantifier": "all sizes, adjacency matrices, features, weights, numbers of heads and ways to join them", "why_tests_cant": "tests compare both on one small matrix of zeros and ones with self loops", "anchors": ["src/python/deepgnn/tf/nn/gat_conv.py: AttnHead._call_dense_version, AttnHead._call_sparse_version, GATConv", "src/python/deepgnn/pytorch/nn/gat_conv.py: AttnHead, GATConv", "src/python/deepgnn/tf/nn/gcn_conv.py: gcn_norm_adj, GCNConv"]}
{"id": "C83", "title": "Data-parallel workers train one model", "statement": "When a model is trained by several workers with DDP or Horovod, every worker has after each update exactly the parameters that one process would have that averages and clips the gradients of all workers' batches, starting from rank 0's parameters, and training ends.", "quantifier": "all numbers of workers, all batches and epochs, all models and optimizers, all interleavings of the workers", "why_tests_cant": "tests run one worker, or two with the same data, under the schedule they happen to get", "anchors": ["src/python/deepgnn/pytorch/training/trainer_ddp.py: DDPTrainer", "src/python/deepgnn/pytorch/training/trainer_hvd.py: HVDTrainer", "src/python/deepgnn/pytorch/training/trainer.py: Trainer._train_one_epoch, Trainer._train_one_step, Trainer._train_one_step_internal, Trainer._load_checkpoint", "src/python/deepgnn/pytorch/training/trainer_fp16.py: FP16Trainer._train_one_step_internal"]}
{"id": "C84", "title": "Text features become the tokens of their own text", "statement": "Each text feature of a batch, wherever it is in the nested batch, is replaced by the ids and the mask of its own text: the ids of the letter groups (or word pieces) of its first words in order, zeros elsewhere, with sizes that do not depend on the text or on the zeros that fill up the feature.", "quantifier": "all texts and bytes, vocabularies, sequence lengths, array shapes and nestings", "why_tests_cant": "tests tokenize a few sentences with one vocabulary and one batch shape", "anchors": ["src/python/deepgnn/pytorch/encoding/twinbert/tokenization.py: TriLetterTokenizer, StdBertTokenizer", "src/python/deepgnn/pytorch/encoding/feature_encoder.py: TwinBERTFeatureEncoder.transform, TwinBERTFeatureEncoder._tokenize, TwinBERTFeatureEncoder._extract_sequence_id_and_mask"]}
{"id": "C85", "title": "Batches of the PyTorch GraphSAGE example", "statement": "A batch of the PyTorch GraphSAGE example has distinct nodes with their own features, labels 1 for the sampled edges and 0 for random pairs, indices that point to the nodes of these pairs, and messages to each node from its sampled neighbors only; evaluation sends messages along the same edges.", "quantifier": "all graphs, sampled edges, random nodes, sampled neighbors, fanouts and batch sizes", "why_tests_cant": "the example is run on one undirected data set and checked by the accuracy it reaches", "anchors": ["examples/pytorch/sage.py: SageDataset, train, _prepare_evaluation_data"]}
{"id": "C86", "title": "The TGN example predicts interactions from the past only", "statement": "The score the TGN example gives to an interaction is computed from interactions that happened before it, the last ones of its source; interactions in the future of a row never change its score; training, validation and test data follow each other in time.", "quantifier": "all temporal graphs, interactions, batches, negatives, networks and states of the memory", "why_tests_cant": "leaks of future interactions only make the reported accuracy better, so the test of the example passes with them", "anchors": ["examples/pytorch/tgn.py: make_train_val_test_batches, predict, train, test"]}
{"id": "C87", "title": "PyTorch Geometric sees the graph", "statement": "The stores of the PyTorch Geometric example present exactly the edges of the requested type that leave the listed nodes, with their endpoints, and the features of the requested nodes, one row per node; the numbers of nodes they state bound the ids; the loss is the mean over examples and the test score is about test data.", "quantifier": "all graphs, lists of nodes, edge types, ids, batches", "why_tests_cant": "the example is run on one small graph, whose ids are small and whose batches have more than one node", "anchors": ["examples/pytorch/pyg_interface.py: DeepGNNFeatureStore, DeepGNNGraphStore, train, test"]}
{"id": "C88", "title": "HetGNN trains on typed walks", "statement": "The HetGNN example trains on triples of a start node, a node reached from it by a random walk, and a negative; a triple is in the list of the types of its nodes, its negative has the type of the second node, every node of a walk gives one triple, and an epoch has enough minibatches for all nodes. Each node is embedded from its own features and its own sampled neighbours of every type, independently of the rest of the batch; the loss is the mean over triples; every node of a file gets its embedding.", "quantifier": "all graphs, random choices, numbers of types, walk lengths, batches, networks, files", "why_tests_cant": "the example is run on one data set with random walks; which triples occur and whether rows of a batch mix cannot be seen from a final score", "anchors": ["examples/pytorch/hetgnn/sampler.py: HetGnnDataSampler", "examples/pytorch/hetgnn/graph.py: MockGraph, MockHetGnnFileNodeLoader", "examples/pytorch/hetgnn/model.py: HetGnnModel"]}
{"id": "C89", "title": "HetGNN is evaluated on unseen links", "statement": "The link prediction test of the HetGNN example consists of pairs of authors who write a test paper together, have both been seen in training, and are no pair of training; its negatives are no coauthors; features are products of the embeddings of the two authors; F1 is computed from the predictions. For classification every author with a class is either in the training or in the test set, with the class of their most frequent venue.", "quantifier": "all lists of papers, numbers of authors, random draws, embeddings, predictions", "why_tests_cant": "a leak between training and test data only shows as a good score; the example runs on one data set", "anchors": ["examples/pytorch/hetgnn/main.py: a_a_collaborate_train_test, a_a_collab_feature_setting, a_class_cluster_feature_setting", "examples/pytorch/hetgnn/evaluation.py: evaluate_link_prediction, evaluate_node_classification"]}
{"id": "C90", "title": "Citation datasets keep rows and nodes together", "statement": "The loader of the published citation files gives every node its own features and class although the rows of the test nodes are in another order and some nodes are missing; features are divided by their sum; the public split has the labelled nodes for training, the next 500 for validation and the listed ones for tests; a random split has 20 training nodes of every class (or all) and disjoint validation and test nodes of the requested sizes; the graph built from the edge list returns exactly these features, classes, types and neighbours.", "quantifier": "all published files, orders of the test nodes, gaps, numbers of classes, permutations, numbers of partitions and distributions of lines", "why_tests_cant": "a wrong row is still a valid row, so training only gets worse; tests use the packaged graph of one dataset", "anchors": ["src/python/deepgnn/graph_engine/data/citation.py: load_data, sample_mask, preprocess_features, random_split, CitationGraph"]}
{"id": "C91", "title": "Creation times belong to the edges they are returned with", "statement": "When a caller asks for the creation times of edges, the times returned beside all neighbours or beside a sample are those of the edges that lead to these neighbours, also when the neighbours come from several servers; in a graph without timestamps, and for default entries, -1 is returned. Asking for them changes nothing else.", "quantifier": "all graphs, nodes, timestamps, edge types, counts, random draws, orders of replies", "why_tests_cant": "times are kept in a parallel array that is shifted, filled and merged separately; a misalignment only shows for particular graphs and orders of replies", "anchors": ["src/cc/lib/graph/partition.cc: Partition::FullNeighbor, SampleNeighbor, UniformSampleNeighbor*", "src/cc/lib/graph/graph.cc: Graph::FullNeighbor, Graph::UniformSampleNeighbor", "src/cc/lib/distributed/graph_engine.cc: GetNeighbors", "src/cc/lib/distributed/client.cc: GRPCClient::FullNeighbor"]}
{"id": "C92", "title": "Workers of a distributed job wait for each other at the start and at the end", "statement": "In the distributed example job every worker starts a graph server. No worker connects before all servers run, every worker learns the addresses of all servers, no server goes away while a worker may use it, and in a job whose servers start all workers end. Addresses are valid and different and the servers share the partitions of the graph.", "quantifier": "all numbers of workers, all interleavings of workers and of their calls to the coordinating actor, all failures before the block", "why_tests_cant": "whether the workers meet depends on the interleaving of polling workers; a test sees the few schedules that happen on its machine", "anchors": ["examples/pytorch/aml.py: ServerLock, ServerContext, train_func", "src/python/deepgnn/graph_engine/snark/distributed.py: Server"]}
{"id": "C93", "title": "A graph loaded from remote storage is the graph stored there", "statement": "Loading a graph whose metadata and partitions are on remote storage gives the graph stored there: for every partition the engine reads the content of the same files as it would from the remote directory, and the samplers the same alias tables. Local partitions are read in place and may be mixed with remote ones in any order.", "quantifier": "all stores and contents, all lists of partitions, all numbers of features, all watermarks", "why_tests_cant": "tests load one or two partitions of one graph from one place; which files are missing or overwritten depends on the metadata, the order and the numbers of the partitions", "anchors": ["src/python/deepgnn/graph_engine/snark/_downloader.py: download_graph_data", "src/python/deepgnn/graph_engine/snark/meta.py: _get_node_map_path, _get_element_index_path, _get_element_alias_path", "src/python/deepgnn/graph_engine/snark/client.py: MemoryGraph.__init__", "src/cc/lib/graph/graph.cc: Graph::Graph", "src/cc/lib/graph/locator.cc", "src/cc/lib/graph/sampler.cc: WeightedEdgeSamplerPartition"]}
{"id": "C94", "title": "Embeddings written by inference can be loaded again", "statement": "In an inference job each worker writes the embeddings of its nodes to its own file. Loading the files gives a matrix with one row per node id: the row of a node in the job is its embedding to six decimals, whichever worker and batch it was in and in whatever order the files are found; padding is left out and all other rows are zero.", "quantifier": "all models (functions from nodes to vectors), all values, all divisions into batches and workers, all orders of files, all ranges and padding ids", "why_tests_cant": "tests load one model's output and check a score; which rows and which digits get lost depends on values, ids and padding", "anchors": ["src/python/deepgnn/tf/common/utils.py: node_embedding_to_string, load_embeddings", "src/python/deepgnn/tf/common/tf2_trainer.py: EagerTrainer._inference_impl", "examples/tensorflow/gcn/main.py: run_inference", "examples/tensorflow/han/main.py: run"]}
{"id": "C95", "title": "The unsupervised GraphSAGE model compares every source with its own positive and with all negatives", "statement": "For a batch of source nodes, one positive per source and a list of negatives, the model returns the sources with their own embeddings; the loss sums, over sources, the cross entropy of the source with its own positive and of the source with every negative, divided by the number of sources; the metric is the mean of 1/(1 + number of negatives at least as close as the positive). It is 1 exactly if every positive is strictly closer than every negative.", "quantifier": "all batches, positives and negatives, all answers of the graph (with repeated nodes), all weights and numbers", "why_tests_cant": "tests train on one graph and check that a loss falls or a metric is above a bound; an index shifted between sources, positives and negatives or ties counted as successes would still train", "anchors": ["examples/tensorflow/sage/sage_unsupervised.py: UnsupervisedQuery, UnsupervisedGraphSAGE", "examples/tensorflow/sage/sage.py: SAGEQuery._query_neighbor", "src/python/deepgnn/tf/nn/sage_conv.py: aggregate"]}
{"id": "C96", "title": "Link prediction scores an edge by the embeddings that inference writes for its two ends", "statement": "The prediction for an edge is the sigmoid of the inner product of the embedding of its source by the source layers and of its destination by the destination layers, each from the node's own sampled neighbours, and the loss pairs it with the label of the same edge. Inference for the source or the destination side writes the nodes asked for with these embeddings, so that scores can be computed from the files, given the same sampled neighbours.", "quantifier": "all batches of edges and nodes, all answers of the graph, all weights, tables and numbers", "why_tests_cant": "tests run one job for its score; a swapped side or a shifted row would only lower it", "anchors": ["examples/tensorflow/sage/sage_linkprediction.py: SAGELinkPredictionQuery, GraphSAGELinkPrediction", "examples/tensorflow/sage/main_linkprediction.py: run_inference"]}
{"id": "C97", "title": "Interactions of the MOOC dataset become edges with features over time", "statement": "The graph made of a file of interactions (user, item, time, features) has an edge from every user to every item they interacted with, and the features of this edge at a time are those of the latest interaction of this user with this item not after that time.", "quantifier": "all files of interactions, in any order, all users, items and times", "why_tests_cant": "the only test is skipped and looks at one edge; histories move between users only at the borders of users", "anchors": ["src/python/deepgnn/graph_engine/data/mooc.py: MOOC._edge_iterator, MOOC._serialize_temporal_features", "examples/pytorch/tgn.py"]}
{"id": "C98", "title": "HAN gives every node a vector made from itself and the ends of its own metapaths", "statement": "The HAN model returns a vector for every node of a batch, in order. It is computed from the features of the node and of the nodes reached from it along each metapath, with parameters of their own for every metapath, and is an average of the vectors of the metapaths. This holds for any number of layers, heads, hops and metapaths, in training, evaluation and inference.", "quantifier": "all graphs, samplers, batches, fanouts, metapaths, layers, heads and weights", "why_tests_cant": "the test trains with one layer and one hop on one graph and looks at the loss; rows are reshaped several times with products and sums that agree for one hop only", "anchors": ["examples/tensorflow/han/han.py: HANQuery.query_trainning, HAN", "src/python/deepgnn/tf/encoders/han_encoder.py: HANEncoder, SimpleAttLayer", "src/python/deepgnn/tf/encoders/att_encoder.py: AttEncoder", "src/python/deepgnn/tf/layers/attention_header.py: AttentionHeader"]}
{"id": "C99", "title": "Neighbourhood encoders of PyTorch use each node and its own neighbours", "statement": "The vector an encoder (LightGCN, LGCL, HetGNN, GAT) returns for a node is made from its own features and those of its own sampled neighbours: their mean, their greatest numbers by feature in any order, or an average by attention, for every batch size and every allowed number of outputs.", "quantifier": "all batches, fanouts, features, weights, activations and output sizes", "why_tests_cant": "the tests check shapes for one batch of several nodes and one choice of sizes", "anchors": ["src/python/deepgnn/pytorch/encoding/gnn_encoder_lightgcn.py: LightGCNEncoder.forward", "src/python/deepgnn/pytorch/encoding/gnn_encoder_lgcl.py: LgclEncoder", "src/python/deepgnn/pytorch/encoding/gnn_encoder_hetgnn.py: HetGnnEncoder", "src/python/deepgnn/pytorch/encoding/gnn_encoder_gat.py: GatEncoder.forward"]}
{"id": "C100", "title": "The reported metric and loss are those of all evaluated nodes", "statement": "The accuracy or F1 score and the loss reported for an evaluation of a supervised model are the part of the evaluated nodes whose class is predicted and the mean of their losses, however the nodes are divided into batches and among workers.", "quantifier": "all nodes, scores, labels, losses, divisions into batches and among workers, both metrics, with and without metrics by steps", "why_tests_cant": "tests evaluate one small set with one batch size that divides it", "anchors": ["src/python/deepgnn/pytorch/modeling/base_model.py: BaseModel.compute_metric, BaseSupervisedModel._loss_inner", "src/python/deepgnn/pytorch/training/trainer.py: Trainer._evaluate", "src/python/deepgnn/pytorch/training/trainer_ddp.py: DDPTrainer._evaluate, _allreduce", "src/python/deepgnn/pytorch/training/trainer_hvd.py: HVDTrainer._evaluate", "src/python/deepgnn/pytorch/common/metrics.py: F1Score, Accuracy"]}
{"id": "C101", "title": "Command line values arrive as they are written", "statement": "Lists of integers or texts, lists of lists and flags given on the command line arrive in the program as they are written; arrays are written so that they can be read back; the servers of a group started with their index, the number of servers and the number of partitions load every partition exactly once.", "quantifier": "all lists, texts, spellings, arrays, numbers of servers and partitions", "why_tests_cant": "tests parse a few literals", "anchors": ["src/python/deepgnn/arg_types.py: vec2str, str2bool, str2list_int, str2list2_int, str2list2, str2list_str", "src/python/deepgnn/graph_engine/snark/server.py: __main__"]}
{"id": "C102", "title": "The last checkpoint of training with parameter servers holds every update", "statement": "When workers train over parameter servers, the chief saves its last checkpoint only after every worker has made all its updates, so that this checkpoint holds the result of every update of every worker, whatever the order of their actions and whatever files an earlier run left in the model folder; evaluation starts with the trained parameters, and no worker waits forever.", "quantifier": "all numbers of workers and steps, files in the folder, orders of the actions of the workers, times of the checkpoints in between", "why_tests_cant": "tests start one or two workers that end at about the same time", "anchors": ["src/python/deepgnn/tf/common/hooks.py: ChiefCheckpointSaverHook, SessionExitHook", "src/python/deepgnn/tf/common/trainer.py: BaseTFTrainer.train, evaluate, inference", "src/python/deepgnn/tf/common/ps_trainer.py: PSTrainer", "src/python/deepgnn/tf/common/utils.py: setup_chief_only_hooks, setup_worker_hooks"]}
{"id": "C103", "title": "Workers of a Horovod job with TensorFlow train one model", "statement": "When several workers train with Horovod and TensorFlow, every worker holds after each step the parameters and the optimizer state that one process would have that takes the batches of all workers together and averages their gradients, starting from the variables of rank 0; training ends on all workers, and the checkpoint is the model trained on the batches of all workers.", "quantifier": "all models, optimizers, initial variables, numbers of workers, batches and interleavings of the workers", "why_tests_cant": "tests of the trainers run one process; whether gradients of other workers arrive shows only in a job with several workers", "anchors": ["src/python/deepgnn/tf/common/horovod_trainer.py: HorovodTFTrainer.train, _setup_training_hooks", "src/python/deepgnn/tf/common/tf2_horovod_trainer.py: HorovodEagerTrainer._train_impl"]}
{"id": "C104", "title": "A graph can be opened with its partitions in any directories", "statement": "A graph is opened with a list of partitions, each with the directory it is in. Whatever directories the partitions are in, whatever other partitions and files are there, the graph that is opened is the converted one; a partition may consist of several sets of files.", "quantifier": "all graphs, numbers of partitions, assignments of partitions to directories, other files in the directories and contents of files", "why_tests_cant": "tests write a graph to one fresh temporary directory; other layouts and left-over files are unlimited", "anchors": ["src/cc/lib/graph/graph.cc: Graph::Graph, ReadNodeMap", "src/cc/lib/distributed/graph_engine.cc: GraphEngineServiceImpl", "src/cc/lib/graph/partition.cc: Partition::Partition", "src/cc/lib/graph/locator.cc", "src/python/deepgnn/graph_engine/snark/converter/writers.py", "src/python/deepgnn/graph_engine/snark/meta.py"]}
{"id": "C105", "title": "A graph on HDFS opens as the same files on disk", "statement": "Opening partitions with paths on HDFS (streaming mode) gives the graph that opening the same files on disk gives, with its own metadata, also if other graphs are opened at the same time; files that cannot be opened from disk cannot be opened from HDFS.", "quantifier": "all sets of files, directories, sizes, metadata, lengths of the pieces HDFS returns, contents of uninitialised memory, interleavings of loading several graphs", "why_tests_cant": "tests open one small graph from a local file system through libhdfs, in one process; short reads, buffers in the middle of files and races on the temporary copy do not occur", "anchors": ["src/cc/lib/graph/storage.h:HDFSStreamStorage", "src/cc/lib/graph/partition.cc:Partition::ReadEdgeIndex", "src/cc/lib/graph/graph.cc:Graph::Graph", "src/cc/lib/graph/hdfs_wrap.cc:parse_hdfs_path", "src/cc/lib/graph/metadata.cc:Metadata::Metadata"]}
{"id": "C106", "title": "Every element of a population can be drawn, with the right frequency", "statement": "Uniform samplers with replacement turn each 64 bit random number into a position by scaling it to a float in [0, 1), multiplying with the population size in single precision and truncating. The position is always inside the population; every element is drawn by some random number; and every element is drawn by the same fraction of the random numbers, up to the rounding.", "quantifier": "every population, every position in it and every sequence of 64 bit outputs of the generator", "why_tests_cant": "The populations on which single precision matters have more than 16 million elements, and that an element is never drawn is a statement about all 2^64 random numbers.", "anchors": ["src/cc/lib/graph/sampler.cc: UniformSampler sampling with replacement", "src/cc/lib/graph/reservoir.cc: WithReplacement", "src/cc/lib/graph/graph.cc"]}
{"id": "C107", "title": "Weights of neighbours survive the rounding of their running sums", "statement": "The engine keeps only running sums of the weights of a node's edges, in single precision. The weight reported for a neighbour and the share of random draws that select it nevertheless are those given to the converter, up to an error that is bounded by the number of edges of the node; every edge with a positive weight keeps a positive weight and can be drawn.", "quantifier": "every graph, every node, every list of weights and every random number", "why_tests_cant": "The error grows with the number of edges of a node, and whether a neighbour can be drawn is a statement about all random numbers; tests use few edges with small weights, for which sums are exact.", "anchors": ["src/cc/lib/graph/partition.cc: Partition::ReadEdges, FullNeighbor, SampleNeighbor"]}
{"id": "C108", "title": "Uniform sampling with replacement gives every neighbour the same chance", "statement": "Sampling neighbours uniformly with replacement returns, in every position of the result, each neighbour over the requested edge types with the same probability, although the neighbours are offered type by type and partition by partition. Every neighbour can be returned, and nothing but neighbours is.", "quantifier": "every graph, every node, every choice of edge types, every number of samples and every sequence of random numbers", "why_tests_cant": "A probability is a statement about all random numbers; tests compare a few samples from small nodes for one seed, where single precision is exact.", "anchors": ["src/cc/lib/graph/reservoir.cc: WithReplacement::add", "src/cc/lib/graph/graph.cc: Graph::UniformSampleNeighbor", "src/cc/lib/graph/partition.cc: Partition::UniformSampleNeighbor"]}
{"id": "C109", "title": "Merging the samples of two servers is fair", "statement": "When the neighbours of a node are spread over two servers and there are more than requested, uniform sampling without replacement gives every neighbour of a server the same chance, and every combination of neighbours is possible.", "quantifier": "All graphs, edge types and counts, all draws of the servers and of the client; all equally likely draws of the shuffle, for reservoirs of any size.", "why_tests_cant": "Tests compare a few sampled values with fixed seeds; that a pair is never returned, or that a share is off by one part in m, needs all draws.", "anchors": ["src/cc/lib/graph/reservoir.cc: sample_n, WithoutReplacementMerge::add", "src/cc/lib/distributed/client.cc: GRPCClient::UniformSampleNeighbor"]}
{"id": "C110", "title": "The logger is set up once, whatever threads ask for it", "statement": "However many threads ask for the logger at the same time, logging is configured exactly once before any of them gets it, telemetry is on exactly if it was asked for, each record is sent once, and no thread waits for ever, even if configuring fails in one of them.", "quantifier": "All numbers of threads, all mixes of get_logger and setup_default_logging_config calls, all schedules, with and without a connection string, all sets of threads whose configuration fails.", "why_tests_cant": "Races show in few of very many schedules; a test runs one.", "anchors": ["src/python/deepgnn/logging_utils.py: get_logger, setup_default_logging_config, add_azure_handler"]}
{"id": "C111", "title": "Loading a pretrained checkpoint puts every weight where it belongs", "statement": "After loading a published checkpoint every parameter of every layer holds the variable of the same layer and role (query, key and value one after the other), every variable outside the layers is stored under its own name, word embeddings are padded with zeros, and nothing is lost or mixed up, whatever the order of the variables in the checkpoint.", "quantifier": "All models, all numbers of layers, all checkpoints, all orders of their variables, all arrays.", "why_tests_cant": "Tests load no published checkpoint; the result depends on names, on the order of the variables and on state kept from one variable to the next.", "anchors": ["src/python/deepgnn/pytorch/encoding/twinbert/deepspeed/convert_bert_ckpt_to_deepspeed.py: load_hf_weights_in_bert_kernel, load_hf_weights_in_bert_torch, set_data", "src/python/deepgnn/pytorch/encoding/twinbert/deepspeed/nvidia_modeling.py: BertPooler, BertIntermediate"]}
{"id": "C112", "title": "The reported properties of a graph are the documented ones", "statement": "For every directed graph the diagnostic functions return the documented number and never raise: the effective 90% diameter, the share of nodes in the largest strongly connected component, the densification and the average clustering coefficient, whatever the order in which components are found and whatever nodes are drawn at random.", "quantifier": "All finite directed graphs, all orders of their components, all random draws and numbers of trials.", "why_tests_cant": "Tests compare three numbers for two graphs, and none calls the clustering coefficient or a graph whose effective diameter differs from the full one.", "anchors": ["src/python/deepgnn/graph_engine/snark/preprocess/sampler/metric.py: densification, diameter, largest_connected_component, average_clustering"]}
{"id": "C113", "title": "A sparse feature at a given time is the version in force", "statement": "For every temporal graph whose sparse features have histories, a request for sparse features of nodes or edges with one time each returns, per feature, the coordinates and values of the version with the greatest creation time not after the requested time, in request order, and nothing for an owner whose versions are all newer; coordinates and values always match in number.", "quantifier": "All graphs, histories (in any order), distributions of the records over partitions, nodes and edges (known or not, repeated or not), times and features.", "why_tests_cant": "Tests query one or two versions of one tuple each; the defects need an owner in two partitions and an older version with several tuples.", "anchors": ["src/cc/lib/graph/partition.cc: Partition::GetNodeSparseFeature, Partition::GetEdgeSparseFeature, deserialize_temporal_feature, deserialize_sparse_features", "src/cc/lib/graph/graph.cc: Graph::GetNodeSparseFeature, Graph::GetEdgeSparseFeature"]}
{"id": "C114", "title": "A downloaded model file is returned complete from the cache, whenever earlier calls were killed", "statement": "Whatever calls for whatever files came before, and at whatever moments their processes were killed, asking for a url returns a path to a file with exactly the bytes the server has under the url and its current entity tag; the url and the tag can be found again from the file name; files for different urls or tags have different paths.", "quantifier": "All histories of calls, urls, entity tags, file contents and splits into chunks, and all moments at which the process of a call is killed.", "why_tests_cant": "Tests do not kill a process between two writes; the property ranges over all such moments and all later histories.", "anchors": ["src/python/deepgnn/pytorch/encoding/twinbert/deepspeed/file_utils.py: get_from_cache, url_to_filename, filename_to_url, http_get"]}
{"id": "C115", "title": "Extracting a model archive writes nothing outside the directory it is extracted to", "statement": "When a model archive is loaded, either every file of the archive is written at a place inside the temporary directory, or the archive is refused and nothing is written; archives whose files all lie inside the directory are not refused.", "quantifier": "All temporary directories, and all archives: any number of members with any names, with or without symbolic links.", "why_tests_cant": "Tests try a few names; the property ranges over all names an attacker may choose.", "anchors": ["src/python/deepgnn/pytorch/encoding/twinbert/deepspeed/nvidia_modeling_no_apex.py: BertPreTrainedModel.from_pretrained (is_within_directory, safe_extract)", "src/python/deepgnn/pytorch/encoding/twinbert/deepspeed/nvidia_modeling.py: BertPreTrainedModel.from_pretrained"]}
{"id": "C116", "title": "Recomputing activations does not change what the encoder returns", "statement": "Turning on checkpoint_activations changes only what is kept in memory: the encoder returns the same hidden states and the same pooled output, whether only the last or all layers are asked for; each layer is run exactly once in the forward pass, in order, in at most about the square root of their number of pieces.", "quantifier": "All numbers of layers, all layer functions, inputs, masks and choices of outputs.", "why_tests_cant": "Tests use one number of layers; the pieces depend on the rounded square root of it.", "anchors": ["src/python/deepgnn/pytorch/encoding/twinbert/deepspeed/nvidia_modeling_no_apex.py: BertEncoder.forward, BertModel.forward", "src/python/deepgnn/pytorch/encoding/twinbert/deepspeed/nvidia_modeling.py: BertEncoder.forward"]}
{"id": "C117", "title": "Loading a pretrained model gives every parameter the weight of its name", "statement": "After loading a dictionary of weights, written with today's names or with the older names gamma and beta, with or without the prefix of the inner model, every parameter of the model has the weight of its name, no weight replaces another, and if a parameter has no weight or one of another shape there is an error.", "quantifier": "All dictionaries of weights, all models (lists of named parameters with shapes), inner models and models with heads.", "why_tests_cant": "Tests load one checkpoint; which names clash depends on all names in the dictionary.", "anchors": ["src/python/deepgnn/pytorch/encoding/twinbert/deepspeed/nvidia_modeling_no_apex.py: BertPreTrainedModel.from_pretrained", "src/python/deepgnn/pytorch/encoding/twinbert/deepspeed/nvidia_modeling.py: BertPreTrainedModel.from_pretrained"]}
{"id": "C118", "title": "The focal loss weights every example by the weight of its class", "statement": "For every batch the focal loss is the mean (or the sum) over the examples of the documented loss: minus the weight of the target class, times one minus the target's probability to the power gamma, times the logarithm of that probability.", "quantifier": "All batches, numbers of classes, targets, class weights and probabilities.", "why_tests_cant": "Tests use one batch, often with equal weights, for which the mean is right by accident.", "anchors": ["src/python/deepgnn/pytorch/encoding/twinbert/deepspeed/loss.py: FocalLoss.__init__, FocalLoss.forward"]}
{"id": "C119", "title": "The embedding of a word is made of its own letter groups and its position", "statement": "For every batch of tokenized texts the embedding has a row for each text, in order, and in it for each word the sum of the vectors of the word's own letter groups and of its position; zeros that fill up a word add nothing and the order of letter groups in a word does not matter. A batch whose width is not a number of whole words, or with more words than positions, is an error; texts are never mixed.", "quantifier": "All batches, widths, numbers of letter groups in a word, tables and texts.", "why_tests_cant": "The batch is reshaped as one flat tensor; whether texts are mixed depends on the sizes, of which tests use one combination.", "anchors": ["src/python/deepgnn/pytorch/encoding/twinbert/embedding.py: TriletterEmbeddings.forward"]}
{"id": "C120", "title": "The vector of a text does not depend on what fills up the text", "statement": "A text is filled up to a fixed length and a mask tells words from filling. For every encoder, two texts with the same words at the same positions have the same vector, whatever tokens fill them up and however many; a text without words has a vector that does not depend on its filling.", "quantifier": "All texts, fillings and masks, all numbers of layers and heads, all parameters.", "why_tests_cant": "Tests use one length and one filling; the mask is a large finite number, so that the property depends on all scores.", "anchors": ["src/python/deepgnn/pytorch/encoding/twinbert/deepspeed/nvidia_modeling_no_apex.py: BertSelfAttention.forward, BertModel.forward", "src/python/deepgnn/pytorch/encoding/twinbert/pooler.py: WeightPooler.forward", "src/python/deepgnn/pytorch/encoding/twinbert/encoder.py: TwinBERTEncoder.forward"]}
{"id": "C121", "title": "An encoder that starts from a checkpoint has the checkpoint's weights", "statement": "After an encoder is initialised from a checkpoint with other names, every parameter has the weight of the checkpoint that belongs to it, that is, the one with its name after the checkpoint's prefix; only parts that the checkpoint does not have keep their initial values; a missing, additional or ambiguous weight is an error.", "quantifier": "All checkpoints, lists of prefixes and encoders.", "why_tests_cant": "Tests load one checkpoint; which names match depends on all names and prefixes.", "anchors": ["src/python/deepgnn/pytorch/encoding/twinbert/encoder.py: TwinBERTEncoder._load_from_other_checkpoint, TwinBERTEncoder.extract_bert_by_prefix"]}
