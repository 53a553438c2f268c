# DESIGN

A Lean 4 model of the semantic core of microsoft/DeepGNN (source in /repo) and machine checked
theorems about it. The properties are listed in `properties.jsonl`; the mapping from property to
theorem is `MANIFEST.json`.

## Layout

* `lean/Verif/Model/*.lean` – the model, function by function. Every definition cites the file and
  lines in /repo it models and states its simplifications.
* `lean/Verif/Spec/*.lean` – small specifications, written without reference to the model's helpers.
* `lean/Verif/Proofs/*.lean` – helper lemmas.
* `lean/Verif/Props/*.lean` – the property theorems (named `Cnn_...`), each with an `example` showing
  that a concrete non-trivial case meets its hypotheses.

## Trusted base

* Lean 4.33.0's kernel.
* The axioms `propext`, `Classical.choice`, `Quot.sound` (checked with `#print axioms`; see
  `Verif/Axioms.lean`). No axioms are added, no `sorry`, no `native_decide`, no `bv_decide`.
* The reading of the Python and C++ sources: the model is tied to the code only by the citations.

## General modelling decisions

* Machine integers are `Nat`/`Int` except where a property is about encoding, where byte level
  encoders are modelled.
* Floating point. Where rounding changes results (running sums of edge weights in the neighbour index and
  in weighted sampling) single precision is modelled on integers: `f32` (Model/Float.lean) rounds an
  integer to 24 significant bits, ties to even; weights are integers then. Elsewhere (alias tables, learning
  rates, MRR, random walk probabilities, PageRank scores) numbers are exact rationals or scaled
  integers and the theorem says so; rounding is outside the model there. Values that are only copied
  are opaque.
* Random generators are oracles: every draw is an argument of the model function, constrained only
  by the range the distribution guarantees (e.g. an index draw is `< n`). Theorems quantify over all
  draws.
* Exceptions and failed assertions are values (`Option`/`Except`).
* Concurrency: threads and processes are transition systems; a run is any finite sequence of atomic
  actions the system allows (`run`, `Reach`, `Step`), and theorems quantify over all runs. When only the
  arrival order of finished replies matters, the schedule is an arbitrary permutation of events.
* Files are lists of bytes or of records; file system failures, memory allocation, gRPC transport,
  TLS, HDFS client library and OS behaviour are not modelled. `MemoryStorage` reads its file inside of `assert`
  (storage.h); the model is that of a build without `NDEBUG`, otherwise the data would stay unread.

## What is modelled

| Model file | Code |
|---|---|
| Bytes, Float, Writer | snark/converter/writers.py, byte encoders of snark/decoders.py and of struct/ctypes |
| Partition, Graph, Temporal, Features, Storage | src/cc/lib/graph/partition.cc, graph.cc, storage.h, locator.cc (platform_fseek), feature part of snark/decoders.py and snark/client.py |
| Reservoir, Sampling, Weighted, WeightedTime | src/cc/lib/graph/reservoir.cc, sampling parts of partition.cc, graph.cc |
| Alias, Sampler | snark/alias.py, src/cc/lib/graph/sampler.cc |
| Remote, RemoteFeatures, RemoteLastN, RemoteLookups, RemoteSampling, RemoteSampler, RemoteSparse, RemoteStrings, Retry, Server, ServerCalls, ServerUniform | src/cc/lib/distributed/call_data.cc, client.cc, graph_engine.cc, graph_sampler.cc, server.cc, src/cc/lib/graph/merger.h, retries of snark/client.py |
| Metadata, Convert, ConvertRun | snark/meta.py, meta_merger.py, convert.py, dispatcher.py, process.py, src/cc/lib/graph/metadata.cc |
| Files, TextReader, Samplers, Prefetch, Datasets | graph_engine/_adl_reader.py, samplers.py, prefetch.py, graph_dataset.py, pytorch/common/dataset.py |
| Checkpoint, Trainer, Schedule, Metrics | pytorch/training/trainer.py, pytorch/common/{utils,optimization,metrics}.py |
| SkipGrams, SubGraph, Multihop | graph_engine/graph_ops.py, multihop.py |
| Launch, Cluster, SamplerCache, PyClient | snark/distributed.py, server.py, local.py, client.py |
| RawGraph | data/data_util.py, cora.py, citeseer.py, ppi.py, reddit.py |
| Generator | graph/xoroshiro.h |
| Sage | tf/nn/sage_conv.py, examples/tensorflow/sage/sage.py (query and call), pytorch/encoding/gnn_encoder_sage.py, pytorch/common/aggregators.py |
| Gat | examples/tensorflow/gat/gat.py and gcn/gcn.py (query and embeddings), tf/nn/gat_conv.py, tf/nn/gcn_conv.py |
| DenseAdj | tf/nn/gat_conv.py, pytorch/nn/gat_conv.py and tf/nn/gcn_conv.py on dense matrices |
| DataParallel | pytorch/training/trainer_ddp.py, trainer_hvd.py, training steps of trainer.py and trainer_fp16.py |
| Tokenize | pytorch/encoding/twinbert/tokenization.py, pytorch/encoding/feature_encoder.py (transform) |
| SageExample | examples/pytorch/sage.py (batches and edge lists) |
| Tgn | examples/pytorch/tgn.py |
| Pyg | examples/pytorch/pyg_interface.py |
| HetGnn | examples/pytorch/hetgnn/{sampler,graph,model}.py |
| HetEval | examples/pytorch/hetgnn/{main,evaluation}.py: evaluation data and scores |
| Citation | src/python/deepgnn/graph_engine/data/citation.py |
| Created | src/cc/lib/graph/{partition,graph}.cc, src/cc/lib/distributed/{graph_engine,client}.cc: creation times of edges |
| Barrier | examples/pytorch/aml.py |
| Download | src/python/deepgnn/graph_engine/snark/{_downloader,meta}.py, src/cc/lib/graph/{graph,locator,partition,sampler}.cc: files opened |
| Embeddings | src/python/deepgnn/tf/common/{utils,tf2_trainer}.py: embedding files |
| SagePairs | examples/tensorflow/sage/{sage_unsupervised,sage_linkprediction}.py |
| Mooc | src/python/deepgnn/graph_engine/data/mooc.py |
| Han | examples/tensorflow/han/han.py, src/python/deepgnn/tf/encoders/{att,han}_encoder.py, src/python/deepgnn/tf/layers/attention_header.py |
| Encoders | src/python/deepgnn/pytorch/encoding/gnn_encoder_{lightgcn,lgcl,hetgnn,gat}.py |
| Evaluate | src/python/deepgnn/pytorch/modeling/base_model.py, src/python/deepgnn/pytorch/training/trainer{,_ddp,_hvd}.py (evaluation), src/python/deepgnn/pytorch/common/metrics.py (F1Score, Accuracy) |
| Args | src/python/deepgnn/arg_types.py, snark/server.py (command line) |
| TfTrainer | src/python/deepgnn/tf/common/{trainer,ps_trainer,hooks,utils}.py (order of steps, synchronization and checkpoints) |
| HorovodTf | src/python/deepgnn/tf/common/{horovod_trainer,tf2_horovod_trainer}.py |
| Folders | src/cc/lib/graph/{graph,partition,locator}.cc, src/cc/lib/distributed/graph_engine.cc (constructor), snark/converter/writers.py (names of files) |
| HdfsGraph, TempMeta | src/cc/lib/graph/{partition,graph,hdfs_wrap,metadata}.cc, src/cc/lib/graph/storage.h (graphs on HDFS) |
| Toss, WeightedToss, UniformRate, ServerRate | src/cc/lib/graph/{sampler,reservoir,partition,graph}.cc (random positions, weighted draws and sampling with replacement in single precision) |
| LogInit | src/python/deepgnn/logging_utils.py (get_logger, setup_default_logging_config) |
| BertLoad | src/python/deepgnn/pytorch/encoding/twinbert/deepspeed/convert_bert_ckpt_to_deepspeed.py (Hugging Face checkpoints) |
| GraphMetric | src/python/deepgnn/graph_engine/snark/preprocess/sampler/metric.py (not max_adjacency) |
| TemporalSparse | src/cc/lib/graph/partition.cc, graph.cc (sparse features with timestamps) |
| RemoteTemporalSparse | src/cc/lib/distributed/graph_engine.cc (sparse features with timestamps) |
| FileCache | src/python/deepgnn/pytorch/encoding/twinbert/deepspeed/file_utils.py (get_from_cache, filename_to_url) |
| ArchiveExtract | src/python/deepgnn/pytorch/encoding/twinbert/deepspeed/nvidia_modeling_no_apex.py, nvidia_modeling.py (is_within_directory, safe_extract) |
| EncoderChunks | src/python/deepgnn/pytorch/encoding/twinbert/deepspeed/nvidia_modeling_no_apex.py, nvidia_modeling.py (BertEncoder.forward, end of BertModel.forward) |
| PretrainedLoad | src/python/deepgnn/pytorch/encoding/twinbert/deepspeed/nvidia_modeling_no_apex.py (from_pretrained, from the state dictionary on) |
| FocalLoss | src/python/deepgnn/pytorch/encoding/twinbert/deepspeed/loss.py (FocalLoss) |
| TriletterEmbedding | src/python/deepgnn/pytorch/encoding/twinbert/embedding.py (TriletterEmbeddings.forward) |
| PaddedText | src/python/deepgnn/pytorch/encoding/twinbert/ deepspeed/nvidia_modeling_no_apex.py (BertSelfAttention.forward, mask of BertModel.forward), pooler.py (WeightPooler.forward), encoder.py (TwinBERTEncoder.forward) |
| InitCheckpoint | src/python/deepgnn/pytorch/encoding/twinbert/encoder.py (_load_from_other_checkpoint, extract_bert_by_prefix) |
| RandomWalk, Ppr | src/cc/lib/py_graph.cc, snark/client.py |
| Uploader, Hdfs | graph_engine/adl_uploader.py, src/cc/lib/graph/storage.h, hdfs_wrap.cc |
| EdgeList, EdgeListInput, Json, Tsv | snark/decoders.py |
| ForestFire, DistSync, Synchronized | snark/preprocess/sampler/forest_fire.py, tf/common/dist_sync.py, backends/snark/synchronized.py |

Every definition cites the exact lines. Not modelled: neural network code (PyTorch and TensorFlow models, encoders,
losses, trainers apart from checkpoints and schedules), logging, telemetry and command line parsing, gRPC transport
and its own retries, TLS, the HDFS and Azure client libraries, memory allocation, the
statistical quality of random generators, and performance.

## When the code does not satisfy the property

Where the code as written violates a property the model keeps the code's behaviour, a theorem named
`..._refuted` (or `..._witness`) gives a concrete counterexample, and the strongest part of the
property that does hold is proved in a theorem with the suffix `_partial`. The list of such findings
is in the section "Disagreements between code and property" below.

## Properties
* **C01 Fixed-width binary fields survive conversion** – Byte level model of struct.pack '=QQi', '=QQif', '=qq', c_uint64; little endian decode as fread does. Round-trip by induction on the number of bytes and of records.
* **C02 Neighbours survive conversion and loading** – Model of BinaryWriter/NodeWriter/EdgeWriter producing the record files and of Partition's loaders and FullNeighbor; refinement: query after load = filter of the input stream.
* **C03 Edge type filter is exact** – The two-pointer walk NeighborIndexIterator as a recursion; soundness for all inputs, completeness under the exact condition on the type lists, counterexample otherwise.
* **C04 neighbor_count agrees with neighbors** – NeighborCount and FullNeighbor as functions of the same walk; equality by induction.
* **C05 Temporal neighbours are the snapshot at the timestamp** – Temporal branch of NeighborIndexIterator/FullNeighbor; equality with a filter.
* **C06 Temporal neighbor_count agrees with temporal neighbors** – NeighborCount's temporal branch with find_start/find_last binary searches; counterexample; equality under the order under which the searches are correct.
* **C07 Last-N neighbours are the N most recent ones** – Priority queue as bounded sorted list; result is a sub-multiset of live edges of the right size with no omitted edge newer than a kept one.
* **C08 Dense node features survive conversion** – NodeFeatureWriter + GetNodeFeature; offsets invariant by induction over nodes.
* **C09 Edge features belong to the requested edge** – EdgeFeatureOffset search and EdgeFeatureWriter; found iff an edge exists, bytes round-trip.
* **C10 Temporal feature value is the latest one not after the timestamp** – _serialize_temporal_features and deserialize_temporal_feature at the level of index arrays and byte payloads.
* **C11 String features are returned whole and in order** – GetNodeStringFeature/merger index arithmetic.
* **C12 Sparse features decode to what was encoded** – convert_features tuple branch and deserialize_sparse_features.
* **C13 Node type lookup** – GetNodeType local, server and client.
* **C14 A node split over partitions is queried as one** – Graph::ReadNodeMap as a multimap, FullNeighbor/NeighborCount loops over partitions.
* **C15 Uniform neighbour sampling returns only real neighbours** – WithReplacement reservoir over type ranges with draw oracles.
* **C16 Sampling without replacement never repeats an edge** – AlgorithmL over type ranges with draw oracles.
* **C17 Reservoir keeps distinct stream positions** – Invariant over blocks.
* **C18 Merging reservoirs without replacement** – WithoutReplacementMerge::add with oracles; slot invariant; counterexample to the second half.
* **C19 Weighted neighbour sampling follows the weights** – Cumulative weights and interval search over rationals.
* **C20 Alias tables represent the weights exactly** – Vose construction over rationals; invariant over the two-stack loop.
* **C21 Alias records select the right element** – Alias record tables and selection.
* **C22 Sampler returns the requested number of elements of the requested types** – Sample's split over partitions.
* **C23 Remote neighbour queries do not depend on reply order** – Reply callbacks as a fold over a permutation of shards.
* **C24 Remote node features do not depend on reply order** – Reply callbacks with timestamps as a fold.
* **C25 Serving a graph from several servers changes nothing** – Shards = partition lists; comparison of the two models.
* **C26 Sampled neighbours go to the node that asked for them** – The iterator zip as a recursion over the request.
* **C27 Remote node sampling fills the output once** – Loop over shards with binomial draws as oracles.
* **C28 Graph metadata survives write and read and reaches the client** – Flat file write/read and the flatten/unflatten of GetMetadata.
* **C29 Converting with several workers merges to the single-worker metadata** – meta_merger with explicit aliasing of rows.
* **C30 Every input record is converted exactly once** – Partition ranges per worker, file stride, dispatcher rotation.
* **C31 Text reader yields every line once whatever the block size** – Block reader state machine against a line splitting spec.
* **C32 Files are divided among workers** – Stride slices.
* **C33 Array samplers visit every element once per epoch** – _NumpyIterator as a step function.
* **C34 Range samplers visit every id once** – _RangeNodeIterator as a step function.
* **C35 CSV node sampler partitions the nodes** – CSV iterator as a step function.
* **C36 Prefetching loses and duplicates nothing** – Generator.__next__ as a state machine over a queue containing a permutation of results and one end marker.
* **C37 Clients start after all servers and servers stop after all clients** – Transition system over files in the sync folder.
* **C38 Distributed sync is a barrier** – Transition system over files in the folder.
* **C39 Skip-gram generation** – Loops as list comprehensions; counting.
* **C40 sub_graph is the k-hop neighbourhood** – neighbors as a relation; reachability spec.
* **C41 Multi-hop fanout shapes and provenance** – Lists and block arithmetic.
* **C42 Random walks follow edges** – Walk with draw oracle.
* **C43 Approximate PPR scores are bounded and complete** – Push loop over rationals with mass invariant and fuel free termination.
* **C44 Forest fire sample is a subgraph of the requested size** – Worklist with oracles.
* **C45 MRR metric equals mean reciprocal rank** – Argsort as permutation; rationals.
* **C46 Checkpoint rotation keeps the newest checkpoints** – Lexicographic comparison of zero padded decimal strings.
* **C47 Streaming reads equal plain reads** – Buffer state machine.
* **C48 Servers load every partition exactly once** – range(index, n, shards) residues; local client's partition list.
* **C49 Sampler cache respects the request** – Cache keyed by rendered request.
* **C50 Edge list lines decode to the records they describe** – Token cursor over features.
* **C51 Learning-rate schedules** – Rational arithmetic.
* **C52 Bulk embedding writer keeps every line** – Chunk loop.
* **C53 Training resumes after a crash** – Transition system with kills; invariant on parameters and files; lexicographic measure.
* **C54 Result of a training is on disk** – Invariant: the checkpoint of the last epoch is there at the end.
* **C55 max_samples limits the samples of an epoch** – From C53 and the definition of the number of steps.
* **C56 Evaluation covers the evaluation set** – Induction on the batches.
* **C57 Merged weighted samples follow the weights** – The draws a merge uses depend on weights only, so one place of the output is a function of draws with increasing numbers; sum over all lists of draws by induction.
* **C58 Valid input is converted, invalid input is refused** – Validity is stated on the records (`Spec/Accept.lean`); invariant of the writer: state after a record, sizes bounded by the size of the input. Refusal: the same invariant for any accepted input.
* **C59 JSON lines: what is described is served** – `Model/Json.lean` from the parsed object on; sorting is a permutation ordered by type, so C58 accepts the records; compose with C03, C05 and C08.
* **C60 TSV lines: what is described is served** – `Model/Tsv.lean` on texts; splitting inverts joining for values without delimiters; the sort is a permutation ordered by type, so C58 accepts the records; compose with C03 and C08; the documented example and other lines of the described format are refuted.
* **C61 Edge lists: what is described is served, however the lines are distributed** – `Model/EdgeListInput.lean`: a line is a call of `add`; C50 gives the records, C58 accepts them for every sublist of the file, and C03, C05 and C08 with permutation of the lines give the queries.
* **C62 Weighted neighbour sampling: expected number of each neighbour, over several servers** – `Model/Server.lean`: the handler of a server over `Model/Weighted.lean` and the merge of `Model/RemoteSampling.lean`; expectations by means over grids of draws (`Proofs/Mean.lean`), with the multinomial loop over types by induction.
* **C63 Uniform neighbour sampling over several servers** – `Model/ServerUniform.lean`: the handler of a server over the reservoirs and the client of `Model/RemoteSampling.lean`; selections compose (`Proofs/ServerUniform.lean`).
* **C64 Node types from several servers** – `Model/RemoteLookups.lean`: server handler and callbacks as sequences of single writes; every interleaving of the sequences (`Spec/RemoteLookups.lean`).
* **C65 Edge features from several servers** – `Model/RemoteLookups.lean`: server handler and callbacks as sequences of single byte writes; every byte is traced to the server whose row it is.
* **C66 String features from several servers** – `Model/RemoteStrings.lean`: server handlers, the critical sections of the callbacks, the index of replies and the extraction of values; a cell of the index always refers to the value of one reply.
* **C67 Sparse features from several servers** – `Model/RemoteSparse.lean`: server handlers, the critical sections of the callbacks, the index of replies and the extraction of values; invariant over the executed sections: an item of the index is empty and no executed section has a value for it, or it refers exactly to the value of one server.
* **C68 The last created neighbours from several servers** – `Model/RemoteLastN.lean`: the server handler with its fixed size rows, the merge of the replies through the bounded queue; the N most recent of the servers' N most recent ones are the N most recent of all.
* **C69 Weighted neighbour sampling at a timestamp** – `Model/WeightedTime.lean`: the runs of edges alive at the timestamp, found by binary searches, with the cumulative weights read for each; with exact sums the runs are sampled as the edge types of C19, so its results and those of C62 apply.
* **C70 Features on disk are the features in memory** – `Model/Storage.lean`: the six queries as programs over `BaseStorage::read`, run on memory or on a C stream with position, end-of-file flag and 32-bit seek; run on memory they are the queries of the other properties. By induction over programs: with small files a read on disk gives nothing but the bytes in memory, and it gives them if it is not an empty read at the end.
* **C71 A server answers every request once** – `Model/ServerCalls.lean`: a transition system of call objects, completion queues, threads and the runtime. One invariant (each call object is in one place, each request is waiting, being served or answered, before the shutdown each method of each queue has a waiting call) kept by every action, and a measure that every action but an arrival decreases.
* **C72 Failed calls do not change results** – `Model/Retry.lean`: a transition system of attempts; each query is a method given by what it does with its output memory on entry, per reply and at the end, built from the merge functions of the other remote models. One invariant kept by every event gives the replies used by the attempt that returns; the results of the failure-free models then apply with arbitrary contents of the output memory.
* **C73 Datasets divide the samples among training workers and loader processes** – `Model/Datasets.lean`: keyword arguments, the injection of arguments into sampler classes by their signatures, loader processes, the constructors and iterators of the samplers on top of `Model/Samplers.lean`, `Model/Files.lean` and `Model/TextReader.lean`. A lemma on argument passing gives what every sampler of the grid of training workers and loader processes sees; then C31 to C35 are combined over the grid.
* **C74 A distributed job starts every graph server exactly once** – `Model/Cluster.lean`: the cases of `_get_server_index_client_rank` one after the other, the address files and what a process starts; partitions are those of `Model/Launch.lean`. `Spec/Cluster.lean` says what it means for a job to start servers once. One lemma reduces the claim to an injective assignment of server indices to processes; for ranks it is division with remainder, for TensorFlow workers an induction over the sorted list of workers.
* **C75 A conversion that returns has converted every line, an interrupted one leaves nothing that loads** – `Model/ConvertRun.lean`: a transition system with one step per operation of the dispatching thread and of each converter (send, end of input, end flag, write, failure, close, report, receive, save) and crashes of converters. `Spec/ConvertRun.lean` says what it means that everything was converted. An invariant relates what was written, what is in the pipe and what was sent; a measure bounds the number of steps; a case distinction shows that some step is possible until the metadata is saved. For the reader each thread has an outcome.
* **C76 Calls of the Python client return the documented arrays** – `Model/PyClient.lean`: arrays with shape and elements, some of them not written; spans over pointers that must lie in the array; the calls as compositions of these with the model of the engine. `Spec/PyClient.lean` describes vectors and tables with all elements written. Each theorem composes the property of the engine with facts about spans and shapes.
* **C77 Bundled datasets serve the raw graph and keep test nodes out of training edges** – `Model/RawGraph.lean` reads the columns of the raw files and writes the lines of the edge list; `Spec/RawGraph.lean` says who cites whom and which raw files can be read. The lines are shown to be those of a described edge list, calls of the converter for empty lines to have no effect, and the theorems on edge lists (C61) give the answers of the loaded graph.
* **C78 Every seed gives a generator that never gets stuck, and different seeds give different results** – `Model/Generator.lean` is the code over `BitVec 64`. Mixing of the seed and the step are shown injective; the state after any number of steps is never zero; the map from a state to the lowest bits of its next 128 results respects bitwise addition and has an inverse, which the kernel checks on the unit states.
* **C79 GraphSAGE gives every node of a batch the vector of its own tree of sampled neighbours** – `Model/Sage.lean` has the query with its unique nodes and slices, the reshapes and the loops over layers and hops. `Spec/Sage.lean` grows the trees of sampled neighbours and defines the vector of a tree by recursion on layers. The proof goes level by level: the rows of a level after `l` layers are the vectors of its trees, since reshaping gives back the groups of children.
* **C80 The PyTorch GraphSAGE encoder gives every node the vector of its own sampled neighbours** – `Model/SageTorch.lean` has the query, whose dictionaries are nested, with unique nodes, reshape and indexing, and the forward pass. `Spec/SageTorch.lean` defines the vector of one node. The query is shown to return the features of the drawn neighbours in order, the aggregator to average the right groups.
* **C81 The embedding of a node does not depend on the rest of the batch (GAT and GCN)** – `Model/Gat.lean` has the query on top of `sub_graph`, the sparse softmax, product and normalisation, heads and layers. `Spec/Gat.lean` defines the layers for one node of the whole graph. A layer is shown to act row by row; the rows of nodes near the inputs are the neighbourhoods of the whole graph.
* **C82 Layers give the same with a sparse and a dense adjacency matrix** – `Model/DenseAdj.lean` has the dense versions. `Spec/DenseAdj.lean` states the laws of 0 and 1 and what it means that a mask swamps the logits. Sums and maxima over a dense row are shown to be those over its entries that are 1.
* **C83 Data-parallel workers train one model** – `Model/DataParallel.lean` is a transition system of worker processes that meet in all-reduces and `join`. `Spec/DataParallel.lean` has the one process to compare with. An invariant relates each worker to the number of all-reduces so far; a measure that every action lowers bounds all schedules.
* **C84 Text features become the tokens of their own text** – `Model/Tokenize.lean` follows the tokenizers and the walk through the batch. `Spec/Tokenize.lean` says what the words of a text are by an inductive relation, and which id a letter group has.
* **C85 Batches of the PyTorch GraphSAGE example** – `Model/SageExample.lean` follows the index arithmetic with `np.unique`. The order of first occurrences is shown to start with the seeds, so positions among the seeds are positions among the nodes.
* **C86 The TGN example predicts interactions from the past only** – `Model/Tgn.lean` has the split, the queries of `predict` and the loops, with the network as parameter. Two graphs that agree up to a time are run side by side; the answer to a request is shown to be a function of the past of the node.
* **C87 PyTorch Geometric sees the graph** – `Model/Pyg.lean` puts the stores on top of the client of C76, with the rounding of `torch.Tensor`; edges and features follow from C76, the loss by induction over batches.
* **C88 HetGNN trains on typed walks** – `Model/HetGnn.lean` models sampler, mock graph, loader and model, with random choices as parameters; the triples are computed by induction over the walks, and compared with a separate definition of walks in `Spec/HetGnn.lean`.
* **C89 HetGNN is evaluated on unseen links** – `Model/HetEval.lean` models the lists of pairs, the loop for negatives, the files and scores; membership is computed by induction over pairs of authors and compared with `Spec/HetEval.lean`.
* **C90 Citation datasets keep rows and nodes together** – `Model/Citation.lean` models assignments to rows, masks and the writer; `Proofs/Citation.lean` shows what an assignment with distinct indices does, that sorted indices without gaps are consecutive, and counts the nodes of a split; the graph is obtained from the theorems of C77 on blocks of an edge list.
* **C91 Creation times belong to the edges they are returned with** – `Model/Created.lean` and `Model/CreatedWeighted.lean` carry the time beside each neighbour; the proofs follow those of C05, C15, C16, C23 and C69 with triples, and naturality of the reservoirs gives that samples are unchanged. `Model/ServerUniform.lean` and `Model/ServerTimed.lean` add the servers; the merges of the client are the ones of C26, on neighbours with their times.
* **C92 Workers of a distributed job wait for each other at the start and at the end** – `Model/Barrier.lean` is a transition system of the actor and of the workers with their pending calls. An inductive invariant ties place, pending calls and lock of every worker; a measure gives the end from every open state, and an invariant of stuck states that no other state gets there.
* **C93 A graph loaded from remote storage is the graph stored there** – `Model/Download.lean` models file names as lists of characters, patterns, the loop over the partitions with its variable `fs`, and the files the loader opens. The number in a name is recovered from its first or last run of digits, so patterns of different partitions never match one name; a lemma on overwriting gives the content of the temporary directory; the sorted lists of suffixes agree since they are permutations.
* **C94 Embeddings written by inference can be loaded again** – `Model/Embeddings.lean` models the text of a float (rounded half to even to millionths), lines, files and their parsing. Parsing inverts formatting up to the rounding, whose error is bounded by arithmetic; lines are recovered since no text has a tab, blank or line feed; an induction over the lines gives the matrix; C34's theorem gives the ids.
* **C95 The unsupervised GraphSAGE model compares every source with its own positive and with all negatives** – `Model/SagePairs.lean` models the merged query, lookups, `top_k` with lower positions first, ranks and losses on top of C79's layers. C79 gives every row the vector of its tree; the double `top_k` is shown to give, at the last place, the number of positions before it in a strict order, that is the number of negatives as good.
* **C96 Link prediction scores an edge by the embeddings that inference writes for its two ends** – `Model/SagePairs.lean` models both queries, `call`, `inference`, `test_step` and `predict_step` with the two sets of layers over one table. C79_identity gives the rows on either side; the scores are products row by row.
* **C97 Interactions of the MOOC dataset become edges with features over time** – `Model/Mooc.lean` models the sort, the loop with its state and the records. For one user an induction over the sorted rows gives the groups by item; C10 gives the features. The number of edges is counted against changes of users and pairs along the sorted rows.
* **C98 HAN gives every node a vector made from itself and the ends of its own metapaths** – `Model/Han.lean` models the query with `sample_fanout`, the reshapes, the heads, the shared list of heads and the semantic attention over arbitrary numbers. An induction over the hops gives the ends of the metapaths of every node; reshapes are followed as regroupings of rows. Softmax weights are positive with sum 1 in exact arithmetic.
* **C99 Neighbourhood encoders of PyTorch use each node and its own neighbours** – `Model/Encoders.lean` models reshape, topk, convolutions, squeeze with broadcasting, attention. The sizes of the two kernels leave exactly one number; sorting in descending order is unique; softmax weights are nonnegative with sum 1; a double sum is exchanged for the columns of the GAT encoder.
* **C100 The reported metric and loss are those of all evaluated nodes** – `Model/Evaluate.lean` models squeeze and argmax of labels, concatenation of batches, both scores by their definitions and the means. Each pair of classes is counted for exactly one class, so micro F1 is accuracy; the mean of means of equal groups is the mean; for two unequal groups with different means it is not.
* **C101 Command line values arrive as they are written** – `Model/Args.lean` models the conversions on lists of characters and the choice of partitions. Splitting at a separator inverts joining of texts without it; the elements of the ranges of a group are told apart by their remainders.
* **C102 The last checkpoint of training with parameter servers holds every update** – `Model/TfTrainer.lean` gives each worker the list of its operations over the synchronization of C38; a run is any sequence of actions. An invariant relates the operations done by each worker to the calls of `sync`, the updates and the last checkpoint; a weight that some action lowers in every state gives the continuation to the end.
* **C103 Workers of a Horovod job with TensorFlow train one model** – `Model/HorovodTf.lean` uses the workers of `Model/DataParallel.lean` for graphs and has its own workers for eager mode; `Spec/HorovodTf.lean` says what one process computes alone. The theorems on graphs follow from those of C83; for eager mode an invariant gives the batches that reach the variables of each worker.
* **C104 A graph can be opened with its partitions in any directories** – `Model/Folders.lean` opens a graph from lists of files per directory, with the names of `Model/Download.lean` and the loader of `Model/Graph.lean`; `Spec/Folders.lean` says what it means that a directory holds a partition. The suffixes found in a directory are shown to be the one of the partition, files that the metadata do not announce are shown not to matter, and an invariant of the node map gives the lookups for several files.
* **C105 A graph on HDFS opens as the same files on disk** – model the reads of every file of a partition through the buffer of C47 (`Model/HdfsGraph.lean`), show that the bytes that arrive determine the same partition (records, edges by the index of neighbours, pairs of times); interleaving model of the temporary copy (`Model/TempMeta.lean`) with an invariant for the time one constructor acts alone, and short runs as witnesses.
* **C106 Every element of a population can be drawn, with the right frequency** – Model the generator output as a natural below 2^64, its conversion to float and the product with round-to-nearest-even on 24 bits; prove monotonicity and the relative error of the rounding, and count the numbers below each threshold.
* **C107 Weights of neighbours survive the rounding of their running sums** – Bound the rounding error of the running float sum by induction, the reported differences from it, and count the random numbers between two sums by monotonicity of the rounded product.
* **C108 Uniform sampling with replacement gives every neighbour the same chance** – Count the draws for one slot by induction on the blocks with a weighted count as invariant. Show that the blocks offered by a graph are the groups of edges and that each slot follows one of the counted draws. Bound the rounded quotient and count the random numbers below it.
* **C109 Merging the samples of two servers is fair** – The shuffle as a recursion on lists and draws; counting by induction on the size that every element ends equally often at every place but its own; merge slots by induction; on the server level with the existing decomposition of uniformServers.
* **C110 The logger is set up once, whatever threads ask for it** – Threads as small-step programs over the module variables, the lock and the handlers; invariants by induction on the schedule; a rank for termination; concrete schedules for the refutations.
* **C111 Loading a pretrained checkpoint puts every weight where it belongs** – Names as lists of characters cut and searched as in Python; an invariant on the collected pieces by induction over the variables of a layer and then over the checkpoint; refutations for all models and arrays.
* **C112 The reported properties of a graph are the documented ones** – Distances as the least number of edges of a way; ways without repeated nodes are shorter than the number of nodes; ways between nodes of a component stay in it, so that distances in the subgraph are those in the graph; refutations by a ring and, for clustering, for all graphs.
* **C113 A sparse feature at a given time is the version in force** – Invariant over the partitions of a node: the state is that before the node followed by the version in force among those seen; with one tuple per version the replacement removes exactly it. Edges: at most one block holds the edge. Refutations by concrete graphs and, for plain values, for all values at the end of the file.
* **C114 A downloaded model file is returned complete from the cache, whenever earlier calls were killed** – Calls are lists of small steps on a directory, a killed call executes a prefix. Invariant over the history: each file in the cache is complete and has its metadata; names are different because digests have one length. Refutations for all files and all later histories.
* **C115 Extracting a model archive writes nothing outside the directory it is extracted to** – Paths as texts, normalisation and common prefix as in posixpath, extraction with links. By induction on components: the text of a directory is a prefix of the text of a place iff all components but the last agree and the last is a prefix. Refutations for all directories, names and link targets.
* **C116 Recomputing activations does not change what the encoder returns** – Layers are arbitrary functions; the loop has fuel and returns none if it does not end. Induction over its rounds: the calls cover the remaining layers in order. The square root rounded up is the least number whose square is large enough.
* **C117 Loading a pretrained model gives every parameter the weight of its name** – Names are texts, containment and replacement as in Python, the dictionary an association list. Induction over the renaming loop: a weight is found under its new name if no later step pops or overwrites it. Then the values of the parameters are read off.
* **C118 The focal loss weights every example by the weight of its class** – Mask, row sums and broadcasting as list functions over integers. Induction: the masked row sum is the entry of the target; the square of entries has the sum of the products, which factors. Ring identities for the refutations.
* **C119 The embedding of a word is made of its own letter groups and its position** – Views as groups of a flat list, broadcasting with its size rules. Induction over the rows: the groups of the flattened batch are its texts. For other widths: the number of groups is larger than the number of texts, and a batch of one text is never divisible.
* **C120 The vector of a text does not depend on what fills up the text** – Softmax as numerators and denominator after subtracting the maximum. The maximum is attained at a word, so masked terms underflow; hence one layer commutes with removing the filling, and by induction all layers and the pooler. For texts without words all scores are shifted by the same number.
* **C121 An encoder that starts from a checkpoint has the checkpoint's weights** – Invariant of the two loops: every entry of the result comes from a weight that belongs to its name, or is an initial value of an absent part. The strict load then reads it off. Refutation for all names and values.

## Tests against wrong programs

`seeded/LOG.jsonl` has one line for each edit of the model. What an entry shows:

* `failed_at`: the declarations whose proof did not compile after the edit. This alone does not show that a property theorem became false:
  a proof script may fail for an edit that changes no observable behaviour, as it did for the edit of `relax` in `Model/Ppr.lean`.
* `theorems_failed`: property theorems whose own proof failed.
* `theorems_blocked`: property theorems that could not be rebuilt since something they use failed. Nothing is known about their statements.
* `statement_refuted`: a closed instance of the claim, evaluated with the edited model and without any proofs, that is false. Only entries
  with this field show that the statement itself excludes the edit; `null` means this was not tried.

## Disagreements between code and property

Each theorem is a counterexample (or a proof of the negation) about the model of the code as it is.

* `C01_node_id_refuted` – The converter accepts the node id `2^63`, and the engine reads a negative number.
* `C02_weights_refuted` – The weight of the second edge is reported as 0.
* `C03_complete_refuted` – A request for types 1 and 2 misses the edge of type 2.
* `C05_removed_at_zero_refuted` – An edge removed at time 0 is taken as never removed: it is still returned at time 5.
* `C06_order_refuted` – At time 5 two neighbours are returned but three are counted.
* `C06_timestamp_refuted` – At time 3000000000, which does not fit an `int`, the edge is not returned but counted.
* `C07_removed_now_refuted` – At time 5 the edge of node 1 with lifetime [1, 5) does not exist any more, but it is returned.
* `C10_missing_refuted` – **Refuted** for features that were not given. A query at a timestamp for a feature the node's record leaves out (`null`) should return zeros, but the bytes of the next feature are taken for its history: here feature 0 of node 1 was not given and the reply for it is the value of feature 1 (partition.cc:495-501 does not check the stored size, unlike the string and sparse queries).
* `C100_loss_refuted` – Refuted: two batches of different sizes with different mean losses never give the mean of the losses of all nodes, as with a smaller last batch.
* `C100_steps_refuted` – Refuted: the same for metrics computed by steps.
* `C100_single_refuted` – Refuted: a batch with a single node, as the last of `k * n + 1` nodes in batches of `n`, makes the evaluation fail, and so do labels with a single class.
* `C100_workers_refuted` – Refuted: two workers with different numbers of nodes and different accuracies never report the accuracy of all nodes.
* `C100_idle_refuted` – Refuted: a worker without batches makes the evaluation fail; with metrics computed by steps it counts as a worker with metric and loss zero, so that one such worker halves what the other one reports.
* `C101_groups_refuted` – Refuted: empty lists between semicolons are left out, always, so that the lists after them move forward.
* `C101_names_refuted` – Refuted: lists with nothing in them or only an empty text are left out.
* `C101_strs_refuted` – Refuted: no texts arrive as one empty text, as the default for the hosts of parameter servers does; a value that is a list already fails, although the other conversions keep it.
* `C101_array_refuted` – Refuted: a vector and the matrix with this row have the same text, and so do all matrices with one row or none that have no elements.
* `C102_again_refuted` – The full claim fails for a second call of `train` of the same trainers: its calls of `sync` find the files of the first training, the chief saves its last checkpoint and ends everything while the other worker has made no update of the second training.
* `C102_late_refuted` – The chief has to be constructed first. Workers started again over running parameter servers find their variables initialised; if another worker ends its session before the chief is constructed, the chief removes its file: both wait forever, no checkpoint is saved.
* `C103_graph_uneven_refuted` – False with graphs if two workers have different numbers of batches: no schedule ends with all workers finished.
* `C103_eager_root_refuted` – False in eager mode (`HorovodEagerTrainer`): the optimizer is not a distributed one, so rank 0 always holds what it would hold if it trained alone on its own batches, whatever the others do,
* `C103_eager_saved_refuted` – and so does every checkpoint: it is that of the first epochs of rank 0 alone.
* `C103_eager_others_refuted` – The other workers start from what rank 0 holds after its first batch; their own first batch is lost and they train alone on the others.
* `C103_eager_differ_refuted` – Two workers with two batches each, to the end: they hold different parameters, neither is that of one process with the joint batches, and the checkpoint is that of rank 0 alone.
* `C104_several_files_refuted` – A partition in several sets of files (as announced in graph.cc:58-59): all nodes are looked up in the first one.
* `C104_copy_refuted` – A copy of the file of neighbours under another extension: every neighbour is returned twice.
* `C104_backup_refuted` – A backup of the file of neighbours with an added extension: the graph does not open.
* `C104_hdfs_refuted` – A directory on HDFS whose path contains "neighbors_" before anything that is not a digit cannot be opened at all, whatever its files.
* `C104_two_sets_refuted` – A partition in two sets of files: the neighbours of node 1 are those of node 0.
* `C105_path_refuted` – A path without a port but with a colon later on: what precedes the colon is taken for the host and the exception is thrown if no digit follows.
* `C105_metadata_refuted` – Two graphs loaded at the same time, in one process or in two: the first may get the metadata of the second.
* `C105_same_graph_refuted` – Loading the same graph twice at the same time is no better: the copy of the first may be empty when it is parsed.
* `C105_gap_refuted` – If the other one starts while the first is writing, the beginning of the metadata is lost: there are zero bytes in its place.
* `C105_overwritten_refuted` – Loading a graph from HDFS changes a graph that lies in the directory for temporary files itself: its metadata are overwritten.
* `C105_truncated_refuted` – A file of edges that was cut is noticed on disk, but not on HDFS: what is in memory after its end is taken for edges. Node 0 has an edge to 0 instead of 7.
* `C106_skipped_refuted` – With more than 2^24 elements some are never drawn: behind position 2^24 only every second element, behind position 2^25 only every fourth and so on, for every size of the population and every number of the generator.
* `C106_never_sampled_refuted` – In terms of samples: such an element is in none of them.
* `C106_gap_refuted` – Even with fewer than 2^24 elements there are gaps: of 12588380 elements the one at position 8388608 is never drawn.
* `C107_lost_refuted` – The claim that a positive weight is reported as a positive number is false: an edge whose weight is at most 1 / 2^26 of the sum of the edges of its type before it is reported with weight 0, for every such node.
* `C107_equal_refuted` – The same for equal weights: if a node has more than 2^24 edges of one type with weight 1, all but the first 2^24 are reported with weight 0.
* `C107_never_drawn_refuted` – A neighbour that is lost in the running sum is never drawn.
* `C108_overwritten_refuted` – The claim is false for large nodes: a node has edges of two types, and there are so many of the second type that `float` cannot tell their number from the number of all edges. Then no edge of the first type is ever returned, whatever the generator returns.
* `C109_unfair_refuted` – Whenever some but not all elements are used, no element has its fair share `c / m`.
* `C109_pairs_refuted` – Two samples without replacement for node 1, with neighbours 2 and 3 on one server and 4 and 5 on the other: for all draws of servers and client the pairs of 2 with 4, 2 with 5 and 3 with 4 are never returned.
* `C11_order_refuted` – **Refuted** for nodes with records in several partitions: values are appended partition after partition, so they are not in the order of the lengths. Here feature 0 of node 1 is in the second partition and feature 1 in the first; both lengths are 1 and the reply names `[2]` for feature 0 and `[1]` for feature 1 although the values are `[1]` and `[2]`.
* `C11_no_edge_features_refuted` – **Refuted** for graphs without edge features: the edge string query then indexes an empty table (partition.cc:1056-1064 lacks the check the dense and sparse queries have).
* `C110_telemetry_refuted` – **Refuted: telemetry that was switched on stays on.** `setup_default_logging_config(True)` does not take the lock, so a `get_logger` that runs at the same time may switch telemetry off again: both calls return, and no record is sent.
* `C110_twice_refuted` – **Refuted: every record is sent once.** The two calls may also both attach an Azure handler, so that each record is sent twice.
* `C111_pooler_refuted` – **Refuted: a published checkpoint can be loaded.** The converter looks for an attribute `dense_act` of the pooler, which the model calls `dense` (nvidia_modeling.py:606): every checkpoint with a pooler is rejected with an `AttributeError`, whatever else it contains.
* `C111_torch_refuted` – **Refuted: a checkpoint can be loaded without DeepSpeed's layers.** The same rename broke the other loader: the dense part of the intermediate block of a layer is called `dense` in the model (nvidia_modeling.py:465), so every checkpoint with such a layer is rejected.
* `C111_interleaved_refuted` – **Refuted: the order of the checkpoint does not matter.** If the queries of two layers come before their keys and values, loading succeeds and layer `i` gets query and key of layer `j`; layer `j` gets nothing.
* `C111_missing_refuted` – **Refuted: an incomplete layer leaves the others alone.** If the query of layer `i` is missing, the next layer gets its key and value.
* `C112_effective_refuted` – The documented "effective 90% diameter" is not returned: in a ring of 12 nodes more than 90% of the pairs are at most 10 edges apart, and 11 is returned.
* `C112_clustering_refuted` – `average_clustering` returns nothing for any graph: nodes are looked up by a random position, which yields their attributes or nothing, and attributes are no key of the neighbours. Without trials it divides by zero.
* `C113_plain_refuted` – Sparse features as the converter stores them (without a history) cannot be read at a time: wherever such a value with at most 8 bytes per coordinate is the last one in the feature file, the lookup takes the number of coordinates for a number of versions and reads past the end of the file, at every time.
* `C113_overwrite_refuted` – If the older version has two tuples, replacing it removes only one of them: at time 9 the version in force is that of time 8 with one tuple and one value, the reply has two tuples and one value, and the first tuple belongs to the replaced version.
* `C113_edges_refuted` – An edge with records in two partitions: the replaced version is not removed at all, the reply at 9 has the values of both versions.
* `C114_killed_refuted` – The claim of the comment in the code ("otherwise you get corrupt cache entries") is false for processes killed while they copy: whatever the file, if one is killed before the last byte is copied, every later call for it, after any calls for it, returns a path to a truncated file. The same directory is seen by a second process that asks for the file while the first one is copying.
* `C114_metadata_refuted` – If the process is killed after the copy and before the metadata are written, the file is returned by all later calls, but its url and tag cannot be found again.
* `C114_untagged_refuted` – A file that the server sends without entity tag is never fetched again: after a complete call, a call returns the old contents whatever the server has now.
* `C115_beside_refuted` – The claim is false: whatever the directory, a member "../<its name><extra>/<file>" is accepted and written beside it.
* `C115_link_refuted` – It is also false for archives with links: a link to any directory and a file below the link are accepted, and the file is written to that directory.
* `C116_all_refuted` – With recomputation, asking for all of two or more layers returns only the last, so the result is never the one without recomputation.
* `C117_taken_refuted` – A new name that is taken: whatever the weight in the old style and the one that has its name of today, the second is lost.
* `C117_both_refuted` – A name with both words: only "beta" is replaced, whatever the name; so some name still has "gamma", and its weight is not loaded.
* `C117_missing_refuted` – A model none of whose parameters is in the dictionary, as when the weights of the inner model are given to a model with a head, is returned with its initial values and without an error.
* `C118_flat_refuted` – With weights in a tensor of one dimension every example is combined with the weight of every other: the sum is the sum of the weights times the sum of the losses without weight, and the mean divides by the square of the number of examples.
* `C118_two_refuted` – So the mean of two examples is the documented one only if their weights or their losses agree.
* `C118_sum_refuted` – And the sum, with all weights one, is the documented one times the number of examples.
* `C12_vector_refuted` – **Refuted** for the remaining accepted shape: one value given with its coordinates as a vector ("both [[a,b]] and [a,b] are ok", writers.py:703). The dimension is recorded as 1 (708-711), so the one value comes back with two one-dimensional coordinates instead of one two-dimensional.
* `C120_empty_refuted` – In a text without words the mask has no effect: it is encoded as if all that fills it up were words.
* `C120_range_refuted` – If what fills up a text has a score higher than that of a word by the mask and more, by `u`, it replaces the word: the word's value does not count.
* `C121_two_refuted` – Two weights whose names differ only in what comes before the prefix, as in a checkpoint with two copies of a model: the later one replaces the earlier one, without an error.
* `C13_default_refuted` – Node 5 of `C02_example` was never given a node record, yet its type is -1 and not the default 7.
* `C15_gap_refuted` – With a gap in the types, the default is returned although there is a neighbour.
* `C16_removed_refuted` – Both edges exist at time 3, but for all draws a sample of two without replacement is the first edge twice.
* `C18_reachable_refuted` – Two shards with two elements each and one slot: for all draws the element offered by the first shard is lost.
* `C19_zero_refuted` – A draw of exactly 0 returns a neighbour of weight 0 although others have positive weights.
* `C19_unfilled_refuted` – With sums that are rounded, a node with neighbours of positive weights gets no samples for some draws, however many are requested: what was in the output before is returned, in the Python client the default.
* `C22_overflow_refuted` – A request for two of the three nodes of type 0 and the node of type 1 in one partition: if the number of nodes of type 0 is drawn to be 0, the sampler takes all three of them although only two fit in the output.
* `C24_order_refuted` – The claim that the values are the same for all reply orders is false: two servers with different node records of the same node, both with timestamp 0 since the query has no timestamp; whichever reply is processed last wins.
* `C24_empty_refuted` – The claim that a remote query answers like a local one is false for a query without nodes, which a graph answers with no values: the client divides the size of the output by the number of nodes.
* `C27_edges_refuted` – Edges: a server without a sampler gets a request, for no elements, and refuses it: the client fails although other servers could answer.
* `C27_without_refuted` – Two nodes sampled without replacement from two servers with one node each, 5 and 6: when both are asked of the first server the result has the node 5 and a node 0 that does not exist.
* `C28_empty_refuted` – Without partitions the file that is written cannot be read.
* `C28_rounding_refuted` – A weight that is not a float is rounded on the way to the client: the local and the remote client of the same graph show different weights.
* `C29_weights_refuted` – Two workers with two partitions each: every partition gets the sum of the weights of its worker.
* `C29_order_refuted` – Eleven workers: worker 10 is read before worker 2, and the weights go to other partitions.
* `C29_more_types_refuted` – The second worker has seen one more type: it is lost, with its nodes.
* `C29_fewer_types_refuted` – The second worker has seen one type less: the merge fails.
* `C30_lines_refuted` – Four partitions and three workers: the first two workers have two partitions each, the third has none and does not read its files.
* `C31_blank_refuted` – An empty line is yielded or not, depending on the size of the blocks: "a\n\n\nb" in blocks of 6 and of 2 bytes.
* `C31_last_refuted` – A last line without a newline is not split at "\r", all others are.
* `C33_shuffle_refuted` – Two data-parallel workers that shuffle on their own: one element is seen twice, another never.
* `C33_len_refuted` – Two rows, batches of two, two data-parallel workers: the second sees no batch, one is reported; with four rows, `drop_last` and three workers the first sees a batch, none is reported.
* `C33_features_refuted` – Edges with features: `drop_last` has no effect, the last batch is padded and the number of batches is wrong.
* `C34_parallel_refuted` – Ids 0 to 3, two data-parallel workers with batches of two: id 3 is lost.
* `C34_overlap_refuted` – Two workers with two data-parallel workers each: id 2 is yielded twice.
* `C35_len_refuted` – One row and two data-parallel workers: there is a batch, none is reported. Two epochs: two batches are reported, one is yielded.
* `C36_workers_refuted` – Two producers (`max_workers=2`) over one sample: the consumer sees the result twice and the marker as a result.
* `C37_race_refuted` – The full claim fails: a client that begins between the last look and the stop connects, and its server stops.
* `C37_early_stop_refuted` – A server that is asked to stop before its process has written the lock file leaves the file behind, and a client that begins later connects to it.
* `C37_stale_refuted` – With a lock file left from before, a client connects although no server was created.
* `C38_reuse_refuted` – The full claim fails for tags used twice: task 0 returns a second time although task 1 has called `sync` once.
* `C38_stale_refuted` – It also fails if task 0 is not constructed first: an old file lets task 1 pass alone.
* `C38_late_refuted` – And if task 0 is constructed after task 1 has called `sync`, it removes the file of task 1, and neither ever returns.
* `C39_windows_refuted` – Different window sizes: with a larger left window the call fails, with a larger right window pairs are missing and uninitialised entries are returned.
* `C40_zero_refuted` – `num_hops = 0` is treated as 1: nodes that are no seeds are returned.
* `C40_loop_refuted` – The adjacency matrix with loops is not a matrix of zeros and ones: a loop in the graph counts twice.
* `C41_gap_refuted` – Types 1 and 2 of a node with edges of types 0 and 2: the next layer and the adjacency list of `get_neighbor` lack the edge of type 2, as the neighbours of the node do (C03).
* `C42_loop_refuted` – The first step never takes an edge from the start to itself, whatever its weight: with weights 9 and 1 the other edge is always taken.
* `C42_backwards_refuted` – The full claim fails: with one edge from 1 to 2 a walk from 1 goes back from 2 to 1, where no edge leads; then it stops although the edge from 1 to 2 could be taken again.
* `C43_zero_refuted` – No result asked for: the code looks at the top of an empty queue.
* `C43_timestamps_refuted` – With timestamps the first query already reads behind the end of the timestamps: node 1 has one timestamp and two neighbours.
* `C44_one_refuted` – The full claim fails: in a graph without loops no choices give a sample of one node, there are always two.
* `C44_isolated_refuted` – Nodes without edges are never in a sample: if too many are asked for the call never returns, although the graph has enough nodes.
* `C45_rows_refuted` – Scores of shape (2, 2): both labelled items have rank 1, the mean reciprocal rank is 1, but the metric returns 3/4, because each label is also looked up in the other row.
* `C46_newest_refuted` – Epoch 1000 sorts before epoch 999 and step 1000000 before step 999999: the newest checkpoint is deleted as soon as it is saved, and the older one is loaded.
* `C47_overlap_refuted` – 1000 bytes and then 4000 bytes of a file of 8000: the rest of the buffer is copied over itself with memcpy, which is undefined.
* `C47_end_refuted` – Reading past the end of the file is not reported: after the 4 bytes of a file 4 more bytes are read, they are what was in the memory of the buffer before.
* `C47_restart_refuted` – `start` does not go back to the beginning of the file: the second pass over a file of 4 bytes fails.
* `C48_gap_refuted` – A graph whose partitions are 0 and 2 (the converter used two of three partitions): no server loads partition 2.
* `C48_client_refuted` – Asked for partitions 1 and 3 the client loads 0 and 1.
* `C49_edge_strategy_refuted` – Edge samplers are kept by types only: after a weighted sample of type 0, a uniform one is drawn by weight.
* `C49_long_refuted` – Two arrays of 1001 types which differ in the middle share a key, so the second call samples the types of the first.
* `C50_escape_refuted` – The full claim fails: no line at all can give a node or an edge a text that ends with one escape character (a Windows directory, say), whatever is written: escapes at the end of a decoded text always come in pairs.
* `C50_edge_type_refuted` – An edge `5 → 7` of type -1 is decoded as a node of type 7.
* `C51_peak_refuted` – As many warmup as training steps: the linear schedule rises to 9/10 and then is 0, it never reaches 1.
* `C51_polynomial_refuted` – As many warmup as training steps: the step after warmup divides by zero.
* `C52_closed_refuted` – A closed queue: `writelines` returns true although its first chunk was lost.
* `C52_empty_refuted` – An empty text given to `write` ends the process that takes it: later chunks of its queue are in no file.
* `C53_space_refuted` – A process that is killed before it deletes old checkpoints leaves one more, so there is no bound with repeated kills: here three files with `max_saved_ckpts = 1`.
* `C53_torn_write_refuted` – A process that is killed while it writes a checkpoint leaves a file that cannot be read, and since this is the newest checkpoint no process can be started any more: files are written in place (trainer.py:453).
* `C53_optimizer_refuted` – The state of the optimizer is not saved (trainer.py:446-450): with momentum an interrupted training ends with other parameters than one that is not interrupted.
* `C53_schedule_refuted` – Nor is the state of the schedule: after a restart the learning rate begins again at its first value.
* `C54_last_refuted` – With two epochs and a checkpoint every two epochs the last epoch is not saved: the test is on `epoch`, not `epoch + 1` (trainer.py:190).
* `C55_samples_refuted` – A smaller `max_samples` is rounded to 0 steps, which means no limit (trainer.py:405-406, 481-486): with `max_samples = 3` and batches of four samples all batches are used.
* `C56_training_refuted` – Evaluation in the last step of an epoch looks at one batch only: `_should_stop` looks at the training step, which does not change during the evaluation (trainer.py:305-319, 335-340).
* `C58_lifetime_refuted` – The converter accepts an edge that outlives its node: node 1 is removed at time 5, its edge has `removed_at = -1`, "never". The check `removed_at <= node_removed_at` compares -1 as a number (writers.py:145-149).
* `C59_empty_refuted` – A feature given as an empty list is not converted: the decoder looks at its first element (decoders.py:370).
* `C60_example_refuted` – The example in the description of the format is not converted: the type `i` of a feature becomes the key `int_feature`, for which there is no number type (decoders.py:477-478, 491; example in 457-463).
* `C60_label_refuted` – A neighbour in the described order `dst_id,edge_type,edge_weight,edge_label,edge_features` loses its features: the label is read as the features (decoders.py:456, 548-550).
* `C60_text_refuted` – A text with a colon in it is dropped without an error (decoders.py:472-475).
* `C60_default_refuted` – A neighbour without a type is not given the type 0, the sort before fails (decoders.py:532-534, 545).
* `C61_lifetime_refuted` – The claim that edges are served only while their node exists, which the converter checks for nodes and edges given in one JSON line, fails for edge lists: node 12 exists during `[3, 9)`, the line of its edge says `[3, 20)`, and the edge is served at time 15. Every line is a call of its own and the times of the node are forgotten.
* `C61_workers_refuted` – The claim that the number of workers does not matter fails for files where the edges of a node are not in order of types: the lines of nodes 1, 2, 1 are converted by one worker, while with two workers that take turns, lines 0 and 2 become neighbours in one partition and the conversion is refused.
* `C62_partitions_refuted` – Two samples for a node with neighbours in three partitions, of weights 1, 1 and 2. A sample that is not taken does not advance the place written to, so that the third partition replaces the first place first, where the second partition wrote before: neighbour 2 is returned 5/8 times on average instead of 1/2. (Only whether numbers are above 1/2 matters, so the numbers 1/4 and 3/4 are fine enough.)
* `C62_joint_refuted` – Samples from several servers are not independent of each other. Every server returns its samples ordered by type, and the client keeps or replaces them place by place: of two samples from two servers with neighbours of types 0 and 1 each, all of weight 1, both are neighbours of type 0, one from either server, with probability 3/32 instead of 1/8.
* `C63_reachable_refuted` – Every neighbour should be sampled for some draws. One sample without replacement of node 1, which has two neighbours on each of two servers: for all draws of servers and client it comes from the second server.
* `C64_order_refuted` – The claim that the type does not depend on the order of the replies is false when two servers hold records of one node with different types.
* `C64_local_refuted` – The claim that a client of a server gets the same types as from the graph itself is false: for a node that has edges but no node record the graph says -1, a server nothing, so that the client fills in the default.
* `C65_newest_refuted` – The claim that the latest value not after the time is returned is false for an edge with records on two servers: the replies carry the times of their values, but the client does not compare them, and the reply stored last wins.
* `C65_torn_refuted` – The claim that a feature of an edge is a value given for that edge is false when two servers hold records of the edge: the callbacks copy without a lock, so that bytes of both values are mixed.
* `C65_split_refuted` – The claim that the features of an edge do not depend on whether its partitions are on one server or on two is false even if the callbacks run one after the other: the reply of the second server overwrites feature 0, which the graph with both partitions returns, by zeros.
* `C65_empty_refuted` – The claim that a remote query answers like a local one is false for a query without edges: the client divides the size of the output by the number of edges.
* `C66_newest_refuted` – The claim that the latest value not after the requested time is returned is false: the client counts a timestamp only for features that are not empty, but servers send timestamps of all features of a node. A request at time 9 for feature 1 alone returns the value `[7]` of time 5, a request for features 0 and 1 returns the value `[8]` of time 3 when the second server answers last.
* `C67_order_refuted` – The claim that servers with the partitions of a graph give what the graph gives is false for a node whose records have different values: the value of the server that answers first is returned, so the same request has different results.
* `C67_dims_refuted` – It is false as well if the values on two servers have different dimensions: the client aborts, while the whole graph gives the first value.
* `C67_stale_refuted` – The claim is false for a node whose versions are spread over two servers: at time 9 the version of time 8 is in force and the whole graph gives it, but the client returns the version of time 3 if its server answers first.
* `C68_removed_now_refuted` – At time 5 the edge of node 1 with lifetime [1, 5) does not exist any more, but whatever the order of events the client returns it.
* `C69_order_refuted` – With the order of the edges that the JSON decoder produces, weighted sampling at time 5 returns a neighbour that was removed at 3.
* `C69_removed_refuted` – An edge whose removal time does not fit in 32 bits is returned at a time before its creation.
* `C69_timeless_refuted` – In a graph without times, weighted sampling with a timestamp reads outside the table of times; uniform sampling ignores the timestamp.
* `C70_empty_refuted` – **Refuted** where the last feature of a partition is empty: with the features in memory the value is filled with zeros, as that of any other empty feature, but on disk the query throws (`DiskStorage::read` refuses the offset, which is the size of the file, although no bytes are to be read) and the exception ends the process.
* `C70_large_refuted` – **Refuted** for feature files of more than 2 GiB: the position in the file is passed as a 32-bit `int` (`platform_fseek`, locator.cc:87-95). Here the feature of the second node is the byte at offset 4 GiB; the query on disk returns the first byte of the file instead.
* `C71_status_refuted` – **Refuted**: the client does not learn that `create` (and `sample`, and the features of edges) failed (call_data.cc:407-409). The service fails with status 9, the client sees 0.
* `C71_no_queue_refuted` – Without a thread nothing is answered: `std::thread::hardware_concurrency()` may return 0 (server.cc:160), then there are no queues.
* `C72_late_refuted` – The property for all orders of events is false: `WaitForFutures` leaves at the first exception, and gRPC then stores the reply of another server in memory that was freed.
* `C72_backoff_refuted` – Delays are not limited by the configured maximum, but by the number of attempts.
* `C72_fraction_refuted` – A policy with a fraction of a second, as in the documentation of gRPC, is dropped: 2 attempts become 5.
* `C72_minute_refuted` – So is one with a delay of a minute.
* `C73_csv_epochs_refuted` – The number of epochs of a dataset does not reach a sampler of CSV rows.
* `C73_csv_workers_refuted` – Two training workers both see all CSV rows.
* `C73_text_blank_refuted` – A sampler over an empty text file yields a batch of blank lines; so does one with `drop_last` over a file with fewer lines than a batch.
* `C73_uneven_refuted` – Training workers do not see equally many batches.
* `C74_meta_refuted` – A file without line breaks, as the converter writes it: without a number of servers and without a list of them no process starts.
* `C74_order_refuted` – The file system may list the files in any order: two processes start their servers on each other's addresses.
* `C74_sorted_refuted` – Even in the order of the names: with eleven processes the one with rank 2 starts its server on the address of the one with rank 10.
* `C74_uneven_refuted` – Hosts with different numbers of processes: the only process of the second host looks for a third server and fails, and the second server is never started.
* `C74_second_refuted` – The options are changed by the first client: a second one made from them finds another place.
* `C74_roles_refuted` – Two tasks of TF_CONFIG that are not workers, next to one that is: they have the same rank.
* `C74_stale_refuted` – A file left by an earlier job with one more host: its address is in the list of servers, and nobody starts it.
* `C75_stall_refuted` – One line that cannot be decoded: the conversion waits forever, it neither returns nor raises.
* `C75_stale_refuted` – Metadata of an earlier conversion in the same folder: after an interruption it is there, next to partitions without the lines.
* `C75_merge_refuted` – Two workers, the second is interrupted: the metadata of the first alone is merged without complaint.
* `C75_read_refuted` – A read fails in one of two threads: a line is lost and another one is read twice, and nothing is reported.
* `C75_end_refuted` – A read fails at the end of a file: the rest of the file is left out.
* `C75_utf8_refuted` – Bytes that are not UTF-8 in one line: all whole lines of the block are left out.
* `C76_matrix_refuted` – With a table of nodes of at least two columns `neighbor_counts` writes after the end of the array it allocated, on every graph.
* `C76_feature_matrix_refuted` – With such a table `node_features` returns the features of the first nodes only, as many as there are rows.
* `C76_times_refuted` – A list of timestamps that is shorter than the list of nodes is read beyond its end.
* `C76_weights_refuted` – The weights that uniform sampling returns are never written.
* `C76_default_refuted` – Sampling by weight ignores the default edge type: nodes that are not in the graph get the type -1.
* `C76_wrap_refuted` – A type beyond 32 bits is taken for another type.
* `C76_all_types_refuted` – -1 stands for all the types in a sampler, but `sample_nodes` of a client raises.
* `C76_created_refuted` – Sampling without replacement with creation times but without timestamps writes through a null pointer.
* `C76_sparse_refuted` – The full claim fails if the nodes of a request have different numbers of coordinates: in one order of the nodes the call returns no array of the feature although it reports success, in the other it returns rows of mixed coordinates, one more than there are values.
* `C76_sparse_type_refuted` – Values whose bytes do not fill elements of the requested type are left out silently: there are coordinates but no array of values.
* `C77_partitions_refuted` – False for several partitions: the dataset class converts to as many partitions as asked for and then loads only the first one (data_util.py:111), with two of them papers that cite a node are missing.
* `C77_no_training_refuted` – False without training nodes: the statistics at the end fail.
* `C77_reddit_neighbors_refuted` – Reddit, otherwise: for every node whose number is not its position, a link from the node to itself is not served at the node.
* `C77_ppi_no_training_refuted` – False for proteins without training nodes: the scaler fails, whatever the nodes and links.
* `C79_lstm_skips_refuted` – **C79_lstm_skips_refuted.** It is not so that every drawn neighbour counts: after a neighbour whose numbers are all 0, a last neighbour with other numbers is never looked at, whatever the cell is.
* `C79_bias_refuted` – **C79_bias_refuted.** No aggregator can be created with a bias.
* `C79_lstm_order_refuted` – **C79_lstm_order_refuted.** With the recurrent aggregator, the order in which neighbours were drawn changes the vector.
* `C80_three_refuted` – **C80_three_refuted.** Three layers or more never work: the query fails for every graph and batch.
* `C80_counts_refuted` – **C80_counts_refuted.** If the first layer draws more neighbours than the second, nodes get neighbours of other nodes without an error: the row of node 2 changes with the other node of its batch.
* `C80_fewer_refuted` – **C80_fewer_refuted.** If the first layer draws fewer neighbours than the second, the query fails.
* `C81_gcn_hops_refuted` – **C81_gcn_hops_refuted.** With the default of two hops the embedding GCN computes for a node depends on the other inputs: degrees are those of the subgraph.
* `C81_gat_hops_refuted` – **C81_gat_hops_refuted.** With one hop the embedding GAT computes for a node depends on the other inputs.
* `C81_directed_refuted` – **C81_directed_refuted.** Where an edge has no reverse, two hops do not suffice for GAT: an edge towards a neighbour is only known if its source is in the batch.
* `C82_isolated_refuted` – **C82_isolated_refuted.** A node without neighbours attends to no node in the sparse and to all nodes in the dense layer.
* `C82_gat_values_refuted` – **C82_gat_values_refuted.** The sparse layer ignores the values of the matrix; in the dense one they add to the logits. A matrix with 2 on the diagonal is what `sub_graph` returns for nodes with edges to themselves.
* `C82_gcn_values_refuted` – **C82_gcn_values_refuted.** The sparse normalisation uses the values for the degrees only, the dense one keeps them.
* `C83_uneven_ddp_refuted` – DDP with uneven data: one worker has one batch, the other two. After the first step the second worker waits for ever for an all-reduce that the first never takes part in.
* `C83_uneven_hvd_refuted` – Horovod with uneven data and no clipping: the worker that joins early misses the remaining updates of the epoch, and the two models differ from then on, also after the last epoch.
* `C83_clip_hvd_refuted` – Horovod without mixed precision and with `clip_grad`: clipping runs beside the all-reduce. One worker clips before the all-reduce, the other after it: they end with different models, although both had one batch. The first has applied a gradient of 24 although gradients are clipped at 10.
* `C84_empty_refuted` – A text without words has a mask of one word, like a text with a word.
* `C84_tab_refuted` – A tab between words does not part them: "a\tb" is the word "ab".
* `C84_cut_refuted` – A text that is cut within a character, as a feature longer than `max_sent_chars` may be, stops the batch: "aé" cut after two bytes.
* `C84_offline_refuted` – Tokens made beforehand, for the neighbors of nodes (three dimensions): the wrong dimension is cut and the batch stops.
* `C84_no_rows_refuted` – A batch without sentences: the ids have no dimension for the words.
* `C85_direction_refuted` – In a directed graph training and evaluation use opposite directions: with the edge 0 → 1 node 0 learns from node 1 in training, and node 1 from node 0 in evaluation.
* `C85_batch_size_refuted` – The batch size that is asked for has no effect.
* `C85_negative_refuted` – The last node is never drawn as one of the random nodes.
* `C85_fanout_refuted` – Without neighbors in the first hop the batch has no nodes and the labelled pairs point nowhere.
* `C86_split_refuted` – Refuted without order: the model is trained on an interaction later than one it is tested with.
* `C86_order_refuted` – Refuted for rows that are not in the order of time: the score of a row at time 5 is made of an interaction at time 7, because another row of the same source is before it in the batch.
* `C86_bipartite_refuted` – Refuted for graphs that are not bipartite: the score of an interaction with node 1 at time 4 is made of an interaction of node 1 at time 7, because node 1 is a source later in the batch.
* `C86_stale_refuted` – Refuted: a row is predicted from all earlier interactions of its source. Node 1 has an interaction at time 7, the score of its row at time 9 is made of those before time 5, its first row in the batch.
* `C86_skip_refuted` – Refuted: whether an interaction at time 1 is scored does not depend on the future. It is if another node has an interaction at time 7 and a row at time 9 in the same batch.
* `C86_new_nodes_refuted` – Refuted: every list of interactions can be evaluated. `test` fails if no source of a batch has an earlier interaction.
* `C87_large_refuted` – The claim that the edges are those of the graph is false for large ids: 16777217 is shown as 16777216.
* `C87_single_refuted` – The claim is false for a file with one node: it is read as a number, not as an array, and the query fails.
* `C87_batch_refuted` – The claim that `x` has a row per node is false for a single node: the dimension of the nodes is removed.
* `C87_size_refuted` – The claim that the stated numbers of nodes bound the ids of the edges is false: sources are counted by type 0, though the listed nodes may have another type, as the test nodes of the example.
* `C87_test_refuted` – The claim that the test score tells about the test data is false: it is the score of the first batch of the training data, whatever the test data is.
* `C88_types_refuted` – With a graph of DeepGNN the reported types are those of the edges: node 1 of type 1 is put into the list for pairs of type 0 and 0, with a negative of type 0, and will be embedded as a node of type 0.
* `C88_single_refuted` – A list of one triple: training fails.
* `C88_padding_refuted` – Lists of different length: the loss is not the mean over the triples.
* `C88_last_refuted` – The last node of a file gets no embedding, and if the last batch has one node there is an exception instead of it.
* `C88_file_refuted` – Nodes of another type than 0 are taken for those of type 0, and all nodes of a batch are embedded with the type of the first.
* `C88_neighbor_types_refuted` – `MockGraph` ignores the requested types: an author gets a paper as neighbour of type 0, author.
* `C89_negative_refuted` – A pair that is a positive of the test can be a negative of training.
* `C89_self_refuted` – An author can be their own negative; and if all papers together are by all authors nothing else is left.
* `C89_dimension_refuted` – The last dimension of the embeddings is not used: pairs that differ there look the same.
* `C89_f1_refuted` – Without a correctly predicted pair there is no F1 but an exception.
* `C89_venue_refuted` – A paper without a venue counts for venue 0: an author with one known venue, of class 0, is not classified.
* `C90_per_class_refuted` – Refuted: `num_train_per_class` has an effect.
* `C90_random_refuted` – Refuted: `split="random"` changes the dataset.
* `C90_overlap_refuted` – Refuted: every test node is in the test set. With fewer than 500 nodes between those for training and those for tests, nodes for tests have the type of validation nodes.
* `C90_isolated_refuted` – Refuted: an isolated node has no class. It is written with class 0.
* `C90_order_refuted` – Refuted: neighbours are given to the right node whatever the order of the dictionary. Rows of the adjacency matrix are numbered in the order of the keys: here node 1 cites node 2, but the row of node 1 is empty and node 0 has a neighbour.
* `C91_without_timestamps_refuted` – Without timestamps in the request every neighbour gets the placeholder as well, for all graphs: creation times are not returned although the edges have them.
* `C91_overflow_refuted` – A node with more neighbours at the timestamp than are requested: the call writes beyond the array of times, for all draws.
* `C91_unwritten_refuted` – In a temporal graph without timestamps in the request nothing is written for a node with neighbours: the caller reads what was in memory before.
* `C91_weighted_unwritten_refuted` – Without timestamps in the request, a node with a positive weight in its first partition: nothing is written, the caller reads what was in memory before.
* `C91_servers_untimed_refuted` – Without timestamps in the request the client gets the placeholder -1 for every neighbour, whatever the servers are: creation times are not returned although the edges have them.
* `C91_servers_weighted_untimed_refuted` – Without timestamps in the request: every sampled neighbour comes with the placeholder, whatever the servers are and although the edges have creation times.
* `C92_finish_refuted` – The claim that a job in which no worker fails can always end is wrong for two or more workers: when one worker is done before another has seen that all are there, `wait_set` never holds again.
* `C92_port_refuted` – Every worker has an address with a valid port: wrong from the eleventh worker on.
* `C92_shards_refuted` – The servers share the partitions, each has one server: wrong for two or more workers, the last partition is loaded by all servers.
* `C93_timestamps_refuted` – Files with the timestamps of edges are never downloaded: with a watermark, no partition that has data can be loaded.
* `C93_last_local_refuted` – Remote partitions are searched with the file system of the last partition: when that one is local (and has no directory of such a name) the download raises.
* `C93_local_partitions_refuted` – Remote metadata with local partitions only raises: there is nothing to ask for.
* `C93_same_number_refuted` – Partitions with one number from two remote directories overwrite each other: both places then hold the data of the second.
* `C93_edge_alias_refuted` – The weighted sampler of edges looks for alias tables in the directory of the metadata: partitions in other directories have no table there, although their own directory has it.
* `C94_small_refuted` – Values of at most half a millionth are lost: every row of them loads as (signed) zeros, like the row of a node that was not written.
* `C94_padding_refuted` – A padding id that is not the skipped one is written: id -1 then overwrites the last row.
* `C94_empty_refuted` – A file written for embeddings without values cannot be read.
* `C95_positive_drawn_refuted` – **C95_positive_drawn_refuted.** A negative with the vector of the positive, such as the positive itself drawn as a negative: the source counts for at most one half, however good the vectors are.
* `C95_unconnected_refuted` – **C95_unconnected_refuted.** A source without neighbours has the node -1 as its positive, and is counted like any other pair: adding it to a batch lowers the metric and changes the loss.
* `C95_default_refuted` – **C95_default_refuted.** The model cannot be created with its default `identity_embed_shape=[]`.
* `C96_dropout_refuted` – **C96_dropout_refuted.** With a dropout rate other than 0, dropout is applied in inference as in training, although it is only meant for training: what `predict` writes is whatever the random numbers leave.
* `C96_evaluate_refuted` – **C96_evaluate_refuted.** Once an inference node is set the model can no longer be evaluated: `test_step` fails for any input.
* `C96_predict_unset_refuted` – **C96_predict_unset_refuted.** Before an inference node is set, `predict` fails for any input.
* `C96_labels_refuted` – **C96_labels_refuted.** Labels of another dimension than 1 make training fail for every batch, although `label_dim` is a parameter.
* `C97_lost_refuted` – **C97_lost_refuted.** For any file that is not empty, the number of edges is the number of pairs of a user and an item, minus the number of users, plus 1: with every user but one, an edge gets lost.
* `C97_updates_refuted` – **C97_updates_refuted.** There is never an edge for a later update of the features: no file has more edges than pairs of a user and an item.
* `C97_items_refuted` – **C97_items_refuted.** Items do not become nodes: every node record is for a user of the file.
* `C97_mixed_refuted` – **C97_mixed_refuted.** With two users: the edge of user 1 is missing, and the edge of user 2, who first acts at time 5, has the value of user 1 at time 4.
* `C97_late_refuted` – **C97_late_refuted.** If user 1 acts later than user 2, the history of the edge of user 2 is not in the order of time, and the value of user 2 at time 5 is not found.
* `C97_same_id_refuted` – **C97_same_id_refuted.** The last user and the first item are the same node: an interaction of the two is an edge of node 7046 to itself.
* `C97_empty_refuted` – **C97_empty_refuted.** A file without interactions fails.
* `C98_hops_refuted` – **C98_hops_refuted.** With several hops the model fails for every batch whose size times the number of rows per node is not a multiple of the sum of the fanouts plus 1, whatever the graph and the weights.
* `C98_layers_refuted` – **C98_layers_refuted.** Several layers (the example's default is two) cannot be created: with heads in any layer but the first the constructor fails, so nothing can be trained or predicted.
* `C98_metapaths_refuted` – **C98_metapaths_refuted.** The metapaths do not have heads of their own: for every weights the encoder may be created with, giving it the neighbours of the metapaths in another order changes nothing, so that it cannot tell one metapath from another (if sums and maxima do not depend on the order of their terms).
* `C98_default_refuted` – **C98_default_refuted.** With the default `max_id` the nodes without neighbours are given node 0 as their neighbours: in a graph without edges every vector is computed from the features of node 0.
* `C98_evaluate_refuted` – **C98_evaluate_refuted.** Evaluation fails for every batch, while a training step on it does not.
* `C99_lgcl_single_refuted` – **C99_lgcl_single_refuted.** A batch of a single node cannot be encoded by LGCL with concatenated residuals, whatever its weights, features and fanout: `torch.squeeze` also drops the dimension of the batch.
* `C99_lgcl_hidden_refuted` – **C99_lgcl_hidden_refuted.** LGCL cannot have a single output: nothing can be encoded.
* `C99_lgcl_layers_refuted` – **C99_lgcl_layers_refuted.** LGCL with two layers, added residuals and as many outputs as features fails for every batch of at least two nodes with at least two neighbours each: the residual of the second hop is taken from the first one.
* `C99_hetgnn_odd_refuted` – **C99_hetgnn_odd_refuted.** With an odd number of outputs the bi-LSTMs of HetGNN have one output less: several kinds of neighbours cannot be encoded, and with one kind the vectors are shorter than asked for.
* `C99_gat_average_refuted` – **C99_gat_average_refuted.** The vectors of the GAT encoder are not averages, as those of an attention layer are: for any functions with the values of the leaky rectifier and `2 * exp (-1) < exp 0`, the first of two nodes with features 1 and 2 gets less than 1 from a head that copies the features.
