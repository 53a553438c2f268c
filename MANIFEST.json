{
 "claims": [
  {
   "property": "C01",
   "status": "partial",
   "theorems": [
    "DeepGNN.C01_u64_roundtrip",
    "DeepGNN.C01_i32_roundtrip",
    "DeepGNN.C01_i64_roundtrip",
    "DeepGNN.C01_pack_total",
    "DeepGNN.C01_pack_rejects",
    "DeepGNN.C01_node_id_partial",
    "DeepGNN.C01_node_id_refuted",
    "DeepGNN.C01_offset_file",
    "DeepGNN.C01_node_map_file",
    "DeepGNN.C01_edge_index_file",
    "DeepGNN.C01_timestamp_file"
   ],
   "note": "All fields and whole files round-trip; node ids from 2^63 on are accepted by the converter and read as negative numbers (refuted)."
  },
  {
   "property": "C02",
   "status": "partial",
   "theorems": [
    "DeepGNN.C02_load_succeeds",
    "DeepGNN.C02_neighbors",
    "DeepGNN.C02_weights_partial",
    "DeepGNN.C02_exact_of_small",
    "DeepGNN.C02_weights_refuted"
   ],
   "note": "Destinations, types, order and counts are exact for every accepted input; weights are exact when their running sums are exact in single precision, refuted otherwise."
  },
  {
   "property": "C03",
   "status": "partial",
   "theorems": [
    "DeepGNN.C03_only_requested",
    "DeepGNN.C03_complete_partial",
    "DeepGNN.C03_single_type",
    "DeepGNN.C03_complete_refuted"
   ],
   "note": "Soundness for all requests; completeness when no stored unrequested type is followed by a skipped requested one; refuted otherwise."
  },
  {
   "property": "C04",
   "status": "proved",
   "theorems": [
    "DeepGNN.C04_count_eq"
   ],
   "note": ""
  },
  {
   "property": "C05",
   "status": "partial",
   "theorems": [
    "DeepGNN.C05_snapshot_partial",
    "DeepGNN.C05_batch",
    "DeepGNN.C05_removed_at_zero_refuted"
   ],
   "note": "Exact snapshot for inputs without removal at time 0 and type requests without gaps; removal at 0 refuted."
  },
  {
   "property": "C13",
   "status": "partial",
   "theorems": [
    "DeepGNN.C13_first_record",
    "DeepGNN.C13_type",
    "DeepGNN.C13_default_partial",
    "DeepGNN.C13_edge_source",
    "DeepGNN.C13_default_refuted"
   ],
   "note": "A node known only as an edge source has type -1, not the default (refuted); everything else proved."
  },
  {
   "property": "C14",
   "status": "proved",
   "theorems": [
    "DeepGNN.C14_split",
    "DeepGNN.C14_each_edge_once"
   ],
   "note": ""
  },
  {
   "property": "C08",
   "status": "proved",
   "theorems": [
    "DeepGNN.C08_node_features",
    "DeepGNN.C08_record"
   ],
   "note": "Local graph; all nodes, ids, sizes and buffers."
  },
  {
   "property": "C09",
   "status": "proved",
   "theorems": [
    "DeepGNN.C09_edge_features",
    "DeepGNN.C09_unique"
   ],
   "note": "Local graph; if an edge was given several times the value comes from one of its records."
  },
  {
   "property": "C10",
   "status": "partial",
   "theorems": [
    "DeepGNN.C10_roundtrip",
    "DeepGNN.C10_latest_unique",
    "DeepGNN.C10_node_features",
    "DeepGNN.C10_edge_features",
    "DeepGNN.C10_missing_refuted"
   ],
   "note": "Proved for all histories (any order, any length, ties allowed), batches and timestamps; a feature that was not given (null) reads the following feature at a timestamp (refuted)."
  },
  {
   "property": "C06",
   "status": "partial",
   "theorems": [
    "DeepGNN.C06_count_partial",
    "DeepGNN.C06_order_refuted",
    "DeepGNN.C06_timestamp_refuted"
   ],
   "note": "Equal when creation and removal times do not decrease within a (node, type) and the timestamp fits 32 bits; refuted otherwise, even for the converter's own sort order."
  },
  {
   "property": "C07",
   "status": "partial",
   "theorems": [
    "DeepGNN.C07_last_n_partial",
    "DeepGNN.C07_removed_now_refuted"
   ],
   "note": "Proved for all inputs, N and timestamps when no edge of the node is removed exactly at the timestamp (refuted for that case)."
  },
  {
   "property": "C11",
   "status": "partial",
   "theorems": [
    "DeepGNN.C11_nodes_partial",
    "DeepGNN.C11_nodes_at_partial",
    "DeepGNN.C11_edges_partial",
    "DeepGNN.C11_order_refuted",
    "DeepGNN.C11_no_edge_features_refuted"
   ],
   "note": "Local graph: proved for all requests in which every node (edge) has at most one record; with records in two partitions the values come out of order, and an edge query over a graph without edge features reads outside its table (both refuted). The merging of string replies from several servers is under C66."
  },
  {
   "property": "C12",
   "status": "partial",
   "theorems": [
    "DeepGNN.C12_roundtrip",
    "DeepGNN.C12_nodes",
    "DeepGNN.C12_edges",
    "DeepGNN.C12_vector_refuted",
    "DeepGNN.C12_matrix_form"
   ],
   "note": "Proved for matrices of coordinates and for vectors of one-dimensional coordinates, at every request position; a single value with its coordinates given as a vector is stored with the wrong dimension (refuted). Node and edge queries are both covered."
  },
  {
   "property": "C15",
   "status": "partial",
   "theorems": [
    "DeepGNN.C15_only_neighbors",
    "DeepGNN.C15_sampled_partial",
    "DeepGNN.C15_temporal_partial",
    "DeepGNN.C15_gap_refuted"
   ],
   "note": "For all draws, counts, batches and previous buffer contents. Defaults although neighbours exist when the requested types have a gap (refuted, as C03)."
  },
  {
   "property": "C16",
   "status": "partial",
   "theorems": [
    "DeepGNN.C16_distinct",
    "DeepGNN.C16_neighbors_partial",
    "DeepGNN.C16_temporal_partial",
    "DeepGNN.C16_removed_refuted"
   ],
   "note": "For all draws, counts > 0 and batches; at a timestamp only for nodes whose edges are never removed: with removal times the same edge is returned twice (refuted)."
  },
  {
   "property": "C17",
   "status": "proved",
   "theorems": [
    "DeepGNN.C17_reservoir"
   ],
   "note": "For all block sequences, reservoir sizes > 0, draws and skip lengths."
  },
  {
   "property": "C18",
   "status": "partial",
   "theorems": [
    "DeepGNN.C18_distinct",
    "DeepGNN.C18_reachable_partial",
    "DeepGNN.C18_reachable_refuted"
   ],
   "note": "First half for all shards and draws. Second half when only the last shard exceeds the capacity; refuted for two shards beyond the capacity."
  },
  {
   "property": "C20",
   "status": "proved",
   "theorems": [
    "DeepGNN.C20_exact"
   ],
   "note": "In exact arithmetic (weights and the unit scaled to integers); floating point rounding of the probabilities is not modelled."
  },
  {
   "property": "C21",
   "status": "proved",
   "theorems": [
    "DeepGNN.C21_node_shares",
    "DeepGNN.C21_edge_shares"
   ],
   "note": "For every resolution of the real draw; thresholds in exact arithmetic."
  },
  {
   "property": "C22",
   "status": "partial",
   "theorems": [
    "DeepGNN.C22_weighted_nodes",
    "DeepGNN.C22_weighted_edges",
    "DeepGNN.C22_uniform_nodes",
    "DeepGNN.C22_uniform_edges",
    "DeepGNN.C22_without_nodes_partial",
    "DeepGNN.C22_without_edges_partial",
    "DeepGNN.C22_overflow_refuted"
   ],
   "note": "With replacement complete, for all draws. Without replacement: right whenever the sampler does not write past its output, and always when everything is requested; it can write past the output otherwise (refuted)."
  },
  {
   "property": "C19",
   "status": "partial",
   "theorems": [
    "DeepGNN.C19_sampled_partial",
    "DeepGNN.C19_share",
    "DeepGNN.C19_zero_refuted",
    "DeepGNN.C19_unfilled_refuted"
   ],
   "note": "For all draws every node gets count of its neighbours over the requested types, or defaults if their total weight is 0. For one sample, the share of the draws that returns a neighbour is its weight divided by the total weight, for any number of partitions and types. Refuted: a draw of exactly 0 returns a leading neighbour of weight 0; with weights 2^24 and 3 of two types, whose sum float32 rounds, some draws return no neighbour at all. Missing: timestamps (C69), other sums of weights that float32 rounds (one type: C107), gaps in the types (C15_gap_refuted), joint distribution of several samples (C62)."
  },
  {
   "property": "C23",
   "status": "proved",
   "theorems": [
    "DeepGNN.C23_neighbors",
    "DeepGNN.C23_counts"
   ],
   "note": "For any number of servers, answers and order of stored replies and callbacks the client returns, node after node, the answers of the servers in their configured order. Edge creation times are in C91. Failed calls are not modelled."
  },
  {
   "property": "C25",
   "status": "proved",
   "theorems": [
    "DeepGNN.C25_neighbors",
    "DeepGNN.C25_counts"
   ],
   "note": "For every distribution of the partitions over servers and every order of replies, the remote result has the local counts and, per node, a permutation of the local neighbours with types and weights. Counts at a timestamp: whenever the local query succeeds (C06 shows when it does)."
  },
  {
   "property": "C24",
   "status": "partial",
   "theorems": [
    "DeepGNN.C24_newest",
    "DeepGNN.C24_order_partial",
    "DeepGNN.C24_distributed",
    "DeepGNN.C24_temporal",
    "DeepGNN.C24_order_refuted",
    "DeepGNN.C24_empty_refuted"
   ],
   "note": "For any number of servers and order of replies every requested feature gets the value with the greatest timestamp among the servers that have it, or zeros; the order of the replies does not matter when servers that hold the same node agree, and then the result is that of the local graph holding all partitions. At given times the result is the latest value not after the time in the records on all servers. Refuted: two servers with different records of one node and equal timestamps, the last reply wins; a request without nodes divides by zero."
  },
  {
   "property": "C26",
   "status": "proved",
   "theorems": [
    "DeepGNN.C26_uniform_without",
    "DeepGNN.C26_uniform_with",
    "DeepGNN.C26_weighted"
   ],
   "note": "For all requests (with repeated nodes), servers, answers, draws and (weighted) orders of replies every row is made of samples offered for its own node. Weighted: sums of weights up to 2^24; rows of nodes no server knows are left as they were. Answers of one server: see C15, C16, C19."
  },
  {
   "property": "C27",
   "status": "partial",
   "theorems": [
    "DeepGNN.C27_nodes",
    "DeepGNN.C27_edges_partial",
    "DeepGNN.C27_weighted_nodes",
    "DeepGNN.C27_edges_refuted",
    "DeepGNN.C27_without_refuted"
   ],
   "note": "Proved for nodes, and for edges when every server has a sampler; combined with C22 for weighted nodes end to end. Refuted: edge sampling fails when a server has no sampler; without replacement a server may be asked for more nodes than it has and the result then has a node 0."
  },
  {
   "property": "C28",
   "status": "partial",
   "theorems": [
    "DeepGNN.C28_write_read",
    "DeepGNN.C28_client_partial",
    "DeepGNN.C28_empty_refuted",
    "DeepGNN.C28_rounding_refuted"
   ],
   "note": "Metadata loaded from any file with a partition is written and read back unchanged; a client shows the metadata of the complete file its (first) server loaded, when the weights are floats. Refuted: without partitions the written file cannot be read; weights that are not floats are rounded on the way."
  },
  {
   "property": "C29",
   "status": "partial",
   "theorems": [
    "DeepGNN.C29_counts_partial",
    "DeepGNN.C29_merged_partial",
    "DeepGNN.C29_weights_refuted",
    "DeepGNN.C29_order_refuted",
    "DeepGNN.C29_more_types_refuted",
    "DeepGNN.C29_fewer_types_refuted"
   ],
   "note": "Counts are the sums for any workers and partitions if all workers have the same types; the whole merge is right for at most ten workers with one partition each. Refuted: workers with two partitions (shared list), eleven workers (order of file names), workers that have seen different types."
  },
  {
   "property": "C31",
   "status": "partial",
   "theorems": [
    "DeepGNN.C31_lines_partial",
    "DeepGNN.C31_drop_last",
    "DeepGNN.C31_exact",
    "DeepGNN.C31_blank_refuted",
    "DeepGNN.C31_last_refuted"
   ],
   "note": "For all files, block sizes, thread counts and batch sizes the non-empty lines arrive in order, each once, with no empty lines added, in full batches but the last; without empty lines the lines are exactly those of the files. Refuted: whether an empty line is yielded depends on the blocks; an unterminated last line is not split at a carriage return, other lines are (hypothesis CleanEnd). Line separators outside ASCII and file system errors are not modelled."
  },
  {
   "property": "C32",
   "status": "proved",
   "theorems": [
    "DeepGNN.C32_reader",
    "DeepGNN.C32_samplers",
    "DeepGNN.C32_few",
    "DeepGNN.C32_nonempty"
   ],
   "note": "For all sets of files, numbers of workers and listing orders of the file system."
  },
  {
   "property": "C30",
   "status": "partial",
   "theorems": [
    "DeepGNN.C30_lines_partial",
    "DeepGNN.C30_lines_refuted",
    "DeepGNN.C30_round_robin",
    "DeepGNN.C30_by_function",
    "DeepGNN.C30_meta"
   ],
   "note": "Every line is in exactly one partition if every worker has partitions; with 4 partitions and 3 workers the files of the third worker are lost (refuted). The metadata of a worker is independent of the order in which its processes finish."
  },
  {
   "property": "C33",
   "status": "partial",
   "theorems": [
    "DeepGNN.C33_epochs_partial",
    "DeepGNN.C33_drop_last_partial",
    "DeepGNN.C33_len_partial",
    "DeepGNN.C33_len_bounds",
    "DeepGNN.C33_shuffle_refuted",
    "DeepGNN.C33_len_refuted",
    "DeepGNN.C33_features_refuted"
   ],
   "note": "Every row once per epoch if the data-parallel workers share the order; refuted if they shuffle on their own. The reported length is exact without data-parallel workers, off by at most one otherwise. drop_last is ignored for edges with features."
  },
  {
   "property": "C34",
   "status": "partial",
   "theorems": [
    "DeepGNN.C34_nodes_partial",
    "DeepGNN.C34_edges_partial",
    "DeepGNN.C34_parallel_partial",
    "DeepGNN.C34_last_id_lost",
    "DeepGNN.C34_parallel_refuted",
    "DeepGNN.C34_overlap_refuted"
   ],
   "note": "Every id once without data-parallel workers, for any number of workers. With n data-parallel workers and no other workers every id but the last n-1 is yielded once, in full batches padded with the backfill id. Refuted: the last id is always lost with data-parallel workers, and with both kinds of workers ids are yielded twice."
  },
  {
   "property": "C35",
   "status": "partial",
   "theorems": [
    "DeepGNN.C35_rows",
    "DeepGNN.C35_len_partial",
    "DeepGNN.C35_second_pass",
    "DeepGNN.C35_len_refuted"
   ],
   "note": "Every row exactly once over all data-parallel workers; the reported length is right for one epoch and one worker only; further passes yield nothing."
  },
  {
   "property": "C36",
   "status": "partial",
   "theorems": [
    "DeepGNN.C36_results_partial",
    "DeepGNN.C36_prefix_partial",
    "DeepGNN.C36_no_deadlock_partial",
    "DeepGNN.C36_terminates",
    "DeepGNN.C36_bounded",
    "DeepGNN.C36_workers_refuted"
   ],
   "note": "With one producer thread every interleaving returns each result once (in the order of completion), without deadlock. For any number of producers the queue and the pending samples stay within their bounds. With two producers a result is returned twice and the end marker is returned as a result (refuted)."
  },
  {
   "property": "C46",
   "status": "partial",
   "theorems": [
    "DeepGNN.C46_newest_partial",
    "DeepGNN.C46_load_partial",
    "DeepGNN.C46_newest_refuted"
   ],
   "note": "Proved for epochs below 1000 and steps below 10^6, where names sort as numbers; refuted beyond."
  },
  {
   "property": "C51",
   "status": "partial",
   "theorems": [
    "DeepGNN.C51_bounds",
    "DeepGNN.C51_warmup",
    "DeepGNN.C51_after",
    "DeepGNN.C51_fraction",
    "DeepGNN.C51_peak_refuted",
    "DeepGNN.C51_polynomial_partial",
    "DeepGNN.C51_polynomial_refuted"
   ],
   "note": "Exact rational arithmetic. All of the claim when there are more training than warmup steps; with as many, the linear schedule never reaches 1 and the polynomial one divides by zero (refuted)."
  },
  {
   "property": "C39",
   "status": "partial",
   "theorems": [
    "DeepGNN.C39_size",
    "DeepGNN.C39_actual",
    "DeepGNN.C39_pairs_partial",
    "DeepGNN.C39_windows_refuted"
   ],
   "note": "Proved for all batches when both windows have the same size; the right window is ignored, so other sizes fail or return uninitialised memory (refuted)."
  },
  {
   "property": "C45",
   "status": "partial",
   "theorems": [
    "DeepGNN.C45_actual",
    "DeepGNN.C45_mrr_partial",
    "DeepGNN.C45_ascending_partial",
    "DeepGNN.C45_rows_refuted"
   ],
   "note": "Proved for one row of scores per matrix, any number of matrices, any order of ties in topk; with several rows per matrix each label is looked up in all rows (refuted). Exact rational arithmetic."
  },
  {
   "property": "C48",
   "status": "partial",
   "theorems": [
    "DeepGNN.C48_servers_partial",
    "DeepGNN.C48_group",
    "DeepGNN.C48_gap_refuted",
    "DeepGNN.C48_client_partial",
    "DeepGNN.C48_client_refuted",
    "DeepGNN.C48_native"
   ],
   "note": "Servers: proved for all counts if partitions are numbered from 0 without gaps, refuted otherwise. Local client: ignores the ids it is asked for (refuted)."
  },
  {
   "property": "C49",
   "status": "partial",
   "theorems": [
    "DeepGNN.C49_nodes_partial",
    "DeepGNN.C49_edges_partial",
    "DeepGNN.C49_edge_types_partial",
    "DeepGNN.C49_edge_strategy_refuted",
    "DeepGNN.C49_long_refuted"
   ],
   "note": "Node samplers: proved for all histories if at most 1000 types are requested at a time, refuted beyond. Edge samplers: the types are right, the strategy is that of the first call (refuted)."
  },
  {
   "property": "C52",
   "status": "partial",
   "theorems": [
    "DeepGNN.C52_ends",
    "DeepGNN.C52_chunks_partial",
    "DeepGNN.C52_thread",
    "DeepGNN.C52_files_partial",
    "DeepGNN.C52_closed_refuted",
    "DeepGNN.C52_empty_refuted"
   ],
   "note": "Proved for all lines, chunk sizes, processes, threads and orders in which threads take chunks, unless a queue is closed: then a chunk is lost although writelines returns true (refuted). An empty text ends a process (refuted)."
  },
  {
   "property": "C47",
   "status": "partial",
   "theorems": [
    "DeepGNN.C47_bytes",
    "DeepGNN.C47_reads_partial",
    "DeepGNN.C47_overlap_refuted",
    "DeepGNN.C47_end_refuted",
    "DeepGNN.C47_restart_refuted"
   ],
   "note": "If reads within the file succeed their bytes are right, for all sizes and short reads. They succeed if no single read asks for 2050 to 4096 bytes; otherwise overlapping memcpy (refuted). Reading past the end is not reported and start does not rewind (refuted)."
  },
  {
   "property": "C40",
   "status": "partial",
   "theorems": [
    "DeepGNN.C40_edges_partial",
    "DeepGNN.C40_directed_partial",
    "DeepGNN.C40_matrix_partial",
    "DeepGNN.C40_zero_refuted",
    "DeepGNN.C40_loop_refuted"
   ],
   "note": "Proved on loaded graphs for all seeds, at least one hop and all options, if the request has no gap in the types (C03). num_hops=0 behaves as 1 and a loop counts twice in the matrix (refuted)."
  },
  {
   "property": "C41",
   "status": "partial",
   "theorems": [
    "DeepGNN.C41_random",
    "DeepGNN.C41_random_default_partial",
    "DeepGNN.C41_byweight_partial",
    "DeepGNN.C41_adjacency_partial",
    "DeepGNN.C41_returns_partial",
    "DeepGNN.C41_gap_refuted"
   ],
   "note": "Fanout shapes and provenance proved for all draws, metapaths and fanouts on loaded graphs; get_neighbor layers and adjacency proved for all hops if the types have no gap (C03) and weight sums are exact (C02)."
  },
  {
   "property": "C50",
   "status": "partial",
   "theorems": [
    "DeepGNN.C50_decode_partial",
    "DeepGNN.C50_escape_refuted",
    "DeepGNN.C50_edge_type_refuted"
   ],
   "note": "Any record with any features (missing, dense, sparse, text), with or without defaults, decodes to what was written. Missing because false: no line can give a text ending with one escape, and edges of type -1 decode as nodes."
  },
  {
   "property": "C44",
   "status": "partial",
   "theorems": [
    "DeepGNN.C44_sample_partial",
    "DeepGNN.C44_returns",
    "DeepGNN.C44_one_refuted",
    "DeepGNN.C44_isolated_refuted"
   ],
   "note": "Subgraph and size within one proved for all graphs and draws, and a result stays reachable while the graph has enough nodes with edges. Exact size fails (a loop-free graph never gives one node) and too many isolated nodes make it run forever (refuted)."
  },
  {
   "property": "C37",
   "status": "partial",
   "theorems": [
    "DeepGNN.C37_connect_partial",
    "DeepGNN.C37_stop_partial",
    "DeepGNN.C37_connects",
    "DeepGNN.C37_clients",
    "DeepGNN.C37_released",
    "DeepGNN.C37_race_refuted",
    "DeepGNN.C37_early_stop_refuted",
    "DeepGNN.C37_stale_refuted"
   ],
   "note": "Proved for all interleavings from an empty folder, for clients that exist when the stop is asked for. A client beginning between the last look and the stop, a stop before the lock file is written, and stale files break it (refuted)."
  },
  {
   "property": "C38",
   "status": "partial",
   "theorems": [
    "DeepGNN.C38_barrier_partial",
    "DeepGNN.C38_released",
    "DeepGNN.C38_names",
    "DeepGNN.C38_reuse_refuted",
    "DeepGNN.C38_stale_refuted",
    "DeepGNN.C38_late_refuted"
   ],
   "note": "Barrier and release proved for all interleavings, task counts and tags when task 0 is constructed first, for the first use of a tag. A tag used twice is no barrier, and a late task 0 lets others pass or blocks everyone (refuted)."
  },
  {
   "property": "C42",
   "status": "partial",
   "theorems": [
    "DeepGNN.C42_walk_partial",
    "DeepGNN.C42_undirected",
    "DeepGNN.C42_returns",
    "DeepGNN.C42_node2vec",
    "DeepGNN.C42_first",
    "DeepGNN.C42_backwards_refuted",
    "DeepGNN.C42_loop_refuted"
   ],
   "note": "Shape, start and steps along an edge in some direction proved for all graphs, lengths, parameters and draws when no edge leads to the default node; along edges on graphs with every edge in both directions; there the shares of the next nodes are those of node2vec, and in the first step they are in proportion to the weights except that the start is never chosen (an edge from the start to itself is not taken: refuted). In general a walk may go back against the edge it came by (refuted)."
  },
  {
   "property": "C43",
   "status": "partial",
   "theorems": [
    "DeepGNN.C43_scores_partial",
    "DeepGNN.C43_terminates",
    "DeepGNN.C43_zero_refuted",
    "DeepGNN.C43_timestamps_refuted"
   ],
   "note": "Termination, bounds, the PageRank equation up to the residual and the selection of the best proved for all graphs, alpha in (0,1], eps > 0 and map orders in exact arithmetic, for count > 0 and types without gap (C03). A count of 0 and queries with timestamps read out of bounds (refuted); rounding of 32 bit floats is not modelled."
  },
  {
   "property": "C53",
   "status": "partial",
   "theorems": [
    "DeepGNN.C53_resume_partial",
    "DeepGNN.C53_progress_partial",
    "DeepGNN.C53_files_partial",
    "DeepGNN.C53_loss_partial",
    "DeepGNN.C53_space_partial",
    "DeepGNN.C53_space_refuted",
    "DeepGNN.C53_torn_write_refuted",
    "DeepGNN.C53_optimizer_refuted",
    "DeepGNN.C53_schedule_refuted"
   ],
   "note": "Final parameters, restart and termination proved for any number of kills anywhere except during torch.save, if an update depends on parameters and batch only; every checkpoint holds the parameters its name says, finished checkpoints are not trained again, a kill loses less than save_ckpt_by_steps batches (with a checkpoint after every epoch), and at most max_saved_ckpts checkpoints stay if no process is killed while saving. A kill during the write makes training impossible to restart, and momentum or a learning rate schedule gives other parameters (refuted)."
  },
  {
   "property": "C54",
   "status": "partial",
   "theorems": [
    "DeepGNN.C54_last_partial",
    "DeepGNN.C54_last_refuted"
   ],
   "note": "Proved under the conditions of C53 if save_ckpt_by_epochs divides the index of the last epoch; otherwise the last epoch is not saved (refuted)."
  },
  {
   "property": "C55",
   "status": "partial",
   "theorems": [
    "DeepGNN.C55_samples_partial",
    "DeepGNN.C55_samples_refuted"
   ],
   "note": "Proved if max_samples is at least one batch per worker, under the conditions of C53; a smaller value means no limit (refuted)."
  },
  {
   "property": "C56",
   "status": "partial",
   "theorems": [
    "DeepGNN.C56_unlimited",
    "DeepGNN.C56_evaluation",
    "DeepGNN.C56_training_partial",
    "DeepGNN.C56_training_refuted"
   ],
   "note": "Proved for evaluation without limit, separate evaluation, and evaluation during training before the last step; in the last step of an epoch only one batch is looked at (refuted)."
  },
  {
   "property": "C57",
   "status": "proved",
   "theorems": [
    "DeepGNN.C57_share"
   ],
   "note": "For all requests, servers, answers and orders of replies: over every fine enough grid of the client's random numbers the share of a neighbour in every place of a row is the weight of the servers that offered it, divided by the total weight. Sums of weights up to 2^24; numbers of the generator are exact."
  },
  {
   "property": "C58",
   "status": "partial",
   "theorems": [
    "DeepGNN.C58_accepts",
    "DeepGNN.C58_refuses_partial",
    "DeepGNN.C58_lifetime_refuted"
   ],
   "note": "Valid input of every size is converted and the files load; ids out of range, decreasing types and edges outside the lifetime of their node are refused, except an edge marked as never removed of a node that is removed (refuted). Negative types are not modelled."
  },
  {
   "property": "C59",
   "status": "partial",
   "theorems": [
    "DeepGNN.C59_decodes",
    "DeepGNN.C59_converts",
    "DeepGNN.C59_neighbors",
    "DeepGNN.C59_snapshot_partial",
    "DeepGNN.C59_features",
    "DeepGNN.C59_empty_refuted"
   ],
   "note": "From parsed JSON objects on. Valid lines in any distribution and with edges in any order are converted and load; neighbours, snapshots (no removal at time 0, C05) and features of nodes are those of the lines, for requests without a gap in the types (C03). A feature given as an empty list stops the conversion (refuted)."
  },
  {
   "property": "C60",
   "status": "partial",
   "theorems": [
    "DeepGNN.C60_decodes_partial",
    "DeepGNN.C60_converts",
    "DeepGNN.C60_neighbors",
    "DeepGNN.C60_features",
    "DeepGNN.C60_example_refuted",
    "DeepGNN.C60_label_refuted",
    "DeepGNN.C60_text_refuted",
    "DeepGNN.C60_default_refuted"
   ],
   "note": "From the text of the lines on, for values without delimiters, quotes and line breaks. Written lines in any distribution, with neighbours in any order and empty columns left out, are decoded, converted and loaded; neighbours (requests without a gap, C03) and node features are those described. Refuted: the example of the documentation fails; features after an edge label and texts with a colon are lost without an error; a neighbour without a type fails although there is a default."
  },
  {
   "property": "C61",
   "status": "partial",
   "theorems": [
    "DeepGNN.C61_decodes",
    "DeepGNN.C61_converts",
    "DeepGNN.C61_neighbors",
    "DeepGNN.C61_snapshot_partial",
    "DeepGNN.C61_features",
    "DeepGNN.C61_lifetime_refuted",
    "DeepGNN.C61_workers_refuted"
   ],
   "note": "From the text of the lines on (simplifications of C50), for every distribution over workers that keeps the order of the lines. Neighbours over requests without a gap (C03), at any time (C05: no removal time 0), node features in the bytes of the file format. Refuted: an edge line that outlives its node is accepted and served; whether unsorted files are converted depends on the number of workers."
  },
  {
   "property": "C62",
   "status": "partial",
   "theorems": [
    "DeepGNN.C62_expected_partial",
    "DeepGNN.C62_sampled_partial",
    "DeepGNN.C62_joint_partial",
    "DeepGNN.C62_servers_partial",
    "DeepGNN.C62_partitions_refuted",
    "DeepGNN.C62_joint_refuted"
   ],
   "note": "Weights are integers with sums up to 2^24 (C19), requests without a gap (C03), draws are lists of coins and of numbers in [0,1) given from outside. The expected number is proved for nodes with one run of records per server; for nodes with records in several partitions of a server the loop is biased for two or more samples (C62_partitions_refuted). Independence of the samples is proved for one run and refuted for several servers. Servers in process; no RPC failures."
  },
  {
   "property": "C63",
   "status": "partial",
   "theorems": [
    "DeepGNN.C63_without_partial",
    "DeepGNN.C63_with_partial",
    "DeepGNN.C63_temporal_partial",
    "DeepGNN.C63_lost",
    "DeepGNN.C63_reachable_refuted"
   ],
   "note": "Requests without a gap in the types (C15_gap_refuted); at timestamps with the requirements of C15 and C16 on each server. The last part of the statement is false: with more than count neighbours on each of two servers only those of the second one are ever returned (C63_lost, C63_reachable_refuted). Servers in process; no RPC failures; no creation times of edges."
  },
  {
   "property": "C64",
   "status": "partial",
   "theorems": [
    "DeepGNN.C64_node_types",
    "DeepGNN.C64_distributed_partial",
    "DeepGNN.C64_order_refuted",
    "DeepGNN.C64_local_refuted"
   ],
   "note": "For every interleaving of the unlocked writes of the callbacks. False without agreement of the records of a node (C64_order_refuted), and the answer differs from that of the graph itself for nodes that have only edges (C64_local_refuted). Single writes are atomic in the model; no RPC failures."
  },
  {
   "property": "C65",
   "status": "partial",
   "theorems": [
    "DeepGNN.C65_bytes",
    "DeepGNN.C65_distributed_partial",
    "DeepGNN.C65_temporal_partial",
    "DeepGNN.C65_torn_refuted",
    "DeepGNN.C65_newest_refuted",
    "DeepGNN.C65_split_refuted",
    "DeepGNN.C65_empty_refuted"
   ],
   "note": "For every interleaving of the unlocked byte writes of the callbacks, with and without timestamps (then the latest value not after the time, for edges given once; with records on two servers an older value can win, C65_newest_refuted). False for edges with records on two servers: bytes of both values can be mixed (C65_torn_refuted) and values of one reply are overwritten by zeros of another (C65_split_refuted); a request without edges divides by zero (C65_empty_refuted). Single bytes are written atomically in the model; no RPC failures."
  },
  {
   "property": "C66",
   "status": "partial",
   "theorems": [
    "DeepGNN.C66_node_values_partial",
    "DeepGNN.C66_edge_values_partial",
    "DeepGNN.C66_nodes_partial",
    "DeepGNN.C66_edges_partial",
    "DeepGNN.C66_nodes_at_partial",
    "DeepGNN.C66_edges_at_partial",
    "DeepGNN.C66_newest_refuted"
   ],
   "note": "Requests without timestamps, for every order of the critical sections of the callbacks, for nodes (edges) with at most one record per server, and equal to the whole graph's answer with at most one record altogether. With timestamps the latest value not after the time asked for is returned if there is at most one record altogether; with several records an older value may be returned (C66_newest_refuted). No RPC failures."
  },
  {
   "property": "C67",
   "status": "partial",
   "theorems": [
    "DeepGNN.C67_node_values",
    "DeepGNN.C67_edge_values",
    "DeepGNN.C67_nodes_partial",
    "DeepGNN.C67_edges_partial",
    "DeepGNN.C67_node_values_at",
    "DeepGNN.C67_nodes_at_partial",
    "DeepGNN.C67_edges_at_partial",
    "DeepGNN.C67_order_refuted",
    "DeepGNN.C67_dims_refuted",
    "DeepGNN.C67_stale_refuted"
   ],
   "note": "Requests with and without timestamps, for every order of the critical sections of the callbacks, if the values of a feature have one dimension and one element size. Equal to the whole graph's answer if the records of a node agree on the value (edges: given once). Otherwise the first reply wins (C67_order_refuted), and different dimensions abort the client (C67_dims_refuted); with timestamps the first reply wins even if its version is older than that of another server (C67_stale_refuted). No RPC failures."
  },
  {
   "property": "C68",
   "status": "partial",
   "theorems": [
    "DeepGNN.C68_last_n_partial",
    "DeepGNN.C68_removed_now_refuted"
   ],
   "note": "Temporal graphs, requests with count > 0, for every order in which replies are stored and callbacks run. Edges removed exactly at the timestamp are still returned (C68_removed_now_refuted, as in C07). Missing: gaps between the requested types, removal at time 0; weights only if sums of weights are exact. No RPC failures."
  },
  {
   "property": "C69",
   "status": "partial",
   "theorems": [
    "DeepGNN.C69_sampled_partial",
    "DeepGNN.C69_share_partial",
    "DeepGNN.C69_joint_partial",
    "DeepGNN.C69_order_refuted",
    "DeepGNN.C69_removed_refuted",
    "DeepGNN.C69_timeless_refuted",
    "DeepGNN.C69_servers_partial"
   ],
   "note": "As C19 and C62, at a timestamp, also merged from any number of servers in any order. Needs, as C06, 32-bit timestamps and edges of a type given in the order of creation and removal times; integer weights whose sums over all neighbours, also those that do not exist at that time, are at most 2^23. Refuted: other orders of the edges, removal times above 32 bits, timestamps on a graph without times."
  },
  {
   "property": "C70",
   "status": "partial",
   "theorems": [
    "DeepGNN.C70_nodes_never_wrong_partial",
    "DeepGNN.C70_edges_never_wrong_partial",
    "DeepGNN.C70_dense_partial",
    "DeepGNN.C70_dense_times_partial",
    "DeepGNN.C70_strings_partial",
    "DeepGNN.C70_sparse_partial",
    "DeepGNN.C70_empty_refuted",
    "DeepGNN.C70_large_refuted"
   ],
   "note": "Needs feature files of at most 2 GiB; then an answer on disk is always the answer in memory. That there is an answer is proved for strings, for dense features unless the last feature of a partition is empty, for histories at given times, and for sparse values that have bytes. Refuted: files above 2 GiB (the position is a 32-bit int), an empty dense feature at the end of a file (the query throws)."
  },
  {
   "property": "C71",
   "status": "partial",
   "theorems": [
    "DeepGNN.C71_safe",
    "DeepGNN.C71_answers_partial",
    "DeepGNN.C71_complete",
    "DeepGNN.C71_shutdown",
    "DeepGNN.C71_bounded",
    "DeepGNN.C71_status_refuted",
    "DeepGNN.C71_no_queue_refuted"
   ],
   "note": "Service calls are atomic in the model and the gRPC runtime is assumed to behave as its actions say. Refuted: a failed create, sample, metadata or edge feature call is reported as success; a server on a machine where hardware_concurrency() returns 0 answers nothing (all theorems on progress need one queue)."
  },
  {
   "property": "C72",
   "status": "partial",
   "theorems": [
    "DeepGNN.C72_attempts",
    "DeepGNN.C72_progress",
    "DeepGNN.C72_counts_partial",
    "DeepGNN.C72_neighbors_partial",
    "DeepGNN.C72_last_n_partial",
    "DeepGNN.C72_features_partial",
    "DeepGNN.C72_features_at_partial",
    "DeepGNN.C72_types_partial",
    "DeepGNN.C72_edge_features_partial",
    "DeepGNN.C72_edge_features_at_partial",
    "DeepGNN.C72_samples_partial",
    "DeepGNN.C72_node_strings_partial",
    "DeepGNN.C72_edge_strings_partial",
    "DeepGNN.C72_node_strings_at_partial",
    "DeepGNN.C72_edge_strings_at_partial",
    "DeepGNN.C72_node_sparse_partial",
    "DeepGNN.C72_edge_sparse_partial",
    "DeepGNN.C72_node_sparse_at_partial",
    "DeepGNN.C72_edge_sparse_at_partial",
    "DeepGNN.C72_uniform_without_partial",
    "DeepGNN.C72_uniform_with_partial",
    "DeepGNN.C72_weighted_partial",
    "DeepGNN.C72_counts_safe_partial",
    "DeepGNN.C72_types_safe_partial",
    "DeepGNN.C72_sleep_partial",
    "DeepGNN.C72_policy_partial",
    "DeepGNN.C72_late_refuted",
    "DeepGNN.C72_backoff_refuted",
    "DeepGNN.C72_fraction_refuted",
    "DeepGNN.C72_minute_refuted"
   ],
   "note": "Attempts, failures and late replies of all remote queries; results of counts, full, last created and sampled neighbours, node and edge features of all kinds, types and samples of nodes and edges. Features of nodes and edges of all kinds at given times as well. Missing: the results of calls with undefined behaviour. Refuted: a reply that arrives after another call of the same attempt failed is stored in freed memory (WaitForFutures leaves at the first exception); the delay is limited by the number of attempts instead of maxBackoff; a policy with fractions of a second or 60s and more is replaced by the defaults."
  },
  {
   "property": "C73",
   "status": "partial",
   "theorems": [
    "DeepGNN.C73_file_nodes_partial",
    "DeepGNN.C73_file_edges_partial",
    "DeepGNN.C73_file_tuples_partial",
    "DeepGNN.C73_file_tuples_v2_partial",
    "DeepGNN.C73_text_partial",
    "DeepGNN.C73_range_partial",
    "DeepGNN.C73_csv_partial",
    "DeepGNN.C73_graph_partial",
    "DeepGNN.C73_csv_epochs_refuted",
    "DeepGNN.C73_csv_workers_refuted",
    "DeepGNN.C73_text_blank_refuted",
    "DeepGNN.C73_uneven_refuted"
   ],
   "note": "Needs: shuffling only with at most one loader process; at least one row for each training worker; text files without blank lines; ranges with at most one loader process (see C34). Refuted: CSV rows are not divided among training workers and not repeated per epoch; an empty text file, or one with fewer lines than a batch and drop_last, gives a batch of blank lines; training workers may see different numbers of batches. Prefetching is C36."
  },
  {
   "property": "C74",
   "status": "partial",
   "theorems": [
    "DeepGNN.C74_ranks_partial",
    "DeepGNN.C74_found_partial",
    "DeepGNN.C74_alphabetical_partial",
    "DeepGNN.C74_workers_partial",
    "DeepGNN.C74_given_partial",
    "DeepGNN.C74_host",
    "DeepGNN.C74_meta_refuted",
    "DeepGNN.C74_order_refuted",
    "DeepGNN.C74_sorted_refuted",
    "DeepGNN.C74_uneven_refuted",
    "DeepGNN.C74_second_refuted",
    "DeepGNN.C74_roles_refuted",
    "DeepGNN.C74_stale_refuted"
   ],
   "note": "Needs: equally many processes on every host for launchers that tell ranks; as many servers in the list as hosts; without a list, a given number of servers and files listed in the order of the ranks (file names in alphabetical order are enough up to ten processes), and no files left by earlier jobs; distinct workers. Refuted: without a list and a number of servers no process starts (line 7 of a one-line file is read); files in another order; eleven processes in alphabetical order; hosts with different numbers of processes; a second client from the same options; several tasks of TF_CONFIG that are not workers; files of earlier jobs."
  },
  {
   "property": "C75",
   "status": "partial",
   "theorems": [
    "DeepGNN.C75_converted",
    "DeepGNN.C75_failure",
    "DeepGNN.C75_interrupted",
    "DeepGNN.C75_progress",
    "DeepGNN.C75_bounded",
    "DeepGNN.C75_finishes",
    "DeepGNN.C75_reader",
    "DeepGNN.C75_stall_refuted",
    "DeepGNN.C75_stale_refuted",
    "DeepGNN.C75_merge_refuted",
    "DeepGNN.C75_read_refuted",
    "DeepGNN.C75_end_refuted",
    "DeepGNN.C75_utf8_refuted"
   ],
   "note": "Proved: a conversion that returns has written every line to its partition; lines that fail keep it from returning; metadata in a fresh folder means that everything was converted, at every crash point; every execution is finite, and without failures it ends with everything converted. Refuted: a line that cannot be decoded leaves the conversion waiting forever instead of raising; metadata of an earlier conversion in the same folder; metadata merged although a worker was interrupted; errors while the input is read lose or repeat lines without a report."
  },
  {
   "property": "C76",
   "status": "partial",
   "theorems": [
    "DeepGNN.C76_neighbors_partial",
    "DeepGNN.C76_neighbors_at_partial",
    "DeepGNN.C76_counts_at_partial",
    "DeepGNN.C76_node_types_partial",
    "DeepGNN.C76_weighted_partial",
    "DeepGNN.C76_weighted_at_partial",
    "DeepGNN.C76_uniform_partial",
    "DeepGNN.C76_uniform_at_partial",
    "DeepGNN.C76_without_partial",
    "DeepGNN.C76_lastn_partial",
    "DeepGNN.C76_walk_partial",
    "DeepGNN.C76_node2vec_partial",
    "DeepGNN.C76_node_features_partial",
    "DeepGNN.C76_node_features_at_partial",
    "DeepGNN.C76_edge_features_partial",
    "DeepGNN.C76_edge_features_at_partial",
    "DeepGNN.C76_edge_lengths",
    "DeepGNN.C76_node_strings_partial",
    "DeepGNN.C76_node_sparse_partial",
    "DeepGNN.C76_edge_sparse_partial",
    "DeepGNN.C76_edge_strings_partial",
    "DeepGNN.C76_type_count",
    "DeepGNN.C76_sampler_types",
    "DeepGNN.C76_client_weighted_partial",
    "DeepGNN.C76_client_random_partial",
    "DeepGNN.C76_client_without_partial",
    "DeepGNN.C76_client_lastn_partial",
    "DeepGNN.C76_matrix_refuted",
    "DeepGNN.C76_feature_matrix_refuted",
    "DeepGNN.C76_times_refuted",
    "DeepGNN.C76_weights_refuted",
    "DeepGNN.C76_default_refuted",
    "DeepGNN.C76_wrap_refuted",
    "DeepGNN.C76_all_types_refuted",
    "DeepGNN.C76_created_refuted",
    "DeepGNN.C76_sparse_refuted",
    "DeepGNN.C76_sparse_type_refuted"
   ],
   "note": "Proved for one-dimensional arrays of nodes, types that fit 32 bits in any order and repeated, and no timestamps or one per node: every call stays in the arrays it allocated, writes all their elements and returns the documented content. Refuted: tables of nodes, timestamps that are fewer than the nodes, weights of uniform samples, the default edge type of weighted samples, types beyond 32 bits, -1 for all types in sample_nodes, creation times without timestamps. Sparse features of nodes whose values have different numbers of coordinates lose arrays or mix coordinates without an error (exceptions in callbacks are ignored), and so do values that do not fill elements of the requested type. Missing: sparse features at timestamps, the creation times of sampled edges, and what is missing in the properties of the engine that are used."
  },
  {
   "property": "C77",
   "status": "partial",
   "theorems": [
    "DeepGNN.C77_builds",
    "DeepGNN.C77_split",
    "DeepGNN.C77_first",
    "DeepGNN.C77_converts",
    "DeepGNN.C77_neighbors",
    "DeepGNN.C77_no_leak",
    "DeepGNN.C77_types",
    "DeepGNN.C77_features",
    "DeepGNN.C77_ppi_files",
    "DeepGNN.C77_ppi_converts",
    "DeepGNN.C77_ppi_neighbors",
    "DeepGNN.C77_ppi_nodes",
    "DeepGNN.C77_partitions_refuted",
    "DeepGNN.C77_no_training_refuted",
    "DeepGNN.C77_ppi_no_training_refuted",
    "DeepGNN.C77_reddit_files",
    "DeepGNN.C77_reddit_converts",
    "DeepGNN.C77_reddit_nodes",
    "DeepGNN.C77_reddit_neighbors_partial",
    "DeepGNN.C77_reddit_neighbors_refuted"
   ],
   "note": "Proved for all raw files of papers, of proteins and of Reddit posts that can be read, every selection of training nodes and every distribution of the lines over partitions, when all partitions are loaded. Refuted: the datasets of papers load only the first partition, so with several of them neighbours are missing; no training nodes make the constructor fail; for Reddit the ends of links are taken for numbers of nodes without the map of ids, so neighbours are right only if nodes are numbered by their positions. Missing: the values of float and str (texts are kept), the scaling of features, downloads."
  },
  {
   "property": "C78",
   "status": "proved",
   "theorems": [
    "DeepGNN.C78_seeds",
    "DeepGNN.C78_alive",
    "DeepGNN.C78_recurs"
   ],
   "note": "Proved for all seeds and all draw numbers. That the lowest bits of 128 draws determine the state is shown by linearity over GF(2) and an inverse checked on the 128 unit states."
  },
  {
   "property": "C79",
   "status": "partial",
   "theorems": [
    "DeepGNN.C79_rows",
    "DeepGNN.C79_one_row_each",
    "DeepGNN.C79_ids",
    "DeepGNN.C79_identity",
    "DeepGNN.C79_batch",
    "DeepGNN.C79_order",
    "DeepGNN.C79_lstm_last_partial",
    "DeepGNN.C79_lstm_skips_refuted",
    "DeepGNN.C79_lstm_order_refuted",
    "DeepGNN.C79_bias_refuted"
   ],
   "note": "Proved for all numbers of layers, fanouts, batches, samplers, weights and arithmetic (no law of numbers is used except in C79_order). Refuted: the recurrent aggregator ignores the last neighbours when earlier ones have only zeros, and depends on the order of draws; an aggregator with a bias cannot be created. Missing: dropout, which is taken to be 0 (the code applies it in evaluation too), normalisation and loss after the last layer."
  },
  {
   "property": "C80",
   "status": "partial",
   "theorems": [
    "DeepGNN.C80_one",
    "DeepGNN.C80_two_partial",
    "DeepGNN.C80_counts_refuted",
    "DeepGNN.C80_fewer_refuted",
    "DeepGNN.C80_three_refuted"
   ],
   "note": "Proved for one layer and for two layers that draw the same number of neighbours, for all weights, activations, samplers and batches. Refuted: with different numbers nodes silently get neighbours of other nodes, or the query fails; three layers always fail. Missing: the dimension the data loader adds to a batch."
  },
  {
   "property": "C81",
   "status": "partial",
   "theorems": [
    "DeepGNN.C81_gat_partial",
    "DeepGNN.C81_gcn_partial",
    "DeepGNN.C81_gcn_hops_refuted",
    "DeepGNN.C81_gat_hops_refuted",
    "DeepGNN.C81_directed_refuted"
   ],
   "note": "Proved for all symmetric graphs, batches, features, weights, numbers of heads and arithmetic: GAT from two hops on, GCN from three. Refuted: GCN with its default of two hops (degrees are those of the subgraph), GAT with one hop, and GAT where an edge has no reverse. Missing: lists of edge types with a gap; dropout is 0."
  },
  {
   "property": "C82",
   "status": "partial",
   "theorems": [
    "DeepGNN.C82_gcn_partial",
    "DeepGNN.C82_gat_partial",
    "DeepGNN.C82_isolated_refuted",
    "DeepGNN.C82_gat_values_refuted",
    "DeepGNN.C82_gcn_values_refuted"
   ],
   "note": "Proved for all sizes, matrices of zeros and ones, features, weights and numbers of heads, under the laws of 0 and 1 and, for GAT, if the mask of -1e9 swamps the logits and every node has a neighbour. Refuted: nodes without neighbours (GAT) and values other than 0 and 1 (GAT and GCN)."
  },
  {
   "property": "C83",
   "status": "partial",
   "theorems": [
    "DeepGNN.C83_one_process_partial",
    "DeepGNN.C83_finishes_partial",
    "DeepGNN.C83_uneven_ddp_refuted",
    "DeepGNN.C83_uneven_hvd_refuted",
    "DeepGNN.C83_clip_hvd_refuted"
   ],
   "note": "Proved for all numbers of workers, batches, learners and all schedules: DDP computes what one process would; so does Horovod if all workers have equally many batches per epoch and, without mixed precision, clipping is off. Every schedule ends if the workers have equally many batches. Refuted: DDP hangs and Horovod models drift apart if workers have different numbers of batches; Horovod with clip_grad and without mixed precision applies gradients that are not clipped and the models drift apart. Missing: random layers, buffers of modules, evaluation during training."
  },
  {
   "property": "C84",
   "status": "partial",
   "theorems": [
    "DeepGNN.C84_words",
    "DeepGNN.C84_vocabulary",
    "DeepGNN.C84_triletter_partial",
    "DeepGNN.C84_bert",
    "DeepGNN.C84_padding",
    "DeepGNN.C84_transform_partial",
    "DeepGNN.C84_offline_partial",
    "DeepGNN.C84_empty_refuted",
    "DeepGNN.C84_tab_refuted",
    "DeepGNN.C84_cut_refuted",
    "DeepGNN.C84_offline_refuted",
    "DeepGNN.C84_no_rows_refuted"
   ],
   "note": "Proved for all texts with a word, vocabularies, sizes and nested batches with at least one sentence. Refuted: texts without words have a mask of one word; tabs do not part words; texts cut within a character stop the batch; tokens made beforehand fail for arrays with three dimensions; a batch without sentences loses a dimension. Missing: lower case of characters outside ASCII, the word piece algorithm of the transformers package."
  },
  {
   "property": "C85",
   "status": "partial",
   "theorems": [
    "DeepGNN.C85_batch_partial",
    "DeepGNN.C85_evaluation_partial",
    "DeepGNN.C85_direction_refuted",
    "DeepGNN.C85_batch_size_refuted",
    "DeepGNN.C85_negative_refuted",
    "DeepGNN.C85_fanout_refuted"
   ],
   "note": "Proved for all graphs, edges, random nodes and sampled neighbors if the first fanout is not 0; for the direction of messages if the graph is symmetric. Refuted: the batch size given by the user has no effect; training and evaluation use opposite directions in directed graphs; the last node is never a negative; a first fanout of 0 leaves the labels without nodes."
  },
  {
   "property": "C86",
   "status": "partial",
   "theorems": [
    "DeepGNN.C86_split_partial",
    "DeepGNN.C86_batches_all",
    "DeepGNN.C86_history_partial",
    "DeepGNN.C86_no_future_partial",
    "DeepGNN.C86_features",
    "DeepGNN.C86_split_refuted",
    "DeepGNN.C86_order_refuted",
    "DeepGNN.C86_bipartite_refuted",
    "DeepGNN.C86_stale_refuted",
    "DeepGNN.C86_skip_refuted",
    "DeepGNN.C86_new_nodes_refuted"
   ],
   "note": "Proved for all temporal graphs, batches in the order of time whose sources are not destinations, all networks and states (noninterference: two graphs that agree up to T give the same scores up to T + 1). Refuted: rows out of order or graphs that are not bipartite leak later interactions; a second row of a source does not use what happened since the first; whether a row is scored depends on other rows of the batch; evaluation fails if no source of a batch has a past; the split of unordered rows trains on the future. Missing: dropout; edges with several records (features are then an assumption)."
  },
  {
   "property": "C87",
   "status": "partial",
   "theorems": [
    "DeepGNN.C87_edges_partial",
    "DeepGNN.C87_features_partial",
    "DeepGNN.C87_loss",
    "DeepGNN.C87_labels_partial",
    "DeepGNN.C87_large_refuted",
    "DeepGNN.C87_single_refuted",
    "DeepGNN.C87_batch_refuted",
    "DeepGNN.C87_size_refuted",
    "DeepGNN.C87_test_refuted"
   ],
   "note": "Proved for all graphs, nodes, edge types and ids up to 2^24: the edges and features shown to PyTorch Geometric are those of the graph; the loss is the mean over all examples. Refuted: ids above 2^24 are rounded; a file with one node makes the query fail; features of a batch of one lose a dimension; the stated number of source nodes is that of another type; the test score is that of the first training batch."
  },
  {
   "property": "C88",
   "status": "partial",
   "theorems": [
    "DeepGNN.C88_triples_partial",
    "DeepGNN.C88_engine_partial",
    "DeepGNN.C88_mock_graph",
    "DeepGNN.C88_batches",
    "DeepGNN.C88_embedding_partial",
    "DeepGNN.C88_triple_embeddings_partial",
    "DeepGNN.C88_loss_partial",
    "DeepGNN.C88_loss_padded",
    "DeepGNN.C88_file_partial",
    "DeepGNN.C88_types_refuted",
    "DeepGNN.C88_single_refuted",
    "DeepGNN.C88_padding_refuted",
    "DeepGNN.C88_last_refuted",
    "DeepGNN.C88_file_refuted",
    "DeepGNN.C88_neighbor_types_refuted"
   ],
   "note": "Proved for all graphs, random choices, numbers of types, walk lengths and networks: the lists of triples are exactly the nodes of each reported type on each walk, walks follow edges (also with DeepGNN's own graph); each embedding depends on its own node and neighbours only; the loss with its padding. Refuted: reported types are edge types with DeepGNN's graph; a list of one triple makes training fail; padding changes the loss; the file loader drops the last node and mistakes types; the mock graph ignores requested types. The recurrent networks and the attention are abstract functions; evaluation and the download of data are not modelled."
  },
  {
   "property": "C89",
   "status": "partial",
   "theorems": [
    "DeepGNN.C89_links_partial",
    "DeepGNN.C89_no_leak",
    "DeepGNN.C89_negative_exists",
    "DeepGNN.C89_features_partial",
    "DeepGNN.C89_f1_partial",
    "DeepGNN.C89_classes_partial",
    "DeepGNN.C89_negative_refuted",
    "DeepGNN.C89_self_refuted",
    "DeepGNN.C89_dimension_refuted",
    "DeepGNN.C89_f1_refuted",
    "DeepGNN.C89_venue_refuted"
   ],
   "note": "Proved for all papers and random draws: the link files hold exactly the pairs of coauthors, each once, with as many negatives; no training pair is a test pair; every classified author is in exactly one of the two files, with the class of their most frequent venue; F1. Refuted: a training negative can be a test positive; an author can be their own negative; the last dimension of the embeddings is never used; F1 raises an exception without a true positive; papers without a venue count for venue 0. The logistic regression and the formatting of numbers are not modelled."
  },
  {
   "property": "C90",
   "status": "partial",
   "theorems": [
    "DeepGNN.C90_rows",
    "DeepGNN.C90_gap",
    "DeepGNN.C90_normalized",
    "DeepGNN.C90_public_types",
    "DeepGNN.C90_random_split",
    "DeepGNN.C90_validation",
    "DeepGNN.C90_converts",
    "DeepGNN.C90_random_builds",
    "DeepGNN.C90_features",
    "DeepGNN.C90_neighbors",
    "DeepGNN.C90_types",
    "DeepGNN.C90_per_class_refuted",
    "DeepGNN.C90_random_refuted",
    "DeepGNN.C90_overlap_refuted",
    "DeepGNN.C90_isolated_refuted",
    "DeepGNN.C90_order_refuted"
   ],
   "note": "Proved for all published files and permutations: rows of features and labels go to the right nodes, isolated nodes get zeros; the public and the random split; the graph converted from the written edge list serves these features, classes, types and neighbours. Refuted: num_train_per_class is ignored; split='random' is ignored by the constructor; nodes for tests among the 500 nodes after the training ones count as validation nodes; isolated nodes get class 0; neighbours are given to the wrong nodes if the dictionary is not in the order of the nodes. Not modelled: unzipping, formatting of floats, matrices with rows of different widths."
  },
  {
   "property": "C91",
   "status": "partial",
   "theorems": [
    "DeepGNN.C91_full_partial",
    "DeepGNN.C91_reply_partial",
    "DeepGNN.C91_timeless",
    "DeepGNN.C91_with_partial",
    "DeepGNN.C91_without_partial",
    "DeepGNN.C91_same_sample",
    "DeepGNN.C91_weighted_partial",
    "DeepGNN.C91_weighted_unwritten_refuted",
    "DeepGNN.C91_merge",
    "DeepGNN.C91_remote_partial",
    "DeepGNN.C91_without_timestamps_refuted",
    "DeepGNN.C91_overflow_refuted",
    "DeepGNN.C91_unwritten_refuted",
    "DeepGNN.C91_servers_partial",
    "DeepGNN.C91_servers_untimed_refuted",
    "DeepGNN.C91_servers_same",
    "DeepGNN.C91_servers_weighted_partial",
    "DeepGNN.C91_servers_weighted_untimed_refuted",
    "DeepGNN.C91_weighted_same",
    "DeepGNN.C91_servers_weighted_same"
   ],
   "note": "Proved for all graphs, requests, draws and orders of replies: creation times are aligned with all neighbours at timestamps, locally and merged from servers; uniform and weighted samples carry the creation time of their edge; asking for times does not change the sample. Refuted: without timestamps in the request placeholders are returned although edges have creation times, or the array is left as it was; a sample without replacement from more neighbours than requested writes beyond the array of times. Hypotheses as for C05, C15, C16 and C69. Uniform and weighted samples merged from several servers carry the creation times of their edges as well, for all draws of servers and client; without timestamps in the request they come with placeholders."
  },
  {
   "property": "C92",
   "status": "partial",
   "theorems": [
    "DeepGNN.C92_entry",
    "DeepGNN.C92_addresses",
    "DeepGNN.C92_exit",
    "DeepGNN.C92_failed",
    "DeepGNN.C92_finish_partial",
    "DeepGNN.C92_alone",
    "DeepGNN.C92_distinct",
    "DeepGNN.C92_port_partial",
    "DeepGNN.C92_shards_partial",
    "DeepGNN.C92_finish_refuted",
    "DeepGNN.C92_port_refuted",
    "DeepGNN.C92_shards_refuted"
   ],
   "note": "Proved for every number of workers and every interleaving of workers and calls: no worker uses the servers before all have started theirs, every worker gets all addresses, none ends before all are done. Refuted: the job can always end (with two or more workers a fast one leaves the others waiting for ever; the exact condition is C92_finish_partial), ports of more than ten workers, servers share the partitions. The actor's order of calls of one worker is assumed as Ray documents it; lost workers are not modelled."
  },
  {
   "property": "C93",
   "status": "partial",
   "theorems": [
    "DeepGNN.C93_download_partial",
    "DeepGNN.C93_mixed_partial",
    "DeepGNN.C93_local",
    "DeepGNN.C93_timestamps_refuted",
    "DeepGNN.C93_last_local_refuted",
    "DeepGNN.C93_local_partitions_refuted",
    "DeepGNN.C93_same_number_refuted",
    "DeepGNN.C93_edge_alias_refuted"
   ],
   "note": "Proved for every store, every list of partitions and all file contents: without edge timestamps a graph on one remote file system loads as the stored one, alias tables included, also mixed with local partitions as long as the last partition is remote. Refuted: graphs with a watermark (the timestamps are never downloaded, so no partition loads), a local last partition, remote metadata with local partitions only, partitions of the same number from two directories, edge alias tables outside the metadata directory. Streaming from HDFS is not modelled."
  },
  {
   "property": "C94",
   "status": "partial",
   "theorems": [
    "DeepGNN.C94_round_trip_partial",
    "DeepGNN.C94_inference_partial",
    "DeepGNN.C94_checked",
    "DeepGNN.C94_small_refuted",
    "DeepGNN.C94_padding_refuted",
    "DeepGNN.C94_empty_refuted"
   ],
   "note": "Proved for all batches, workers, orders of files and finite, infinite or undefined values: loading gives every node its embedding up to half a millionth and zeros elsewhere; together with the range sampler of C34, exactly the rows of the range. Refuted: small values survive, a padding id other than the skipped one is harmless, embeddings without values. Embeddings are assumed to depend on the node only (see C79, C81); the last rounding to 32-bit floats is not modelled."
  },
  {
   "property": "C95",
   "status": "partial",
   "theorems": [
    "DeepGNN.C95_objective_partial",
    "DeepGNN.C95_identity_partial",
    "DeepGNN.C95_perfect",
    "DeepGNN.C95_collapsed",
    "DeepGNN.C95_positive_drawn_refuted",
    "DeepGNN.C95_unconnected_refuted",
    "DeepGNN.C95_default_refuted"
   ],
   "note": "Proved for all batches, positives, negatives, answers of the graph, weights and arithmetics: the vectors, the loss and the metric are those of the pairs, ties included; the metric is 1 exactly when every positive is strictly closer than all negatives, and 1/(1+negatives) for equal vectors. Refuted: a positive drawn as a negative does not count against the source, sources without neighbours are left out, the default constructor. Dropout 0; the mean of reciprocals is exact; cross entropy and normalisation are arbitrary functions."
  },
  {
   "property": "C96",
   "status": "partial",
   "theorems": [
    "DeepGNN.C96_scores_partial",
    "DeepGNN.C96_inference_partial",
    "DeepGNN.C96_consistent_partial",
    "DeepGNN.C96_dropout_refuted",
    "DeepGNN.C96_evaluate_refuted",
    "DeepGNN.C96_predict_unset_refuted",
    "DeepGNN.C96_labels_refuted"
   ],
   "note": "Proved for all batches of edges, labels, answers of the graph, weights and arithmetics with dropout 0 and one label per edge: predictions, loss, written embeddings, and that scores can be recomputed from the embeddings. Refuted: dropout only in training, evaluation after an inference node is set, prediction before it is set, labels of several dimensions. The AUC is not modelled."
  },
  {
   "property": "C97",
   "status": "partial",
   "theorems": [
    "DeepGNN.C97_one_user_partial",
    "DeepGNN.C97_features_partial",
    "DeepGNN.C97_lost_refuted",
    "DeepGNN.C97_updates_refuted",
    "DeepGNN.C97_items_refuted",
    "DeepGNN.C97_mixed_refuted",
    "DeepGNN.C97_late_refuted",
    "DeepGNN.C97_same_id_refuted",
    "DeepGNN.C97_empty_refuted"
   ],
   "note": "Proved for files with one user: one edge per item with the history of the interactions, and features at a time are those of the latest interaction (through the writer, the loader and the engine of C10). Refuted for several users, for all files: one edge per further user is lost and its history goes to the next user; no edges for updates and no nodes for items; ids of the last user and the first item are equal; empty files. Download and csv parsing are not modelled."
  },
  {
   "property": "C98",
   "status": "partial",
   "theorems": [
    "DeepGNN.C98_rows_partial",
    "DeepGNN.C98_one_hop",
    "DeepGNN.C98_average_partial",
    "DeepGNN.C98_att_encoder",
    "DeepGNN.C98_hops_refuted",
    "DeepGNN.C98_layers_refuted",
    "DeepGNN.C98_metapaths_refuted",
    "DeepGNN.C98_default_refuted",
    "DeepGNN.C98_evaluate_refuted"
   ],
   "note": "Proved for one layer of heads and all graphs, samplers, batches, fanouts and weights: every row is computed from its own node and the ends of its own metapaths, and is an average of the vectors of its metapaths; the attention encoder likewise with two layers. Refuted: batches that do not fit several hops, several layers (the default of the example), heads of their own for every metapath, padding with node 0, evaluation. Loss, metrics, gradients and dropout are not modelled."
  },
  {
   "property": "C99",
   "status": "partial",
   "theorems": [
    "DeepGNN.C99_lightgcn_partial",
    "DeepGNN.C99_lgcl_partial",
    "DeepGNN.C99_lgcl_order",
    "DeepGNN.C99_hetgnn_partial",
    "DeepGNN.C99_hetgnn_lstm",
    "DeepGNN.C99_hetgnn_average",
    "DeepGNN.C99_gat_total",
    "DeepGNN.C99_lgcl_single_refuted",
    "DeepGNN.C99_lgcl_hidden_refuted",
    "DeepGNN.C99_lgcl_layers_refuted",
    "DeepGNN.C99_hetgnn_odd_refuted",
    "DeepGNN.C99_gat_average_refuted"
   ],
   "note": "Proved: LightGCN, LGCL with one layer (batches of at least two nodes, at least two outputs; independent of the order of neighbours), HetGNN with any encoders and with bi-LSTMs, which averages. Refuted, for all weights and features: LGCL with one node and concatenation, with one output, and with two layers that keep the number of features; HetGNN with bi-LSTMs and an odd number of outputs; the GAT encoder normalises over the wrong dimension, so that its vectors are no averages (in exact arithmetic their sum is preserved). Further layers of LGCL and the cells of LSTM are not modelled."
  },
  {
   "property": "C100",
   "status": "partial",
   "theorems": [
    "DeepGNN.C100_accuracy_partial",
    "DeepGNN.C100_batches",
    "DeepGNN.C100_loss_partial",
    "DeepGNN.C100_workers_partial",
    "DeepGNN.C100_workers_loss_partial",
    "DeepGNN.C100_loss_refuted",
    "DeepGNN.C100_steps_refuted",
    "DeepGNN.C100_single_refuted",
    "DeepGNN.C100_workers_refuted",
    "DeepGNN.C100_idle_refuted"
   ],
   "note": "Proved in exact arithmetic: the metric of one worker (F1 or accuracy) is the part of all nodes classified correctly, for any batches of at least two nodes and at least two classes; losses, metrics by steps and the results of workers are right for equal parts. Refuted for all inputs: uneven batches (loss, metrics by steps), uneven workers, a worker without batches, batches with one node."
  },
  {
   "property": "C101",
   "status": "partial",
   "theorems": [
    "DeepGNN.C101_ints",
    "DeepGNN.C101_groups_partial",
    "DeepGNN.C101_names_partial",
    "DeepGNN.C101_strs_partial",
    "DeepGNN.C101_bool_true",
    "DeepGNN.C101_bool_false",
    "DeepGNN.C101_array_partial",
    "DeepGNN.C101_server_list",
    "DeepGNN.C101_group",
    "DeepGNN.C101_group_refused",
    "DeepGNN.C101_groups_refuted",
    "DeepGNN.C101_names_refuted",
    "DeepGNN.C101_strs_refuted",
    "DeepGNN.C101_array_refuted"
   ],
   "note": "Proved: lists of integers, flags in any spelling, the partitions of servers and of groups of servers (each loaded exactly once). Lists of lists without empty lists and nonempty lists of texts arrive as written; refuted for all others: empty lists are left out, no texts arrive as one empty text, a list of texts is refused, a vector and a matrix with one row have the same text. Spaces, plus signs and underscores in integers and argparse itself are not modelled."
  },
  {
   "property": "C102",
   "status": "partial",
   "theorems": [
    "DeepGNN.C102_final_partial",
    "DeepGNN.C102_returned",
    "DeepGNN.C102_evaluated",
    "DeepGNN.C102_completes",
    "DeepGNN.C102_again_refuted",
    "DeepGNN.C102_late_refuted"
   ],
   "note": "Proved for one call of train followed by any evaluations, in every run begun by the chief: the last checkpoint and the parameters hold every update once, evaluation starts only then, and every run can be continued to its end. Refuted for a second call of train (the files of the first release the chief at once) and for a chief constructed after another worker has ended its session (both wait forever). The updates of the parameters are modelled as a log, applied one at a time; TensorFlow's session, its hooks other than those that synchronize and save, and failures of workers are not modelled."
  },
  {
   "property": "C103",
   "status": "partial",
   "theorems": [
    "DeepGNN.C103_graph_one_process",
    "DeepGNN.C103_graph_finishes_partial",
    "DeepGNN.C103_graph_uneven_refuted",
    "DeepGNN.C103_eager_root_refuted",
    "DeepGNN.C103_eager_saved_refuted",
    "DeepGNN.C103_eager_others_refuted",
    "DeepGNN.C103_eager_differ_refuted"
   ],
   "note": "Proved for the trainer of graphs, for all schedules, batches and numbers of workers; it ends if workers have equally many batches. Refuted: with different numbers of batches no schedule ends; in eager mode the optimizer is never wrapped, so gradients are not averaged: every worker trains alone after the first batch, and every checkpoint is that of rank 0 alone (for all runs). Missing: clipping, dropout, the files by which sessions wait at their end (C102), evaluation."
  },
  {
   "property": "C104",
   "status": "partial",
   "theorems": [
    "DeepGNN.C104_folders_partial",
    "DeepGNN.C104_converted_partial",
    "DeepGNN.C104_hdfs_partial",
    "DeepGNN.C104_several_files_refuted",
    "DeepGNN.C104_two_sets_refuted",
    "DeepGNN.C104_copy_refuted",
    "DeepGNN.C104_backup_refuted",
    "DeepGNN.C104_hdfs_refuted"
   ],
   "note": "Proved for every converted graph, every distribution of its partitions to directories and any other files there, if each partition is in one set of files; on HDFS if no name on the path contains neighbors_. Refuted: a partition in several sets of files is looked up in the first one only (for all files), a copy of the file of neighbours doubles all neighbours and a backup of it prevents opening (for all graphs), and an HDFS directory named neighbors_x cannot be opened. Missing: samplers with several directories (C93_edge_alias_refuted), connections to HDFS."
  },
  {
   "property": "C105",
   "status": "partial",
   "theorems": [
    "DeepGNN.C105_bytes_partial",
    "DeepGNN.C105_streamed_partial",
    "DeepGNN.C105_converted_partial",
    "DeepGNN.C105_path_partial",
    "DeepGNN.C105_path_refuted",
    "DeepGNN.C105_metadata_partial",
    "DeepGNN.C105_metadata_refuted",
    "DeepGNN.C105_same_graph_refuted",
    "DeepGNN.C105_gap_refuted",
    "DeepGNN.C105_overwritten_refuted",
    "DeepGNN.C105_truncated_refuted"
   ],
   "note": "Proved: whatever the file system does, a graph that opens from HDFS is the graph the same files give on disk; it opens if the calls of the file system do not fail and are not short twice in a row; so do all converted graphs, in any directories. Missing because false: several graphs (or one graph several times) loaded at the same time share one temporary copy of meta.json, a graph in the temporary directory loses its metadata, cut files are not noticed, paths with a colon and no port. Not modelled: HDFS itself, alias tables over HDFS."
  },
  {
   "property": "C106",
   "status": "partial",
   "theorems": [
    "DeepGNN.C106_in_range",
    "DeepGNN.C106_reachable_partial",
    "DeepGNN.C106_drawn_partial",
    "DeepGNN.C106_frequency_partial",
    "DeepGNN.C106_skipped_refuted",
    "DeepGNN.C106_never_sampled_refuted",
    "DeepGNN.C106_gap_refuted"
   ],
   "note": "In range: for every population and every sequence of generator outputs. Reachable: every position up to 2^23 elements. Frequency: within (2k+1)*2^-23 + n*2^-64 of one for populations up to 2^24. Refuted: above 2^24 positions that are not a multiple of the float spacing are never drawn, whatever the generator produces; and even below 2^24 there is a gap (12588380 elements, position 8388608)."
  },
  {
   "property": "C107",
   "status": "partial",
   "theorems": [
    "DeepGNN.C107_close_partial",
    "DeepGNN.C107_in_range",
    "DeepGNN.C107_share_partial",
    "DeepGNN.C107_lost_refuted",
    "DeepGNN.C107_equal_refuted",
    "DeepGNN.C107_never_drawn_refuted"
   ],
   "note": "Close: any graph, node and types without a gap, non-negative weights, at most 2^23 edges of one type. In range and share: any non-negative weights (share: at most 2^23), all 2^64 numbers of the generator, sums and product rounded. Refuted, for all such nodes: an edge with at most 2^-26 of the weight before it is reported with weight 0 and never drawn; of equal weights only the first 2^24 edges keep theirs. Not modelled: the binomial distribution in floats, timestamps."
  },
  {
   "property": "C108",
   "status": "partial",
   "theorems": [
    "DeepGNN.C108_fair",
    "DeepGNN.C108_servers",
    "DeepGNN.C108_share_partial",
    "DeepGNN.C108_in_range",
    "DeepGNN.C108_rate_partial",
    "DeepGNN.C108_reachable_partial",
    "DeepGNN.C108_overwritten_refuted"
   ],
   "note": "Fair: any split of any elements into blocks, exact draws. Share: any graph, node, types without a gap, number of samples, all draws; each neighbour has the share of draws that it has among the neighbours. In range, rate, reachable: the same loop in single precision; the share of replacements is right up to 2^-21, only neighbours are returned, each of up to 2^23 neighbours is returned for some random numbers. Refuted, for all such nodes: when the edges of the last type are so many that float cannot tell them from all edges (2^24 after one other), edges of earlier types are never returned. Servers: the same share over any number of servers with any number of neighbours each, over all draws of servers and client (exact draws). Not modelled here: timestamps."
  },
  {
   "property": "C109",
   "status": "partial",
   "theorems": [
    "DeepGNN.C109_share_partial",
    "DeepGNN.C109_all",
    "DeepGNN.C109_unfair_refuted",
    "DeepGNN.C109_together",
    "DeepGNN.C109_pairs_refuted"
   ],
   "note": "The statement is false and refuted for all sizes: the client's shuffle never leaves an element at its place, so whenever some but not all of m elements are used no element has its share c/m (exact shares proved for all m, c over all equally likely draws), and the first neighbour of a server is never sampled alone (for all graphs, draws and counts). Draws of the shuffle are exact; how many elements are kept is left open (any split)."
  },
  {
   "property": "C110",
   "status": "partial",
   "theorems": [
    "DeepGNN.C110_once_partial",
    "DeepGNN.C110_set_up_first",
    "DeepGNN.C110_no_deadlock",
    "DeepGNN.C110_ten_steps",
    "DeepGNN.C110_own_failure",
    "DeepGNN.C110_telemetry_refuted",
    "DeepGNN.C110_twice_refuted"
   ],
   "note": "Proved for any number of threads calling get_logger under every schedule, also after a finished set-up call, and freedom from deadlock and own-failure for every mix of calls and failures. The full statement is false when setup_default_logging_config runs at the same time as get_logger (it takes no lock): telemetry can be lost or every record sent twice."
  },
  {
   "property": "C111",
   "status": "partial",
   "theorems": [
    "DeepGNN.C111_loaded_partial",
    "DeepGNN.C111_sizes",
    "DeepGNN.C111_pooler_refuted",
    "DeepGNN.C111_torch_refuted",
    "DeepGNN.C111_interleaved_refuted",
    "DeepGNN.C111_missing_refuted"
   ],
   "note": "Proved for every checkpoint that lists the variables of a layer together and has no variable called `dense` outside the layers. The full statement is false: both loaders look for `dense_act`, which the model calls `dense`, and reject every checkpoint with a pooler (and, without DeepSpeed's layers, every checkpoint with a layer); if the variables of two layers are interleaved or one is missing, a layer silently gets query, key or value of another. Not modelled: TensorFlow checkpoints, more than one axis of an array."
  },
  {
   "property": "C112",
   "status": "partial",
   "theorems": [
    "DeepGNN.C112_diameter_partial",
    "DeepGNN.C112_defined",
    "DeepGNN.C112_component",
    "DeepGNN.C112_densification",
    "DeepGNN.C112_effective_refuted",
    "DeepGNN.C112_clustering_refuted"
   ],
   "note": "Proved: the diameter is that of a largest strongly connected set, measured in the whole graph, and never raises; the share of the largest component; densification is always defined (the value of the logarithm is not modelled). False: the effective 90% diameter is documented but the full one is returned, and average_clustering raises for every graph and every number of trials. networkx is modelled by what its functions return; max_adjacency is not modelled."
  },
  {
   "property": "C113",
   "status": "partial",
   "theorems": [
    "DeepGNN.C113_nodes_partial",
    "DeepGNN.C113_edges_partial",
    "DeepGNN.C113_overwrite_refuted",
    "DeepGNN.C113_edges_refuted",
    "DeepGNN.C113_plain_refuted"
   ],
   "note": "Proved for nodes whose records agree on the versions or have versions of one tuple only, and for edges given at most once, at every time and request position. False otherwise: replacing an older version removes one coordinate tuple whatever its size (nodes) or nothing (edges). Sparse values stored by the converter without a history cannot be read at a time. Histories of sparse values come from a custom decoder, JsonDecoder cannot produce them."
  },
  {
   "property": "C114",
   "status": "partial",
   "theorems": [
    "DeepGNN.C114_complete_partial",
    "DeepGNN.C114_paths",
    "DeepGNN.C114_killed_refuted",
    "DeepGNN.C114_metadata_refuted",
    "DeepGNN.C114_untagged_refuted"
   ],
   "note": "Proved for every history of calls in which processes are killed only while they download. False for a process killed while it copies the download into the cache (universal: all later calls return the truncated file), or before it has written the metadata; and for files without entity tag, which are never fetched again. SHA-256 is a parameter without collisions among the strings in use. HEAD requests succeed; a server that changes a file between HEAD and GET, and cached_path's choice between url and local path, are not modelled."
  },
  {
   "property": "C115",
   "status": "partial",
   "theorems": [
    "DeepGNN.C115_inside_partial",
    "DeepGNN.C115_accepts",
    "DeepGNN.C115_all_or_nothing",
    "DeepGNN.C115_beside_refuted",
    "DeepGNN.C115_link_refuted"
   ],
   "note": "Proved: every file of an accepted archive without links is inside the directory or in a directory beside it whose name begins with its name; archives that stay inside are accepted; one bad member and nothing is written. False in general: for every directory a member ../<name><extra>/<file> is accepted and written outside (texts are compared character by character), and so is any file below a symbolic link of the archive. Text is a list of characters; a link's target is given from the root; the temporary directory itself contains no links; extraction as in Python versions without a default filter."
  },
  {
   "property": "C116",
   "status": "partial",
   "theorems": [
    "DeepGNN.C116_last",
    "DeepGNN.C116_pooled",
    "DeepGNN.C116_all_partial",
    "DeepGNN.C116_all_refuted",
    "DeepGNN.C116_pieces"
   ],
   "note": "Proved for any number of layers and any layer functions: the last layer and the pooled output are the same with and without recomputation, and pieces and layers per piece are at most the square root, rounded up. False for all layers: with recomputation only the last one is returned (universal for two or more layers). Layers are functions of hidden states and mask, so dropout is off or replayed; the gradient of checkpoint.checkpoint is PyTorch's. The task heads accept checkpoint_activations and do not pass it on; this is not modelled."
  },
  {
   "property": "C117",
   "status": "partial",
   "theorems": [
    "DeepGNN.C117_values_partial",
    "DeepGNN.C117_names",
    "DeepGNN.C117_taken_refuted",
    "DeepGNN.C117_both_refuted",
    "DeepGNN.C117_missing_refuted"
   ],
   "note": "Proved for every dictionary in which no new name is taken and no name contains both old words: the exact values of all parameters, the exact report of missing ones, and an error exactly if shapes differ. False otherwise: a weight whose name is the new name of another one is lost (universal), a name with both words keeps 'gamma', and a model none of whose parameters is in the dictionary is returned with its initial values and no error (universal). _load_from_state_dict is modelled by its documented effect on parameters; buffers are parameters here; unexpected_keys, which are only logged, and loading from TensorFlow are not modelled."
  },
  {
   "property": "C118",
   "status": "partial",
   "theorems": [
    "DeepGNN.C118_column_partial",
    "DeepGNN.C118_default",
    "DeepGNN.C118_flat_refuted",
    "DeepGNN.C118_two_refuted",
    "DeepGNN.C118_sum_refuted"
   ],
   "note": "Proved for weights in a column, which the default is. False for a tensor of one dimension, the documented form: it is broadcast to a square, and the exact wrong value is proved for every batch; the mean of two examples is right only if their weights or losses agree, and the sum with all weights one is too large by the number of examples. Exact integers in place of floats; softmax, power and logarithm are parameters (rows of probabilities are given)."
  },
  {
   "property": "C119",
   "status": "proved",
   "theorems": [
    "DeepGNN.C119_words",
    "DeepGNN.C119_refused",
    "DeepGNN.C119_own_word"
   ],
   "note": "One coordinate of the vectors, exact integers in place of floats. Row 0 of the letter table is zero, as padding_idx=0 makes it; a checkpoint could load another value. Ids outside the table are an IndexError and excluded."
  },
  {
   "property": "C120",
   "status": "partial",
   "theorems": [
    "DeepGNN.C120_filling_partial",
    "DeepGNN.C120_empty_refuted",
    "DeepGNN.C120_range_refuted"
   ],
   "note": "Proved for any number of layers and heads and any functions in them, for texts with a word and scores in a range shorter than the mask. False for texts without words, where the mask has no effect (universal), and for scores that differ by more than the mask (universal). Scores and values are integers and the exponential is a function that underflows; sums are exact, so that the order of additions in floats is not modelled. Dense layers, normalisation and activation act at one position and are an arbitrary function. Dropout is off."
  },
  {
   "property": "C121",
   "status": "partial",
   "theorems": [
    "DeepGNN.C121_sources",
    "DeepGNN.C121_value_partial",
    "DeepGNN.C121_missing",
    "DeepGNN.C121_succeeds",
    "DeepGNN.C121_two_refuted"
   ],
   "note": "Proved for all checkpoints, prefixes and encoders: where the value of every parameter comes from, the value if only one belongs to it, and an error for a missing weight of a part that the checkpoint has. False for several weights that belong to one parameter (names are searched for the prefix, which need not be at the beginning): the last one wins without an error, universal. Loading succeeds if names and shapes fit. load_state_dict is modelled by its documented strict behaviour; torch.load is not modelled."
  }
 ]
}