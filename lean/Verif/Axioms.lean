import Verif.Props.C01
import Verif.Props.C02
import Verif.Props.C03
import Verif.Props.C04
import Verif.Props.C05
import Verif.Props.C06
import Verif.Props.C07
import Verif.Props.C08
import Verif.Props.C09
import Verif.Props.C10
import Verif.Props.C100
import Verif.Props.C101
import Verif.Props.C102
import Verif.Props.C103
import Verif.Props.C104
import Verif.Props.C105
import Verif.Props.C106
import Verif.Props.C107
import Verif.Props.C108
import Verif.Props.C108Servers
import Verif.Props.C109
import Verif.Props.C11
import Verif.Props.C110
import Verif.Props.C111
import Verif.Props.C112
import Verif.Props.C113
import Verif.Props.C114
import Verif.Props.C115
import Verif.Props.C116
import Verif.Props.C117
import Verif.Props.C118
import Verif.Props.C119
import Verif.Props.C12
import Verif.Props.C120
import Verif.Props.C121
import Verif.Props.C13
import Verif.Props.C14
import Verif.Props.C15
import Verif.Props.C16
import Verif.Props.C17
import Verif.Props.C18
import Verif.Props.C19
import Verif.Props.C20
import Verif.Props.C21
import Verif.Props.C22
import Verif.Props.C23
import Verif.Props.C24
import Verif.Props.C25
import Verif.Props.C26
import Verif.Props.C27
import Verif.Props.C28
import Verif.Props.C29
import Verif.Props.C30
import Verif.Props.C31
import Verif.Props.C32
import Verif.Props.C33
import Verif.Props.C34
import Verif.Props.C35
import Verif.Props.C36
import Verif.Props.C37
import Verif.Props.C38
import Verif.Props.C39
import Verif.Props.C40
import Verif.Props.C41
import Verif.Props.C42
import Verif.Props.C43
import Verif.Props.C44
import Verif.Props.C45
import Verif.Props.C46
import Verif.Props.C47
import Verif.Props.C48
import Verif.Props.C49
import Verif.Props.C50
import Verif.Props.C51
import Verif.Props.C52
import Verif.Props.C53
import Verif.Props.C54
import Verif.Props.C55
import Verif.Props.C56
import Verif.Props.C57
import Verif.Props.C58
import Verif.Props.C59
import Verif.Props.C60
import Verif.Props.C61
import Verif.Props.C62
import Verif.Props.C63
import Verif.Props.C64
import Verif.Props.C65
import Verif.Props.C66
import Verif.Props.C67
import Verif.Props.C67At
import Verif.Props.C68
import Verif.Props.C69
import Verif.Props.C70
import Verif.Props.C71
import Verif.Props.C72
import Verif.Props.C72Values
import Verif.Props.C73
import Verif.Props.C73Examples
import Verif.Props.C73Graph
import Verif.Props.C73Text
import Verif.Props.C74
import Verif.Props.C75
import Verif.Props.C76
import Verif.Props.C76Sparse
import Verif.Props.C77
import Verif.Props.C77Reddit
import Verif.Props.C78
import Verif.Props.C79
import Verif.Props.C80
import Verif.Props.C81
import Verif.Props.C82
import Verif.Props.C83
import Verif.Props.C84
import Verif.Props.C85
import Verif.Props.C86
import Verif.Props.C87
import Verif.Props.C88
import Verif.Props.C89
import Verif.Props.C90
import Verif.Props.C91
import Verif.Props.C91Servers
import Verif.Props.C91Weighted
import Verif.Props.C92
import Verif.Props.C93
import Verif.Props.C94
import Verif.Props.C95
import Verif.Props.C96
import Verif.Props.C97
import Verif.Props.C98
import Verif.Props.C99

/-
The axioms each theorem of MANIFEST.json depends on, printed at build time (generated list).
-/

#print axioms DeepGNN.C01_edge_index_file
#print axioms DeepGNN.C01_i32_roundtrip
#print axioms DeepGNN.C01_i64_roundtrip
#print axioms DeepGNN.C01_node_id_partial
#print axioms DeepGNN.C01_node_id_refuted
#print axioms DeepGNN.C01_node_map_file
#print axioms DeepGNN.C01_offset_file
#print axioms DeepGNN.C01_pack_rejects
#print axioms DeepGNN.C01_pack_total
#print axioms DeepGNN.C01_timestamp_file
#print axioms DeepGNN.C01_u64_roundtrip
#print axioms DeepGNN.C02_exact_of_small
#print axioms DeepGNN.C02_load_succeeds
#print axioms DeepGNN.C02_neighbors
#print axioms DeepGNN.C02_weights_partial
#print axioms DeepGNN.C02_weights_refuted
#print axioms DeepGNN.C03_complete_partial
#print axioms DeepGNN.C03_complete_refuted
#print axioms DeepGNN.C03_only_requested
#print axioms DeepGNN.C03_single_type
#print axioms DeepGNN.C04_count_eq
#print axioms DeepGNN.C05_batch
#print axioms DeepGNN.C05_removed_at_zero_refuted
#print axioms DeepGNN.C05_snapshot_partial
#print axioms DeepGNN.C06_count_partial
#print axioms DeepGNN.C06_order_refuted
#print axioms DeepGNN.C06_timestamp_refuted
#print axioms DeepGNN.C07_last_n_partial
#print axioms DeepGNN.C07_removed_now_refuted
#print axioms DeepGNN.C08_node_features
#print axioms DeepGNN.C08_record
#print axioms DeepGNN.C09_edge_features
#print axioms DeepGNN.C09_unique
#print axioms DeepGNN.C100_accuracy_partial
#print axioms DeepGNN.C100_batches
#print axioms DeepGNN.C100_idle_refuted
#print axioms DeepGNN.C100_loss_partial
#print axioms DeepGNN.C100_loss_refuted
#print axioms DeepGNN.C100_single_refuted
#print axioms DeepGNN.C100_steps_refuted
#print axioms DeepGNN.C100_workers_loss_partial
#print axioms DeepGNN.C100_workers_partial
#print axioms DeepGNN.C100_workers_refuted
#print axioms DeepGNN.C101_array_partial
#print axioms DeepGNN.C101_array_refuted
#print axioms DeepGNN.C101_bool_false
#print axioms DeepGNN.C101_bool_true
#print axioms DeepGNN.C101_group
#print axioms DeepGNN.C101_group_refused
#print axioms DeepGNN.C101_groups_partial
#print axioms DeepGNN.C101_groups_refuted
#print axioms DeepGNN.C101_ints
#print axioms DeepGNN.C101_names_partial
#print axioms DeepGNN.C101_names_refuted
#print axioms DeepGNN.C101_server_list
#print axioms DeepGNN.C101_strs_partial
#print axioms DeepGNN.C101_strs_refuted
#print axioms DeepGNN.C102_again_refuted
#print axioms DeepGNN.C102_completes
#print axioms DeepGNN.C102_evaluated
#print axioms DeepGNN.C102_final_partial
#print axioms DeepGNN.C102_late_refuted
#print axioms DeepGNN.C102_returned
#print axioms DeepGNN.C103_eager_differ_refuted
#print axioms DeepGNN.C103_eager_others_refuted
#print axioms DeepGNN.C103_eager_root_refuted
#print axioms DeepGNN.C103_eager_saved_refuted
#print axioms DeepGNN.C103_graph_finishes_partial
#print axioms DeepGNN.C103_graph_one_process
#print axioms DeepGNN.C103_graph_uneven_refuted
#print axioms DeepGNN.C104_backup_refuted
#print axioms DeepGNN.C104_converted_partial
#print axioms DeepGNN.C104_copy_refuted
#print axioms DeepGNN.C104_folders_partial
#print axioms DeepGNN.C104_hdfs_partial
#print axioms DeepGNN.C104_hdfs_refuted
#print axioms DeepGNN.C104_several_files_refuted
#print axioms DeepGNN.C104_two_sets_refuted
#print axioms DeepGNN.C105_bytes_partial
#print axioms DeepGNN.C105_converted_partial
#print axioms DeepGNN.C105_gap_refuted
#print axioms DeepGNN.C105_metadata_partial
#print axioms DeepGNN.C105_metadata_refuted
#print axioms DeepGNN.C105_overwritten_refuted
#print axioms DeepGNN.C105_path_partial
#print axioms DeepGNN.C105_path_refuted
#print axioms DeepGNN.C105_same_graph_refuted
#print axioms DeepGNN.C105_streamed_partial
#print axioms DeepGNN.C105_truncated_refuted
#print axioms DeepGNN.C106_drawn_partial
#print axioms DeepGNN.C106_frequency_partial
#print axioms DeepGNN.C106_gap_refuted
#print axioms DeepGNN.C106_in_range
#print axioms DeepGNN.C106_never_sampled_refuted
#print axioms DeepGNN.C106_reachable_partial
#print axioms DeepGNN.C106_skipped_refuted
#print axioms DeepGNN.C107_close_partial
#print axioms DeepGNN.C107_equal_refuted
#print axioms DeepGNN.C107_in_range
#print axioms DeepGNN.C107_lost_refuted
#print axioms DeepGNN.C107_never_drawn_refuted
#print axioms DeepGNN.C107_share_partial
#print axioms DeepGNN.C108_fair
#print axioms DeepGNN.C108_in_range
#print axioms DeepGNN.C108_overwritten_refuted
#print axioms DeepGNN.C108_rate_partial
#print axioms DeepGNN.C108_reachable_partial
#print axioms DeepGNN.C108_servers
#print axioms DeepGNN.C108_share_partial
#print axioms DeepGNN.C109_all
#print axioms DeepGNN.C109_pairs_refuted
#print axioms DeepGNN.C109_share_partial
#print axioms DeepGNN.C109_together
#print axioms DeepGNN.C109_unfair_refuted
#print axioms DeepGNN.C10_edge_features
#print axioms DeepGNN.C10_latest_unique
#print axioms DeepGNN.C10_missing_refuted
#print axioms DeepGNN.C10_node_features
#print axioms DeepGNN.C10_roundtrip
#print axioms DeepGNN.C110_no_deadlock
#print axioms DeepGNN.C110_once_partial
#print axioms DeepGNN.C110_own_failure
#print axioms DeepGNN.C110_set_up_first
#print axioms DeepGNN.C110_telemetry_refuted
#print axioms DeepGNN.C110_ten_steps
#print axioms DeepGNN.C110_twice_refuted
#print axioms DeepGNN.C111_interleaved_refuted
#print axioms DeepGNN.C111_loaded_partial
#print axioms DeepGNN.C111_missing_refuted
#print axioms DeepGNN.C111_pooler_refuted
#print axioms DeepGNN.C111_sizes
#print axioms DeepGNN.C111_torch_refuted
#print axioms DeepGNN.C112_clustering_refuted
#print axioms DeepGNN.C112_component
#print axioms DeepGNN.C112_defined
#print axioms DeepGNN.C112_densification
#print axioms DeepGNN.C112_diameter_partial
#print axioms DeepGNN.C112_effective_refuted
#print axioms DeepGNN.C113_edges_partial
#print axioms DeepGNN.C113_edges_refuted
#print axioms DeepGNN.C113_nodes_partial
#print axioms DeepGNN.C113_overwrite_refuted
#print axioms DeepGNN.C113_plain_refuted
#print axioms DeepGNN.C114_complete_partial
#print axioms DeepGNN.C114_killed_refuted
#print axioms DeepGNN.C114_metadata_refuted
#print axioms DeepGNN.C114_paths
#print axioms DeepGNN.C114_untagged_refuted
#print axioms DeepGNN.C115_accepts
#print axioms DeepGNN.C115_all_or_nothing
#print axioms DeepGNN.C115_beside_refuted
#print axioms DeepGNN.C115_inside_partial
#print axioms DeepGNN.C115_link_refuted
#print axioms DeepGNN.C116_all_partial
#print axioms DeepGNN.C116_all_refuted
#print axioms DeepGNN.C116_last
#print axioms DeepGNN.C116_pieces
#print axioms DeepGNN.C116_pooled
#print axioms DeepGNN.C117_both_refuted
#print axioms DeepGNN.C117_missing_refuted
#print axioms DeepGNN.C117_names
#print axioms DeepGNN.C117_taken_refuted
#print axioms DeepGNN.C117_values_partial
#print axioms DeepGNN.C118_column_partial
#print axioms DeepGNN.C118_default
#print axioms DeepGNN.C118_flat_refuted
#print axioms DeepGNN.C118_sum_refuted
#print axioms DeepGNN.C118_two_refuted
#print axioms DeepGNN.C119_own_word
#print axioms DeepGNN.C119_refused
#print axioms DeepGNN.C119_words
#print axioms DeepGNN.C11_edges_partial
#print axioms DeepGNN.C11_no_edge_features_refuted
#print axioms DeepGNN.C11_nodes_at_partial
#print axioms DeepGNN.C11_nodes_partial
#print axioms DeepGNN.C11_order_refuted
#print axioms DeepGNN.C120_empty_refuted
#print axioms DeepGNN.C120_filling_partial
#print axioms DeepGNN.C120_range_refuted
#print axioms DeepGNN.C121_missing
#print axioms DeepGNN.C121_sources
#print axioms DeepGNN.C121_succeeds
#print axioms DeepGNN.C121_two_refuted
#print axioms DeepGNN.C121_value_partial
#print axioms DeepGNN.C12_edges
#print axioms DeepGNN.C12_matrix_form
#print axioms DeepGNN.C12_nodes
#print axioms DeepGNN.C12_roundtrip
#print axioms DeepGNN.C12_vector_refuted
#print axioms DeepGNN.C13_default_partial
#print axioms DeepGNN.C13_default_refuted
#print axioms DeepGNN.C13_edge_source
#print axioms DeepGNN.C13_first_record
#print axioms DeepGNN.C13_type
#print axioms DeepGNN.C14_each_edge_once
#print axioms DeepGNN.C14_split
#print axioms DeepGNN.C15_gap_refuted
#print axioms DeepGNN.C15_only_neighbors
#print axioms DeepGNN.C15_sampled_partial
#print axioms DeepGNN.C15_temporal_partial
#print axioms DeepGNN.C16_distinct
#print axioms DeepGNN.C16_neighbors_partial
#print axioms DeepGNN.C16_removed_refuted
#print axioms DeepGNN.C16_temporal_partial
#print axioms DeepGNN.C17_reservoir
#print axioms DeepGNN.C18_distinct
#print axioms DeepGNN.C18_reachable_partial
#print axioms DeepGNN.C18_reachable_refuted
#print axioms DeepGNN.C19_sampled_partial
#print axioms DeepGNN.C19_share
#print axioms DeepGNN.C19_unfilled_refuted
#print axioms DeepGNN.C19_zero_refuted
#print axioms DeepGNN.C20_exact
#print axioms DeepGNN.C21_edge_shares
#print axioms DeepGNN.C21_node_shares
#print axioms DeepGNN.C22_overflow_refuted
#print axioms DeepGNN.C22_uniform_edges
#print axioms DeepGNN.C22_uniform_nodes
#print axioms DeepGNN.C22_weighted_edges
#print axioms DeepGNN.C22_weighted_nodes
#print axioms DeepGNN.C22_without_edges_partial
#print axioms DeepGNN.C22_without_nodes_partial
#print axioms DeepGNN.C23_counts
#print axioms DeepGNN.C23_neighbors
#print axioms DeepGNN.C24_distributed
#print axioms DeepGNN.C24_empty_refuted
#print axioms DeepGNN.C24_newest
#print axioms DeepGNN.C24_order_partial
#print axioms DeepGNN.C24_order_refuted
#print axioms DeepGNN.C24_temporal
#print axioms DeepGNN.C25_counts
#print axioms DeepGNN.C25_neighbors
#print axioms DeepGNN.C26_uniform_with
#print axioms DeepGNN.C26_uniform_without
#print axioms DeepGNN.C26_weighted
#print axioms DeepGNN.C27_edges_partial
#print axioms DeepGNN.C27_edges_refuted
#print axioms DeepGNN.C27_nodes
#print axioms DeepGNN.C27_weighted_nodes
#print axioms DeepGNN.C27_without_refuted
#print axioms DeepGNN.C28_client_partial
#print axioms DeepGNN.C28_empty_refuted
#print axioms DeepGNN.C28_rounding_refuted
#print axioms DeepGNN.C28_write_read
#print axioms DeepGNN.C29_counts_partial
#print axioms DeepGNN.C29_fewer_types_refuted
#print axioms DeepGNN.C29_merged_partial
#print axioms DeepGNN.C29_more_types_refuted
#print axioms DeepGNN.C29_order_refuted
#print axioms DeepGNN.C29_weights_refuted
#print axioms DeepGNN.C30_by_function
#print axioms DeepGNN.C30_lines_partial
#print axioms DeepGNN.C30_lines_refuted
#print axioms DeepGNN.C30_meta
#print axioms DeepGNN.C30_round_robin
#print axioms DeepGNN.C31_blank_refuted
#print axioms DeepGNN.C31_drop_last
#print axioms DeepGNN.C31_exact
#print axioms DeepGNN.C31_last_refuted
#print axioms DeepGNN.C31_lines_partial
#print axioms DeepGNN.C32_few
#print axioms DeepGNN.C32_nonempty
#print axioms DeepGNN.C32_reader
#print axioms DeepGNN.C32_samplers
#print axioms DeepGNN.C33_drop_last_partial
#print axioms DeepGNN.C33_epochs_partial
#print axioms DeepGNN.C33_features_refuted
#print axioms DeepGNN.C33_len_bounds
#print axioms DeepGNN.C33_len_partial
#print axioms DeepGNN.C33_len_refuted
#print axioms DeepGNN.C33_shuffle_refuted
#print axioms DeepGNN.C34_edges_partial
#print axioms DeepGNN.C34_last_id_lost
#print axioms DeepGNN.C34_nodes_partial
#print axioms DeepGNN.C34_overlap_refuted
#print axioms DeepGNN.C34_parallel_partial
#print axioms DeepGNN.C34_parallel_refuted
#print axioms DeepGNN.C35_len_partial
#print axioms DeepGNN.C35_len_refuted
#print axioms DeepGNN.C35_rows
#print axioms DeepGNN.C35_second_pass
#print axioms DeepGNN.C36_bounded
#print axioms DeepGNN.C36_no_deadlock_partial
#print axioms DeepGNN.C36_prefix_partial
#print axioms DeepGNN.C36_results_partial
#print axioms DeepGNN.C36_terminates
#print axioms DeepGNN.C36_workers_refuted
#print axioms DeepGNN.C37_clients
#print axioms DeepGNN.C37_connect_partial
#print axioms DeepGNN.C37_connects
#print axioms DeepGNN.C37_early_stop_refuted
#print axioms DeepGNN.C37_race_refuted
#print axioms DeepGNN.C37_released
#print axioms DeepGNN.C37_stale_refuted
#print axioms DeepGNN.C37_stop_partial
#print axioms DeepGNN.C38_barrier_partial
#print axioms DeepGNN.C38_late_refuted
#print axioms DeepGNN.C38_names
#print axioms DeepGNN.C38_released
#print axioms DeepGNN.C38_reuse_refuted
#print axioms DeepGNN.C38_stale_refuted
#print axioms DeepGNN.C39_actual
#print axioms DeepGNN.C39_pairs_partial
#print axioms DeepGNN.C39_size
#print axioms DeepGNN.C39_windows_refuted
#print axioms DeepGNN.C40_directed_partial
#print axioms DeepGNN.C40_edges_partial
#print axioms DeepGNN.C40_loop_refuted
#print axioms DeepGNN.C40_matrix_partial
#print axioms DeepGNN.C40_zero_refuted
#print axioms DeepGNN.C41_adjacency_partial
#print axioms DeepGNN.C41_byweight_partial
#print axioms DeepGNN.C41_gap_refuted
#print axioms DeepGNN.C41_random
#print axioms DeepGNN.C41_random_default_partial
#print axioms DeepGNN.C41_returns_partial
#print axioms DeepGNN.C42_backwards_refuted
#print axioms DeepGNN.C42_first
#print axioms DeepGNN.C42_loop_refuted
#print axioms DeepGNN.C42_node2vec
#print axioms DeepGNN.C42_returns
#print axioms DeepGNN.C42_undirected
#print axioms DeepGNN.C42_walk_partial
#print axioms DeepGNN.C43_scores_partial
#print axioms DeepGNN.C43_terminates
#print axioms DeepGNN.C43_timestamps_refuted
#print axioms DeepGNN.C43_zero_refuted
#print axioms DeepGNN.C44_isolated_refuted
#print axioms DeepGNN.C44_one_refuted
#print axioms DeepGNN.C44_returns
#print axioms DeepGNN.C44_sample_partial
#print axioms DeepGNN.C45_actual
#print axioms DeepGNN.C45_ascending_partial
#print axioms DeepGNN.C45_mrr_partial
#print axioms DeepGNN.C45_rows_refuted
#print axioms DeepGNN.C46_load_partial
#print axioms DeepGNN.C46_newest_partial
#print axioms DeepGNN.C46_newest_refuted
#print axioms DeepGNN.C47_bytes
#print axioms DeepGNN.C47_end_refuted
#print axioms DeepGNN.C47_overlap_refuted
#print axioms DeepGNN.C47_reads_partial
#print axioms DeepGNN.C47_restart_refuted
#print axioms DeepGNN.C48_client_partial
#print axioms DeepGNN.C48_client_refuted
#print axioms DeepGNN.C48_gap_refuted
#print axioms DeepGNN.C48_group
#print axioms DeepGNN.C48_native
#print axioms DeepGNN.C48_servers_partial
#print axioms DeepGNN.C49_edge_strategy_refuted
#print axioms DeepGNN.C49_edge_types_partial
#print axioms DeepGNN.C49_edges_partial
#print axioms DeepGNN.C49_long_refuted
#print axioms DeepGNN.C49_nodes_partial
#print axioms DeepGNN.C50_decode_partial
#print axioms DeepGNN.C50_edge_type_refuted
#print axioms DeepGNN.C50_escape_refuted
#print axioms DeepGNN.C51_after
#print axioms DeepGNN.C51_bounds
#print axioms DeepGNN.C51_fraction
#print axioms DeepGNN.C51_peak_refuted
#print axioms DeepGNN.C51_polynomial_partial
#print axioms DeepGNN.C51_polynomial_refuted
#print axioms DeepGNN.C51_warmup
#print axioms DeepGNN.C52_chunks_partial
#print axioms DeepGNN.C52_closed_refuted
#print axioms DeepGNN.C52_empty_refuted
#print axioms DeepGNN.C52_ends
#print axioms DeepGNN.C52_files_partial
#print axioms DeepGNN.C52_thread
#print axioms DeepGNN.C53_files_partial
#print axioms DeepGNN.C53_loss_partial
#print axioms DeepGNN.C53_optimizer_refuted
#print axioms DeepGNN.C53_progress_partial
#print axioms DeepGNN.C53_resume_partial
#print axioms DeepGNN.C53_schedule_refuted
#print axioms DeepGNN.C53_space_partial
#print axioms DeepGNN.C53_space_refuted
#print axioms DeepGNN.C53_torn_write_refuted
#print axioms DeepGNN.C54_last_partial
#print axioms DeepGNN.C54_last_refuted
#print axioms DeepGNN.C55_samples_partial
#print axioms DeepGNN.C55_samples_refuted
#print axioms DeepGNN.C56_evaluation
#print axioms DeepGNN.C56_training_partial
#print axioms DeepGNN.C56_training_refuted
#print axioms DeepGNN.C56_unlimited
#print axioms DeepGNN.C57_share
#print axioms DeepGNN.C58_accepts
#print axioms DeepGNN.C58_lifetime_refuted
#print axioms DeepGNN.C58_refuses_partial
#print axioms DeepGNN.C59_converts
#print axioms DeepGNN.C59_decodes
#print axioms DeepGNN.C59_empty_refuted
#print axioms DeepGNN.C59_features
#print axioms DeepGNN.C59_neighbors
#print axioms DeepGNN.C59_snapshot_partial
#print axioms DeepGNN.C60_converts
#print axioms DeepGNN.C60_decodes_partial
#print axioms DeepGNN.C60_default_refuted
#print axioms DeepGNN.C60_example_refuted
#print axioms DeepGNN.C60_features
#print axioms DeepGNN.C60_label_refuted
#print axioms DeepGNN.C60_neighbors
#print axioms DeepGNN.C60_text_refuted
#print axioms DeepGNN.C61_converts
#print axioms DeepGNN.C61_decodes
#print axioms DeepGNN.C61_features
#print axioms DeepGNN.C61_lifetime_refuted
#print axioms DeepGNN.C61_neighbors
#print axioms DeepGNN.C61_snapshot_partial
#print axioms DeepGNN.C61_workers_refuted
#print axioms DeepGNN.C62_expected_partial
#print axioms DeepGNN.C62_joint_partial
#print axioms DeepGNN.C62_joint_refuted
#print axioms DeepGNN.C62_partitions_refuted
#print axioms DeepGNN.C62_sampled_partial
#print axioms DeepGNN.C62_servers_partial
#print axioms DeepGNN.C63_lost
#print axioms DeepGNN.C63_reachable_refuted
#print axioms DeepGNN.C63_temporal_partial
#print axioms DeepGNN.C63_with_partial
#print axioms DeepGNN.C63_without_partial
#print axioms DeepGNN.C64_distributed_partial
#print axioms DeepGNN.C64_local_refuted
#print axioms DeepGNN.C64_node_types
#print axioms DeepGNN.C64_order_refuted
#print axioms DeepGNN.C65_bytes
#print axioms DeepGNN.C65_distributed_partial
#print axioms DeepGNN.C65_empty_refuted
#print axioms DeepGNN.C65_newest_refuted
#print axioms DeepGNN.C65_split_refuted
#print axioms DeepGNN.C65_temporal_partial
#print axioms DeepGNN.C65_torn_refuted
#print axioms DeepGNN.C66_edge_values_partial
#print axioms DeepGNN.C66_edges_at_partial
#print axioms DeepGNN.C66_edges_partial
#print axioms DeepGNN.C66_newest_refuted
#print axioms DeepGNN.C66_node_values_partial
#print axioms DeepGNN.C66_nodes_at_partial
#print axioms DeepGNN.C66_nodes_partial
#print axioms DeepGNN.C67_dims_refuted
#print axioms DeepGNN.C67_edge_values
#print axioms DeepGNN.C67_edges_at_partial
#print axioms DeepGNN.C67_edges_partial
#print axioms DeepGNN.C67_node_values
#print axioms DeepGNN.C67_node_values_at
#print axioms DeepGNN.C67_nodes_at_partial
#print axioms DeepGNN.C67_nodes_partial
#print axioms DeepGNN.C67_order_refuted
#print axioms DeepGNN.C67_stale_refuted
#print axioms DeepGNN.C68_last_n_partial
#print axioms DeepGNN.C68_removed_now_refuted
#print axioms DeepGNN.C69_joint_partial
#print axioms DeepGNN.C69_order_refuted
#print axioms DeepGNN.C69_removed_refuted
#print axioms DeepGNN.C69_sampled_partial
#print axioms DeepGNN.C69_servers_partial
#print axioms DeepGNN.C69_share_partial
#print axioms DeepGNN.C69_timeless_refuted
#print axioms DeepGNN.C70_dense_partial
#print axioms DeepGNN.C70_dense_times_partial
#print axioms DeepGNN.C70_edges_never_wrong_partial
#print axioms DeepGNN.C70_empty_refuted
#print axioms DeepGNN.C70_large_refuted
#print axioms DeepGNN.C70_nodes_never_wrong_partial
#print axioms DeepGNN.C70_sparse_partial
#print axioms DeepGNN.C70_strings_partial
#print axioms DeepGNN.C71_answers_partial
#print axioms DeepGNN.C71_bounded
#print axioms DeepGNN.C71_complete
#print axioms DeepGNN.C71_no_queue_refuted
#print axioms DeepGNN.C71_safe
#print axioms DeepGNN.C71_shutdown
#print axioms DeepGNN.C71_status_refuted
#print axioms DeepGNN.C72_attempts
#print axioms DeepGNN.C72_backoff_refuted
#print axioms DeepGNN.C72_counts_partial
#print axioms DeepGNN.C72_counts_safe_partial
#print axioms DeepGNN.C72_edge_features_at_partial
#print axioms DeepGNN.C72_edge_features_partial
#print axioms DeepGNN.C72_edge_sparse_at_partial
#print axioms DeepGNN.C72_edge_sparse_partial
#print axioms DeepGNN.C72_edge_strings_at_partial
#print axioms DeepGNN.C72_edge_strings_partial
#print axioms DeepGNN.C72_features_at_partial
#print axioms DeepGNN.C72_features_partial
#print axioms DeepGNN.C72_fraction_refuted
#print axioms DeepGNN.C72_last_n_partial
#print axioms DeepGNN.C72_late_refuted
#print axioms DeepGNN.C72_minute_refuted
#print axioms DeepGNN.C72_neighbors_partial
#print axioms DeepGNN.C72_node_sparse_at_partial
#print axioms DeepGNN.C72_node_sparse_partial
#print axioms DeepGNN.C72_node_strings_at_partial
#print axioms DeepGNN.C72_node_strings_partial
#print axioms DeepGNN.C72_policy_partial
#print axioms DeepGNN.C72_progress
#print axioms DeepGNN.C72_samples_partial
#print axioms DeepGNN.C72_sleep_partial
#print axioms DeepGNN.C72_types_partial
#print axioms DeepGNN.C72_types_safe_partial
#print axioms DeepGNN.C72_uniform_with_partial
#print axioms DeepGNN.C72_uniform_without_partial
#print axioms DeepGNN.C72_weighted_partial
#print axioms DeepGNN.C73_csv_epochs_refuted
#print axioms DeepGNN.C73_csv_partial
#print axioms DeepGNN.C73_csv_workers_refuted
#print axioms DeepGNN.C73_file_edges_partial
#print axioms DeepGNN.C73_file_nodes_partial
#print axioms DeepGNN.C73_file_tuples_partial
#print axioms DeepGNN.C73_file_tuples_v2_partial
#print axioms DeepGNN.C73_graph_partial
#print axioms DeepGNN.C73_range_partial
#print axioms DeepGNN.C73_text_blank_refuted
#print axioms DeepGNN.C73_text_partial
#print axioms DeepGNN.C73_uneven_refuted
#print axioms DeepGNN.C74_alphabetical_partial
#print axioms DeepGNN.C74_found_partial
#print axioms DeepGNN.C74_given_partial
#print axioms DeepGNN.C74_host
#print axioms DeepGNN.C74_meta_refuted
#print axioms DeepGNN.C74_order_refuted
#print axioms DeepGNN.C74_ranks_partial
#print axioms DeepGNN.C74_roles_refuted
#print axioms DeepGNN.C74_second_refuted
#print axioms DeepGNN.C74_sorted_refuted
#print axioms DeepGNN.C74_stale_refuted
#print axioms DeepGNN.C74_uneven_refuted
#print axioms DeepGNN.C74_workers_partial
#print axioms DeepGNN.C75_bounded
#print axioms DeepGNN.C75_converted
#print axioms DeepGNN.C75_end_refuted
#print axioms DeepGNN.C75_failure
#print axioms DeepGNN.C75_finishes
#print axioms DeepGNN.C75_interrupted
#print axioms DeepGNN.C75_merge_refuted
#print axioms DeepGNN.C75_progress
#print axioms DeepGNN.C75_read_refuted
#print axioms DeepGNN.C75_reader
#print axioms DeepGNN.C75_stale_refuted
#print axioms DeepGNN.C75_stall_refuted
#print axioms DeepGNN.C75_utf8_refuted
#print axioms DeepGNN.C76_all_types_refuted
#print axioms DeepGNN.C76_client_lastn_partial
#print axioms DeepGNN.C76_client_random_partial
#print axioms DeepGNN.C76_client_weighted_partial
#print axioms DeepGNN.C76_client_without_partial
#print axioms DeepGNN.C76_counts_at_partial
#print axioms DeepGNN.C76_created_refuted
#print axioms DeepGNN.C76_default_refuted
#print axioms DeepGNN.C76_edge_features_at_partial
#print axioms DeepGNN.C76_edge_features_partial
#print axioms DeepGNN.C76_edge_lengths
#print axioms DeepGNN.C76_edge_sparse_partial
#print axioms DeepGNN.C76_edge_strings_partial
#print axioms DeepGNN.C76_feature_matrix_refuted
#print axioms DeepGNN.C76_lastn_partial
#print axioms DeepGNN.C76_matrix_refuted
#print axioms DeepGNN.C76_neighbors_at_partial
#print axioms DeepGNN.C76_neighbors_partial
#print axioms DeepGNN.C76_node2vec_partial
#print axioms DeepGNN.C76_node_features_at_partial
#print axioms DeepGNN.C76_node_features_partial
#print axioms DeepGNN.C76_node_sparse_partial
#print axioms DeepGNN.C76_node_strings_partial
#print axioms DeepGNN.C76_node_types_partial
#print axioms DeepGNN.C76_sampler_types
#print axioms DeepGNN.C76_sparse_refuted
#print axioms DeepGNN.C76_sparse_type_refuted
#print axioms DeepGNN.C76_times_refuted
#print axioms DeepGNN.C76_type_count
#print axioms DeepGNN.C76_uniform_at_partial
#print axioms DeepGNN.C76_uniform_partial
#print axioms DeepGNN.C76_walk_partial
#print axioms DeepGNN.C76_weighted_at_partial
#print axioms DeepGNN.C76_weighted_partial
#print axioms DeepGNN.C76_weights_refuted
#print axioms DeepGNN.C76_without_partial
#print axioms DeepGNN.C76_wrap_refuted
#print axioms DeepGNN.C77_builds
#print axioms DeepGNN.C77_converts
#print axioms DeepGNN.C77_features
#print axioms DeepGNN.C77_first
#print axioms DeepGNN.C77_neighbors
#print axioms DeepGNN.C77_no_leak
#print axioms DeepGNN.C77_no_training_refuted
#print axioms DeepGNN.C77_partitions_refuted
#print axioms DeepGNN.C77_ppi_converts
#print axioms DeepGNN.C77_ppi_files
#print axioms DeepGNN.C77_ppi_neighbors
#print axioms DeepGNN.C77_ppi_no_training_refuted
#print axioms DeepGNN.C77_ppi_nodes
#print axioms DeepGNN.C77_reddit_converts
#print axioms DeepGNN.C77_reddit_files
#print axioms DeepGNN.C77_reddit_neighbors_partial
#print axioms DeepGNN.C77_reddit_neighbors_refuted
#print axioms DeepGNN.C77_reddit_nodes
#print axioms DeepGNN.C77_split
#print axioms DeepGNN.C77_types
#print axioms DeepGNN.C78_alive
#print axioms DeepGNN.C78_recurs
#print axioms DeepGNN.C78_seeds
#print axioms DeepGNN.C79_batch
#print axioms DeepGNN.C79_bias_refuted
#print axioms DeepGNN.C79_identity
#print axioms DeepGNN.C79_ids
#print axioms DeepGNN.C79_lstm_last_partial
#print axioms DeepGNN.C79_lstm_order_refuted
#print axioms DeepGNN.C79_lstm_skips_refuted
#print axioms DeepGNN.C79_one_row_each
#print axioms DeepGNN.C79_order
#print axioms DeepGNN.C79_rows
#print axioms DeepGNN.C80_counts_refuted
#print axioms DeepGNN.C80_fewer_refuted
#print axioms DeepGNN.C80_one
#print axioms DeepGNN.C80_three_refuted
#print axioms DeepGNN.C80_two_partial
#print axioms DeepGNN.C81_directed_refuted
#print axioms DeepGNN.C81_gat_hops_refuted
#print axioms DeepGNN.C81_gat_partial
#print axioms DeepGNN.C81_gcn_hops_refuted
#print axioms DeepGNN.C81_gcn_partial
#print axioms DeepGNN.C82_gat_partial
#print axioms DeepGNN.C82_gat_values_refuted
#print axioms DeepGNN.C82_gcn_partial
#print axioms DeepGNN.C82_gcn_values_refuted
#print axioms DeepGNN.C82_isolated_refuted
#print axioms DeepGNN.C83_clip_hvd_refuted
#print axioms DeepGNN.C83_finishes_partial
#print axioms DeepGNN.C83_one_process_partial
#print axioms DeepGNN.C83_uneven_ddp_refuted
#print axioms DeepGNN.C83_uneven_hvd_refuted
#print axioms DeepGNN.C84_bert
#print axioms DeepGNN.C84_cut_refuted
#print axioms DeepGNN.C84_empty_refuted
#print axioms DeepGNN.C84_no_rows_refuted
#print axioms DeepGNN.C84_offline_partial
#print axioms DeepGNN.C84_offline_refuted
#print axioms DeepGNN.C84_padding
#print axioms DeepGNN.C84_tab_refuted
#print axioms DeepGNN.C84_transform_partial
#print axioms DeepGNN.C84_triletter_partial
#print axioms DeepGNN.C84_vocabulary
#print axioms DeepGNN.C84_words
#print axioms DeepGNN.C85_batch_partial
#print axioms DeepGNN.C85_batch_size_refuted
#print axioms DeepGNN.C85_direction_refuted
#print axioms DeepGNN.C85_evaluation_partial
#print axioms DeepGNN.C85_fanout_refuted
#print axioms DeepGNN.C85_negative_refuted
#print axioms DeepGNN.C86_batches_all
#print axioms DeepGNN.C86_bipartite_refuted
#print axioms DeepGNN.C86_features
#print axioms DeepGNN.C86_history_partial
#print axioms DeepGNN.C86_new_nodes_refuted
#print axioms DeepGNN.C86_no_future_partial
#print axioms DeepGNN.C86_order_refuted
#print axioms DeepGNN.C86_skip_refuted
#print axioms DeepGNN.C86_split_partial
#print axioms DeepGNN.C86_split_refuted
#print axioms DeepGNN.C86_stale_refuted
#print axioms DeepGNN.C87_batch_refuted
#print axioms DeepGNN.C87_edges_partial
#print axioms DeepGNN.C87_features_partial
#print axioms DeepGNN.C87_labels_partial
#print axioms DeepGNN.C87_large_refuted
#print axioms DeepGNN.C87_loss
#print axioms DeepGNN.C87_single_refuted
#print axioms DeepGNN.C87_size_refuted
#print axioms DeepGNN.C87_test_refuted
#print axioms DeepGNN.C88_batches
#print axioms DeepGNN.C88_embedding_partial
#print axioms DeepGNN.C88_engine_partial
#print axioms DeepGNN.C88_file_partial
#print axioms DeepGNN.C88_file_refuted
#print axioms DeepGNN.C88_last_refuted
#print axioms DeepGNN.C88_loss_padded
#print axioms DeepGNN.C88_loss_partial
#print axioms DeepGNN.C88_mock_graph
#print axioms DeepGNN.C88_neighbor_types_refuted
#print axioms DeepGNN.C88_padding_refuted
#print axioms DeepGNN.C88_single_refuted
#print axioms DeepGNN.C88_triple_embeddings_partial
#print axioms DeepGNN.C88_triples_partial
#print axioms DeepGNN.C88_types_refuted
#print axioms DeepGNN.C89_classes_partial
#print axioms DeepGNN.C89_dimension_refuted
#print axioms DeepGNN.C89_f1_partial
#print axioms DeepGNN.C89_f1_refuted
#print axioms DeepGNN.C89_features_partial
#print axioms DeepGNN.C89_links_partial
#print axioms DeepGNN.C89_negative_exists
#print axioms DeepGNN.C89_negative_refuted
#print axioms DeepGNN.C89_no_leak
#print axioms DeepGNN.C89_self_refuted
#print axioms DeepGNN.C89_venue_refuted
#print axioms DeepGNN.C90_converts
#print axioms DeepGNN.C90_features
#print axioms DeepGNN.C90_gap
#print axioms DeepGNN.C90_isolated_refuted
#print axioms DeepGNN.C90_neighbors
#print axioms DeepGNN.C90_normalized
#print axioms DeepGNN.C90_order_refuted
#print axioms DeepGNN.C90_overlap_refuted
#print axioms DeepGNN.C90_per_class_refuted
#print axioms DeepGNN.C90_public_types
#print axioms DeepGNN.C90_random_builds
#print axioms DeepGNN.C90_random_refuted
#print axioms DeepGNN.C90_random_split
#print axioms DeepGNN.C90_rows
#print axioms DeepGNN.C90_types
#print axioms DeepGNN.C90_validation
#print axioms DeepGNN.C91_full_partial
#print axioms DeepGNN.C91_merge
#print axioms DeepGNN.C91_overflow_refuted
#print axioms DeepGNN.C91_remote_partial
#print axioms DeepGNN.C91_reply_partial
#print axioms DeepGNN.C91_same_sample
#print axioms DeepGNN.C91_servers_partial
#print axioms DeepGNN.C91_servers_same
#print axioms DeepGNN.C91_servers_untimed_refuted
#print axioms DeepGNN.C91_servers_weighted_partial
#print axioms DeepGNN.C91_servers_weighted_same
#print axioms DeepGNN.C91_servers_weighted_untimed_refuted
#print axioms DeepGNN.C91_timeless
#print axioms DeepGNN.C91_unwritten_refuted
#print axioms DeepGNN.C91_weighted_partial
#print axioms DeepGNN.C91_weighted_same
#print axioms DeepGNN.C91_weighted_unwritten_refuted
#print axioms DeepGNN.C91_with_partial
#print axioms DeepGNN.C91_without_partial
#print axioms DeepGNN.C91_without_timestamps_refuted
#print axioms DeepGNN.C92_addresses
#print axioms DeepGNN.C92_alone
#print axioms DeepGNN.C92_distinct
#print axioms DeepGNN.C92_entry
#print axioms DeepGNN.C92_exit
#print axioms DeepGNN.C92_failed
#print axioms DeepGNN.C92_finish_partial
#print axioms DeepGNN.C92_finish_refuted
#print axioms DeepGNN.C92_port_partial
#print axioms DeepGNN.C92_port_refuted
#print axioms DeepGNN.C92_shards_partial
#print axioms DeepGNN.C92_shards_refuted
#print axioms DeepGNN.C93_download_partial
#print axioms DeepGNN.C93_edge_alias_refuted
#print axioms DeepGNN.C93_last_local_refuted
#print axioms DeepGNN.C93_local
#print axioms DeepGNN.C93_local_partitions_refuted
#print axioms DeepGNN.C93_mixed_partial
#print axioms DeepGNN.C93_same_number_refuted
#print axioms DeepGNN.C93_timestamps_refuted
#print axioms DeepGNN.C94_checked
#print axioms DeepGNN.C94_empty_refuted
#print axioms DeepGNN.C94_inference_partial
#print axioms DeepGNN.C94_padding_refuted
#print axioms DeepGNN.C94_round_trip_partial
#print axioms DeepGNN.C94_small_refuted
#print axioms DeepGNN.C95_collapsed
#print axioms DeepGNN.C95_default_refuted
#print axioms DeepGNN.C95_identity_partial
#print axioms DeepGNN.C95_objective_partial
#print axioms DeepGNN.C95_perfect
#print axioms DeepGNN.C95_positive_drawn_refuted
#print axioms DeepGNN.C95_unconnected_refuted
#print axioms DeepGNN.C96_consistent_partial
#print axioms DeepGNN.C96_dropout_refuted
#print axioms DeepGNN.C96_evaluate_refuted
#print axioms DeepGNN.C96_inference_partial
#print axioms DeepGNN.C96_labels_refuted
#print axioms DeepGNN.C96_predict_unset_refuted
#print axioms DeepGNN.C96_scores_partial
#print axioms DeepGNN.C97_empty_refuted
#print axioms DeepGNN.C97_features_partial
#print axioms DeepGNN.C97_items_refuted
#print axioms DeepGNN.C97_late_refuted
#print axioms DeepGNN.C97_lost_refuted
#print axioms DeepGNN.C97_mixed_refuted
#print axioms DeepGNN.C97_one_user_partial
#print axioms DeepGNN.C97_same_id_refuted
#print axioms DeepGNN.C97_updates_refuted
#print axioms DeepGNN.C98_att_encoder
#print axioms DeepGNN.C98_average_partial
#print axioms DeepGNN.C98_default_refuted
#print axioms DeepGNN.C98_evaluate_refuted
#print axioms DeepGNN.C98_hops_refuted
#print axioms DeepGNN.C98_layers_refuted
#print axioms DeepGNN.C98_metapaths_refuted
#print axioms DeepGNN.C98_one_hop
#print axioms DeepGNN.C98_rows_partial
#print axioms DeepGNN.C99_gat_average_refuted
#print axioms DeepGNN.C99_gat_total
#print axioms DeepGNN.C99_hetgnn_average
#print axioms DeepGNN.C99_hetgnn_lstm
#print axioms DeepGNN.C99_hetgnn_odd_refuted
#print axioms DeepGNN.C99_hetgnn_partial
#print axioms DeepGNN.C99_lgcl_hidden_refuted
#print axioms DeepGNN.C99_lgcl_layers_refuted
#print axioms DeepGNN.C99_lgcl_order
#print axioms DeepGNN.C99_lgcl_partial
#print axioms DeepGNN.C99_lgcl_single_refuted
#print axioms DeepGNN.C99_lightgcn_partial
