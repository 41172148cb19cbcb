import Verif.Props.Api
import Verif.Props.Archive
import Verif.Props.ArchiveConc
import Verif.Props.Builder
import Verif.Props.BuilderWitness
import Verif.Props.Commit
import Verif.Props.CommitHistory
import Verif.Props.CommitRuns
import Verif.Props.Conc
import Verif.Props.ConcEnds
import Verif.Props.Construction
import Verif.Props.Crash
import Verif.Props.CrashArchive
import Verif.Props.CrashImport
import Verif.Props.Dict
import Verif.Props.DictKinds
import Verif.Props.Getters
import Verif.Props.Graph
import Verif.Props.HeadLine
import Verif.Props.Label
import Verif.Props.LabelDir
import Verif.Props.LabelFiles
import Verif.Props.LabelWitness
import Verif.Props.LayerFiles
import Verif.Props.Lives
import Verif.Props.LockedDrops
import Verif.Props.LockedLabels
import Verif.Props.LockedRollups
import Verif.Props.Lru
import Verif.Props.LruEvict
import Verif.Props.Merge
import Verif.Props.Net
import Verif.Props.Pack
import Verif.Props.PackIds
import Verif.Props.Query
import Verif.Props.Replicate
import Verif.Props.RollupFile
import Verif.Props.Script
import Verif.Props.Shared
import Verif.Props.Store
import Verif.Props.StoreWitness
import Verif.Props.Text
import Verif.Props.TextExact
import Verif.Props.Trade
import Verif.Props.TradeHistory
import Verif.Props.Transactions
import Verif.Props.Witness

/-!
The axioms of the property theorems. Each line prints what the kernel recorded.
-/

#print axioms Verif.C01_commit_applies_changes
#print axioms Verif.C02_order_independent
#print axioms Verif.C03_add_remove_noop
#print axioms Verif.C04_triples_complete
#print axioms Verif.C05_triples_by_subject
#print axioms Verif.C06_triples_by_predicate_partial
#print axioms Verif.C06_predicate_zero
#print axioms Verif.C07_triples_by_object
#print axioms Verif.C08_single_triple
#print axioms Verif.C09_changes_exact_partial
#print axioms Verif.C09_predicate_zero
#print axioms Verif.C10_stored_changes_by_object
#print axioms Verif.C10_loaded_changes_by_object_partial
#print axioms Verif.C10_loaded_wrong_object
#print axioms Verif.C11_counts
#print axioms Verif.C12_dictionary_round_trip
#print axioms Verif.C13_ids_stable
#print axioms Verif.C14_nodes_and_values_apart
#print axioms Verif.C14_wrong_kind
#print axioms Verif.C15_dictionaries_exact
#print axioms Verif.C15_one_id_per_entry
#print axioms Verif.C16_conversions
#print axioms Verif.C16_partial_resolution
#print axioms Verif.C17_commit_never_panics
#print axioms Verif.C18_id_calls_like_value_calls_partial
#print axioms Verif.C18_id_calls_apply_partial
#print axioms Verif.C18_unknown_id_panics
#print axioms Verif.C18_unknown_id_cancels
#print axioms Verif.World.C19_layers_stay_partial
#print axioms Verif.World.C19_contents_stay_partial
#print axioms Verif.World.C31_name_wrong
#print axioms Verif.World.C24_rollup_upto_wrong
#print axioms Verif.C20_linearizable
#print axioms Verif.C20_one_commit
#print axioms Verif.C20_refused_after_commit
#print axioms Verif.C20_no_panic
#print axioms Verif.C20_contents
#print axioms Verif.C20_apply_delta_silent
#print axioms Verif.C20_apply_diff_panics
#print axioms Verif.C20_poisoned_panics
#print axioms Verif.C21_apply_delta
#print axioms Verif.C21_apply_delta_store_partial
#print axioms Verif.C22_apply_diff
#print axioms Verif.World.C23_rollup_partial
#print axioms Verif.World.C23_rollup_concurrent_partial
#print axioms Verif.World.C24_rollup_upto_partial
#print axioms Verif.World.C24_rollup_upto_untouched_partial
#print axioms Verif.World.C24_rollup_upto_after_rollup_fails
#print axioms Verif.World.C24_rollup_upto_after_rollup_upto_panics
#print axioms Verif.World.C24_rollup_upto_concurrent_partial
#print axioms Verif.World.C24_ancestor_any_load_partial
#print axioms Verif.World.C25_imprecise_rollup_upto_partial
#print axioms Verif.World.C25_imprecise_rollup_upto_untouched_partial
#print axioms Verif.World.C25_imprecise_rollup_upto_wrong
#print axioms Verif.World.C25_imprecise_rollup_upto_concurrent_partial
#print axioms Verif.World.C26_squash_partial
#print axioms Verif.World.C27_squash_upto_partial
#print axioms Verif.World.C27_parent_wrong
#print axioms Verif.World.C27_squash_upto_concurrent_partial
#print axioms Verif.C28_merge_is_union
#print axioms Verif.World.C28_merge_in_store_partial
#print axioms Verif.World.C28_merge_error
#print axioms Verif.World.C28_rollup_layer_garbled
#print axioms Verif.World.C28_value_subject_panics
#print axioms Verif.World.C29_ancestor_check
#print axioms Verif.World.C30_stack_names
#print axioms Verif.World.C30_stack_names_upto
#print axioms Verif.World.C30_stack_names_upto_fails
#print axioms Verif.World.C31_get_layer_total_partial
#print axioms Verif.World.C31_get_layer_partial
#print axioms Verif.World.C31_committed_partial
#print axioms Verif.C32_directory
#print axioms Verif.C32_cached
#print axioms Verif.C32_memory_partial
#print axioms Verif.C32_disk
#print axioms Verif.C32_success
#print axioms Verif.C32_refused
#print axioms Verif.C32_failure
#print axioms Verif.C32_at_most_one
#print axioms Verif.C32_at_most_one_memory
#print axioms Verif.C32_memory_wrong
#print axioms Verif.C33_set_head_disk
#print axioms Verif.C33_set_head_memory_partial
#print axioms Verif.C33_memory_wrong
#print axioms Verif.C34_force_set_head_disk
#print axioms Verif.C34_force_set_head_memory_partial
#print axioms Verif.C34_memory_wrong
#print axioms Verif.C35_force_set_head_version_disk
#print axioms Verif.C35_force_set_head_version_memory
#print axioms Verif.C36_round_trip
#print axioms Verif.C36_injective
#print axioms Verif.C36_exact
#print axioms Verif.C36_panic_exact
#print axioms Verif.C36_accepted_partial
#print axioms Verif.C36_ascii_no_panic_partial
#print axioms Verif.C36_plus_accepted
#print axioms Verif.C36_panics
#print axioms Verif.C37_directory_partial
#print axioms Verif.C37_directory_wrong
#print axioms Verif.C37_cached_partial
#print axioms Verif.C37_cached_wrong
#print axioms Verif.C37_create_wrong
#print axioms Verif.C38_reopen_partial
#print axioms Verif.C38_clear_wrong
#print axioms Verif.C39_independent
#print axioms Verif.C39_answers
#print axioms Verif.C39_labels_cached
#print axioms Verif.C39_labels_memory
#print axioms Verif.C39_labels_directory_partial
#print axioms Verif.C39_file_names
#print axioms Verif.C39_named_update
#print axioms Verif.C39_empty_name_wrong
#print axioms Verif.C39_listing_succeeds
#print axioms Verif.C39_listing_partial
#print axioms Verif.C39_open_succeeds
#print axioms Verif.C39_open
#print axioms Verif.C39_foreign_file
#print axioms Verif.C40_name_text
#print axioms Verif.C40_round_trip
#print axioms Verif.C40_injective
#print axioms Verif.C40_other_length
#print axioms Verif.C40_other_length_bytes
#print axioms Verif.C40_bytes
#print axioms Verif.C40_parent_file
#print axioms Verif.C40_parent_file_short
#print axioms Verif.C40_rollup_file
#print axioms Verif.C40_exact
#print axioms Verif.C40_read
#print axioms Verif.C40_panic_exact
#print axioms Verif.C40_parent_exact
#print axioms Verif.C40_rollup_exact
#print axioms Verif.C40_accepted
#print axioms Verif.C40_ascii_no_panic
#print axioms Verif.C40_panics
#print axioms Verif.C41_archived_files
#print axioms Verif.C41_unchanged
#print axioms Verif.C41_parent
#print axioms Verif.C41_file_order
#print axioms Verif.archive_read_past_end
#print axioms Verif.C42_rollup_file_partial
#print axioms Verif.C42_size_wrong
#print axioms Verif.C42_register
#print axioms Verif.LruArch.C43_read_right_partial
#print axioms Verif.LruArch.C43_no_panic
#print axioms Verif.LruArch.C43_read_miss
#print axioms Verif.LruArch.C43_miss_absent
#print axioms Verif.LruArch.C43_read_existing_partial
#print axioms Verif.LruArch.C43_no_deadlock
#print axioms Verif.LruArch.C43_read_prefix
#print axioms Verif.LruArch.C43_stored
#print axioms Verif.LruArch.C43_metadata_partial
#print axioms Verif.LruArch.C43_file_metadata_partial
#print axioms Verif.LruArch.C43_file_bytes
#print axioms Verif.LruArch.C43_file_stream
#print axioms Verif.LruArch.C43_never_evicts
#print axioms Verif.Lru.C43_makes_room
#print axioms Verif.Lru.C43_room
#print axioms Verif.LruArch.C43_limit_wrong
#print axioms Verif.LruArch.C43_store_ignores_limit
#print axioms Verif.LruArch.C43_stale_miss_wrong
#print axioms Verif.LruArch.C43_torn_wrong
#print axioms Verif.LruArch.C43_cancel_wedges
#print axioms Verif.LruArch.C43_cancel_panics
#print axioms Verif.LruArch.C43_cancel_reached
#print axioms Verif.C44_construction_file
#print axioms Verif.C44_unchanged
#print axioms Verif.C45_pack_round_trip
#print axioms Verif.C46_pack_parents
#print axioms Verif.C46_entry_order
#print axioms Verif.C46_exported_parents
#print axioms Verif.C47_others_partial
#print axioms Verif.C47_missing_appears
#print axioms Verif.C47_memory_emptied
#print axioms Verif.C47_archive_panics
#print axioms Verif.C48_memory_partial
#print axioms Verif.C48_directory_wrong
#print axioms Verif.C48_archive_wrong
#print axioms Verif.C49_changes_upto
#print axioms Verif.C49_changes_upto_cached_partial
#print axioms Verif.C49_cached_wrong
#print axioms Verif.C49_layer_changes_partial
#print axioms Verif.C49_layer_changes_repeats
#print axioms Verif.C49_layer_changes_wrong
#print axioms Verif.C50_counts_partial
#print axioms Verif.C50_predicate_count_values
#print axioms Verif.C50_predicate_count_wrong
#print axioms Verif.C51_base_stream
#print axioms Verif.C51_child_stream
#print axioms Verif.World.C51_streams_in_store_partial
#print axioms Verif.Proc.C52_layers_partial
#print axioms Verif.Proc.C52_contents_partial
#print axioms Verif.Proc.C52_never_wrong_partial
#print axioms Verif.Proc.C52_files_stay
#print axioms Verif.Proc.C52_parents
#print axioms Verif.Proc.C52_unfinished
#print axioms Verif.Proc.C52_heads
#print axioms Verif.Proc.C52_rollup_wrong
#print axioms Verif.Proc.C52_rollup_reader_wrong
#print axioms Verif.ArchStore.C52_archive_files
#print axioms Verif.ArchStore.C52_archive_rollup_partial
#print axioms Verif.ArchStore.C52_archive_rollup_wrong
#print axioms Verif.C52_import_others
#print axioms Verif.C52_import_again
#print axioms Verif.C52_import_again_wrong
#print axioms Verif.World.C53_parents_end
#print axioms Verif.World.C53_parent_fixed
#print axioms Verif.World.C53_unknown
#print axioms Verif.C54_dictionaries
#print axioms Verif.C54_changes_partial
#print axioms Verif.C54_changes_by_object_partial
#print axioms Verif.C54_parent_partial
#print axioms Verif.C54_missing
#print axioms Verif.C54_changes_by_object_wrong
#print axioms Verif.C54_parent_wrong
#print axioms Verif.C55_written
#print axioms Verif.C55_read_back
#print axioms Verif.C55_imported
#print axioms Verif.C55_copied
#print axioms Verif.C55_missing
#print axioms Verif.Api.C56_names_partial
#print axioms Verif.Api.C56_api_partial
#print axioms Verif.Api.C56_no_panic
#print axioms Verif.Api.C56_read_your_writes
#print axioms Verif.Api.C56_unknown_ids_fail
#print axioms Verif.Api.C56_apply_diff_fails
#print axioms Verif.LockedLabels.C57_locked_labels
#print axioms Verif.LockedLabels.C57_no_deadlock
#print axioms Verif.LockedLabels.C57_calls_end
#print axioms Verif.LockedLabels.C57_noreadlock_wrong
#print axioms Verif.World.C58_replication
#print axioms Verif.LockedRollups.C59_linearizable
#print axioms Verif.LockedRollups.C59_no_panic
#print axioms Verif.LockedRollups.C59_read_written
#print axioms Verif.LockedRollups.C59_read_after
#print axioms Verif.LockedRollups.C59_no_deadlock
#print axioms Verif.LockedRollups.C59_calls_end
#print axioms Verif.LockedRollups.C59_noreadlock_wrong
#print axioms Verif.LockedRollups.C59_drop_wrong
#print axioms Verif.C60_one_at_a_time_partial
#print axioms Verif.C60_archived_files_partial
#print axioms Verif.C60_poisoned_forever
#print axioms Verif.C60_poison_wrong
#print axioms Verif.C60_get_finalize_wrong
#print axioms Verif.C60_lost_file_wrong
#print axioms Verif.C60_flicker_wrong
#print axioms Verif.C61_serializable_disk
#print axioms Verif.C61_serializable_memory
#print axioms Verif.C61_head_loads_partial
#print axioms Verif.C61_not_lost_disk
#print axioms Verif.C61_not_lost_memory
#print axioms Verif.LockedLabels.C62_dropped_calls_partial
#print axioms Verif.LockedLabels.C62_no_deadlock
#print axioms Verif.LockedLabels.C62_calls_end
#print axioms Verif.LockedLabels.C62_drop_set_wrong
#print axioms Verif.LockedLabels.C62_drop_create_wrong
#print axioms Verif.Net.C63_names_partial
#print axioms Verif.Net.C63_stores_partial
#print axioms Verif.Net.C63_no_panic
#print axioms Verif.Net.C63_write_here_read_there
#print axioms Verif.Net.C63_without_parent_fails
#print axioms Verif.Conc.C64_concurrent_partial
#print axioms Verif.Conc.C64_kept_partial
#print axioms Verif.Conc.C64_sequential
#print axioms Verif.Conc.C64_lasting
#print axioms Verif.Conc.C64_same_triples
#print axioms Verif.Conc.C64_no_panic
#print axioms Verif.Conc.C64_set_head_fails
#print axioms Verif.Conc.C64_apply_diff_fails
#print axioms Verif.Conc.C65_steps
#print axioms Verif.Conc.C65_more_steps
#print axioms Verif.Conc.C65_force_steps
#print axioms Verif.Conc.C65_alone_partial
#print axioms Verif.Conc.C65_search_partial
#print axioms Verif.Conc.C66_lives_partial
#print axioms Verif.Conc.C66_kept_partial
#print axioms Verif.Conc.C66_same_triples
#print axioms Verif.Conc.C66_heads
#print axioms Verif.Conc.C67_store_partial
#print axioms Verif.Conc.C67_not_lost
#print axioms Verif.Conc.C67_in_order
#print axioms Verif.Conc.C67_one_line
#print axioms Verif.Conc.C67_versions
#print axioms Verif.Conc.C68_processes_partial
#print axioms Verif.Conc.C68_kept_partial
#print axioms Verif.Conc.C68_same_triples
#print axioms Verif.Conc.C68_heads_partial
#print axioms Verif.Trade.C69_exchange_partial
#print axioms Verif.Trade.C69_kept_partial
#print axioms Verif.Trade.C69_ends_partial
#print axioms Verif.Trade.C69_same_layer
#print axioms Verif.Trade.C69_imported
#print axioms Verif.Trade.C69_packed
#print axioms Verif.Conc.C70_added
#print axioms Verif.Conc.C70_removed
#print axioms Verif.Conc.C70_both
#print axioms Verif.Conc.C70_untouched
#print axioms Verif.Conc.C70_once
#print axioms Verif.Conc.C70_layer
#print axioms Verif.Conc.C70_store_partial
#print axioms Verif.Conc.C70_processes_partial
#print axioms Verif.RollupFile.C71_register_partial
#print axioms Verif.RollupFile.C71_read_written_partial
#print axioms Verif.RollupFile.C71_read_after_partial
#print axioms Verif.RollupFile.C71_pieces_read
#print axioms Verif.RollupFile.C71_pieces_write
#print axioms Verif.RollupFile.C71_calls_end
#print axioms Verif.RollupFile.C71_unreadable_wrong
#print axioms Verif.RollupFile.C71_mixed_wrong
