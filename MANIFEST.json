{
 "claims": [
  {
   "property": "C01",
   "status": "proved",
   "theorems": [
    "Verif.C01_commit_applies_changes"
   ],
   "note": "For every reachable stack of layers and every list of value triple calls, in every map iteration order."
  },
  {
   "property": "C02",
   "status": "proved",
   "theorems": [
    "Verif.C02_order_independent"
   ],
   "note": "Equality of the whole committed layer, not only of its triples."
  },
  {
   "property": "C03",
   "status": "proved",
   "theorems": [
    "Verif.C03_add_remove_noop"
   ],
   "note": "Existence unchanged, no trace in additions or removals, same layer as without the calls."
  },
  {
   "property": "C04",
   "status": "proved",
   "theorems": [
    "Verif.C04_triples_complete"
   ],
   "note": ""
  },
  {
   "property": "C05",
   "status": "proved",
   "theorems": [
    "Verif.C05_triples_by_subject"
   ],
   "note": "All ids, including 0, gaps and ids past the end."
  },
  {
   "property": "C06",
   "status": "partial",
   "theorems": [
    "Verif.C06_triples_by_predicate_partial",
    "Verif.C06_predicate_zero"
   ],
   "note": "Proved for every predicate id but 0. For 0 the code yields triples of other predicates on a base layer with an unused subject id; C06_predicate_zero is the witness."
  },
  {
   "property": "C07",
   "status": "proved",
   "theorems": [
    "Verif.C07_triples_by_object"
   ],
   "note": ""
  },
  {
   "property": "C08",
   "status": "proved",
   "theorems": [
    "Verif.C08_single_triple"
   ],
   "note": ""
  },
  {
   "property": "C09",
   "status": "partial",
   "theorems": [
    "Verif.C09_changes_exact_partial",
    "Verif.C09_predicate_zero"
   ],
   "note": "Complete except for the _p variants at predicate 0, where the code is wrong (witness C09_predicate_zero)."
  },
  {
   "property": "C10",
   "status": "partial",
   "theorems": [
    "Verif.C10_stored_changes_by_object",
    "Verif.C10_loaded_changes_by_object_partial",
    "Verif.C10_loaded_wrong_object"
   ],
   "note": "Complete for layers read from storage. For loaded layers the code is wrong on objects that do not occur in the changes (witness C10_loaded_wrong_object)."
  },
  {
   "property": "C11",
   "status": "proved",
   "theorems": [
    "Verif.C11_counts"
   ],
   "note": ""
  },
  {
   "property": "C12",
   "status": "proved",
   "theorems": [
    "Verif.C12_dictionary_round_trip"
   ],
   "note": ""
  },
  {
   "property": "C13",
   "status": "proved",
   "theorems": [
    "Verif.C13_ids_stable"
   ],
   "note": ""
  },
  {
   "property": "C14",
   "status": "proved",
   "theorems": [
    "Verif.C14_nodes_and_values_apart",
    "Verif.C14_wrong_kind"
   ],
   "note": ""
  },
  {
   "property": "C15",
   "status": "proved",
   "theorems": [
    "Verif.C15_dictionaries_exact",
    "Verif.C15_one_id_per_entry"
   ],
   "note": ""
  },
  {
   "property": "C16",
   "status": "proved",
   "theorems": [
    "Verif.C16_conversions",
    "Verif.C16_partial_resolution"
   ],
   "note": ""
  },
  {
   "property": "C17",
   "status": "proved",
   "theorems": [
    "Verif.C17_commit_never_panics"
   ],
   "note": "Every panic of the modelled builders is an explicit outcome; the encoders of tdb-succinct are trusted."
  },
  {
   "property": "C18",
   "status": "partial",
   "theorems": [
    "Verif.C18_id_calls_like_value_calls_partial",
    "Verif.C18_id_calls_apply_partial",
    "Verif.C18_unknown_id_panics",
    "Verif.C18_unknown_id_cancels"
   ],
   "note": "Proved for ids of the parent (and 0). For unknown ids the code panics or cancels other triples; the last two theorems are witnesses."
  },
  {
   "property": "C19",
   "status": "partial",
   "theorems": [
    "Verif.World.C19_layers_stay_partial",
    "Verif.World.C19_contents_stay_partial",
    "Verif.World.C31_name_wrong",
    "Verif.World.C24_rollup_upto_wrong"
   ],
   "note": "Any two loads of a name at any moments of any interleaving of loads, commits, rollups, squashes and cache changes answer all queries alike, also when layers are imported from packs in between. Missing: histories with an unsafe rollup down to an ancestor, where the code is wrong (witness), and the reported parent after a rollup of a rollup (witness)."
  },
  {
   "property": "C20",
   "status": "proved",
   "theorems": [
    "Verif.C20_linearizable",
    "Verif.C20_one_commit",
    "Verif.C20_refused_after_commit",
    "Verif.C20_no_panic",
    "Verif.C20_contents",
    "Verif.C20_apply_delta_silent",
    "Verif.C20_apply_diff_panics",
    "Verif.C20_poisoned_panics"
   ],
   "note": "Every interleaving of any number of callers, with i/o errors and panics of commits. Beside the property: apply_delta on a committed builder reports success, apply_diff panics, and after a panic with the lock both panic (last three theorems)."
  },
  {
   "property": "C21",
   "status": "proved",
   "theorems": [
    "Verif.C21_apply_delta",
    "Verif.C21_apply_delta_store_partial"
   ],
   "note": "For all layers and all schedules of the workers. The form in terms of the history of the store excludes rollups that go wrong (C24, C25)."
  },
  {
   "property": "C22",
   "status": "proved",
   "theorems": [
    "Verif.C22_apply_diff"
   ],
   "note": "For all pairs of layers and all schedules of the workers."
  },
  {
   "property": "C23",
   "status": "partial",
   "theorems": [
    "Verif.World.C23_rollup_partial",
    "Verif.World.C23_rollup_concurrent_partial",
    "Verif.World.C31_name_wrong"
   ],
   "note": "Success and transparency (all queries, name, parent, any remaining cache) after every history without an unsafe rollup down to an ancestor. The name part needs that no rollup was itself rolled up; C31_name_wrong shows why. C23_rollup_concurrent_partial: the same if each read of the decision is at a different moment and anything happens before the layer is written and registered."
  },
  {
   "property": "C24",
   "status": "partial",
   "theorems": [
    "Verif.World.C24_rollup_upto_partial",
    "Verif.World.C24_rollup_upto_untouched_partial",
    "Verif.World.C24_rollup_upto_wrong",
    "Verif.World.C24_rollup_upto_after_rollup_fails",
    "Verif.World.C24_rollup_upto_after_rollup_upto_panics",
    "Verif.World.C24_rollup_upto_concurrent_partial",
    "Verif.World.C24_ancestor_any_load_partial"
   ],
   "note": "Proved when it writes nothing, when the merged loaded layers have no predicate id map that differs from the node and value id map, and (with success) when nothing above the ancestor was rolled up. Otherwise the code is wrong; three witnesses. C24_rollup_upto_concurrent_partial: success and transparency if each read of the decision is at a different moment and anything happens before the layer is written."
  },
  {
   "property": "C25",
   "status": "partial",
   "theorems": [
    "Verif.World.C25_imprecise_rollup_upto_partial",
    "Verif.World.C25_imprecise_rollup_upto_untouched_partial",
    "Verif.World.C25_imprecise_rollup_upto_wrong",
    "Verif.World.C24_rollup_upto_after_rollup_fails",
    "Verif.World.C24_rollup_upto_after_rollup_upto_panics",
    "Verif.World.C25_imprecise_rollup_upto_concurrent_partial",
    "Verif.World.C24_ancestor_any_load_partial"
   ],
   "note": "Proved when it writes nothing, when the bound that is found is the ancestor asked for, and (with success) when nothing above the ancestor was rolled up. Otherwise the code loses changes; witnesses. C25_imprecise_rollup_upto_concurrent_partial: as for C24."
  },
  {
   "property": "C26",
   "status": "partial",
   "theorems": [
    "Verif.World.C26_squash_partial"
   ],
   "note": "After every history without an unsafe rollup down to an ancestor (C24, C25)."
  },
  {
   "property": "C27",
   "status": "partial",
   "theorems": [
    "Verif.World.C27_squash_upto_partial",
    "Verif.World.C27_parent_wrong",
    "Verif.World.C27_squash_upto_concurrent_partial",
    "Verif.World.C24_ancestor_any_load_partial"
   ],
   "note": "As C26. After a rollup of a rollup of the ancestor another parent is reported (C27_parent_wrong). C27_squash_upto_concurrent_partial: the same if the ancestor is loaded over several moments and anything happens before the layer is written."
  },
  {
   "property": "C28",
   "status": "proved",
   "theorems": [
    "Verif.C28_merge_is_union",
    "Verif.World.C28_merge_in_store_partial",
    "Verif.World.C28_merge_error",
    "Verif.World.C28_rollup_layer_garbled",
    "Verif.World.C28_value_subject_panics"
   ],
   "note": "For all lists of base layers that builders made, and of merges of these, at any moment of any execution. Beside the property: a base layer written by a rollup is garbled, and a value as a subject is a panic (last two theorems)."
  },
  {
   "property": "C29",
   "status": "proved",
   "theorems": [
    "Verif.World.C29_ancestor_check"
   ],
   "note": "In every execution, also with unsafe rollups."
  },
  {
   "property": "C30",
   "status": "proved",
   "theorems": [
    "Verif.World.C30_stack_names",
    "Verif.World.C30_stack_names_upto",
    "Verif.World.C30_stack_names_upto_fails"
   ],
   "note": "In every execution, for all names."
  },
  {
   "property": "C31",
   "status": "partial",
   "theorems": [
    "Verif.World.C31_get_layer_total_partial",
    "Verif.World.C31_get_layer_partial",
    "Verif.World.C31_committed_partial",
    "Verif.World.C31_name_wrong"
   ],
   "note": "For every interleaving, cache state and set of rollups, except after unsafe rollups down to an ancestor; name and parent need that no rollup was rolled up (witness C31_name_wrong)."
  },
  {
   "property": "C32",
   "status": "partial",
   "theorems": [
    "Verif.C32_directory",
    "Verif.C32_cached",
    "Verif.C32_memory_partial",
    "Verif.C32_disk",
    "Verif.C32_success",
    "Verif.C32_refused",
    "Verif.C32_failure",
    "Verif.C32_at_most_one",
    "Verif.C32_at_most_one_memory",
    "Verif.C32_memory_wrong"
   ],
   "note": "Every interleaving of any number of callers is linearizable to a map with compare and swap, for all three stores. The store in memory compares versions only, so after a deletion and new creation a caller can replace a label that it has not read (C32_memory_wrong). Two successes from one version need a deletion in between. Versions do not overflow. C32_disk is about the short form of the stores on disk that C56 and C64 use. C57 has the directory store one system call at a time; C32_at_most_one covers it too."
  },
  {
   "property": "C33",
   "status": "partial",
   "theorems": [
    "Verif.C33_set_head_disk",
    "Verif.C33_set_head_memory_partial",
    "Verif.C33_memory_wrong"
   ],
   "note": "Complete for both stores on disk (the directory store also one system call at a time, C57), composed with the executions of the layer store. In memory proved for labels that are not deleted meanwhile; otherwise wrong (C33_memory_wrong)."
  },
  {
   "property": "C34",
   "status": "partial",
   "theorems": [
    "Verif.C34_force_set_head_disk",
    "Verif.C34_force_set_head_memory_partial",
    "Verif.C34_memory_wrong"
   ],
   "note": "Complete on disk. In memory proved for labels that are not deleted meanwhile; otherwise wrong (C34_memory_wrong)."
  },
  {
   "property": "C35",
   "status": "proved",
   "theorems": [
    "Verif.C35_force_set_head_version_disk",
    "Verif.C35_force_set_head_version_memory"
   ],
   "note": "For all three stores and every interleaving. If the label does not exist (or a create of it is under way) the call is an error, which changes nothing either."
  },
  {
   "property": "C36",
   "status": "partial",
   "theorems": [
    "Verif.C36_round_trip",
    "Verif.C36_injective",
    "Verif.C36_exact",
    "Verif.C36_panic_exact",
    "Verif.C36_accepted_partial",
    "Verif.C36_ascii_no_panic_partial",
    "Verif.C36_plus_accepted",
    "Verif.C36_panics"
   ],
   "note": "Round trip for all labels. C36_exact says which files are read and as what, C36_panic_exact which make the reader panic; all others are errors. Rejection of other content is partial: the reader accepts a sign, upper case digits and CRLF (witness), and panics on some text that is not ASCII (witness)."
  },
  {
   "property": "C37",
   "status": "partial",
   "theorems": [
    "Verif.C37_directory_partial",
    "Verif.C37_directory_wrong",
    "Verif.C37_cached_partial",
    "Verif.C37_cached_wrong",
    "Verif.C37_create_wrong"
   ],
   "note": "The code does not have the property: truncation before writing loses both labels, overwriting in place can give a third label, and a create that stops halfway leaves a name that can be neither read nor created. Proved: in the directory store no third label is ever read."
  },
  {
   "property": "C38",
   "status": "partial",
   "theorems": [
    "Verif.C38_reopen_partial",
    "Verif.C38_clear_wrong"
   ],
   "note": "Proved for all executions in which no label with a layer is cleared. Clearing leaves the end of the old file behind and the directory cannot be opened again (C38_clear_wrong)."
  },
  {
   "property": "C39",
   "status": "partial",
   "theorems": [
    "Verif.C39_independent",
    "Verif.C39_answers",
    "Verif.C39_labels_cached",
    "Verif.C39_labels_memory",
    "Verif.C39_labels_directory_partial",
    "Verif.C39_file_names",
    "Verif.C39_named_update",
    "Verif.C39_empty_name_wrong",
    "Verif.C39_listing_succeeds",
    "Verif.C39_listing_partial",
    "Verif.C39_open_succeeds",
    "Verif.C39_open",
    "Verif.C39_foreign_file"
   ],
   "note": "All answers and independence for every interleaving and store; listings exact for memory and cached, and for the directory when no create is under way. Names that contain a separator are not modelled; the empty name does not work (C39_empty_name_wrong). C39_listing_partial and C39_open: in a directory with other entries exactly the label files are found; a file whose name is not UTF-8 makes listings of the directory store fail (C39_foreign_file)."
  },
  {
   "property": "C40",
   "status": "proved",
   "theorems": [
    "Verif.C40_name_text",
    "Verif.C40_round_trip",
    "Verif.C40_injective",
    "Verif.C40_other_length",
    "Verif.C40_other_length_bytes",
    "Verif.C40_bytes",
    "Verif.C40_parent_file",
    "Verif.C40_parent_file_short",
    "Verif.C40_rollup_file",
    "Verif.C40_exact",
    "Verif.C40_read",
    "Verif.C40_panic_exact",
    "Verif.C40_parent_exact",
    "Verif.C40_rollup_exact",
    "Verif.C40_accepted",
    "Verif.C40_ascii_no_panic",
    "Verif.C40_panics"
   ],
   "note": "Names, parent files and rollup files, at the level of bytes. C40_exact says which texts are read as names and with what values (C40_parent_exact, C40_rollup_exact for the files), C40_panic_exact which make the reader panic. C40_panics: some 40 byte text that is not ASCII makes the parser panic."
  },
  {
   "property": "C41",
   "status": "proved",
   "theorems": [
    "Verif.C41_archived_files",
    "Verif.C41_unchanged",
    "Verif.C41_parent",
    "Verif.C41_file_order",
    "Verif.archive_read_past_end"
   ],
   "note": "For every history of creating, opening, writing, syncing and finalizing, every kind of file, every offset in the file and every sequence of reads. Each call is one step. Beside the property: an offset past the end panics (last theorem)."
  },
  {
   "property": "C42",
   "status": "partial",
   "theorems": [
    "Verif.C42_rollup_file_partial",
    "Verif.C42_size_wrong",
    "Verif.C42_register"
   ],
   "note": "Existence, mapped and streamed contents and the registered rollup agree for every history. The reported size is wrong for every rollup file (C42_size_wrong)."
  },
  {
   "property": "C43",
   "status": "partial",
   "theorems": [
    "Verif.LruArch.C43_read_right_partial",
    "Verif.LruArch.C43_no_panic",
    "Verif.LruArch.C43_read_miss",
    "Verif.LruArch.C43_miss_absent",
    "Verif.LruArch.C43_read_existing_partial",
    "Verif.LruArch.C43_no_deadlock",
    "Verif.LruArch.C43_read_prefix",
    "Verif.LruArch.C43_stored",
    "Verif.LruArch.C43_metadata_partial",
    "Verif.LruArch.C43_file_metadata_partial",
    "Verif.LruArch.C43_file_bytes",
    "Verif.LruArch.C43_file_stream",
    "Verif.LruArch.C43_never_evicts",
    "Verif.Lru.C43_makes_room",
    "Verif.Lru.C43_room",
    "Verif.LruArch.C43_limit_wrong",
    "Verif.LruArch.C43_store_ignores_limit",
    "Verif.LruArch.C43_stale_miss_wrong",
    "Verif.LruArch.C43_torn_wrong",
    "Verif.LruArch.C43_cancel_wedges",
    "Verif.LruArch.C43_cancel_panics",
    "Verif.LruArch.C43_cancel_reached"
   ],
   "note": "Transparency is proved for every interleaving of reads and stores, with two exceptions that are shown: a stale miss, and a layer that is read while its file is being written. The bound is false: the code never drops an entry (C43_limit_wrong), because it never counts what it holds; the function that makes room is right (C43_makes_room)."
  },
  {
   "property": "C44",
   "status": "proved",
   "theorems": [
    "Verif.C44_construction_file",
    "Verif.C44_unchanged"
   ],
   "note": "For every sequence of calls, by any number of tasks, and every sequence of reads."
  },
  {
   "property": "C45",
   "status": "proved",
   "theorems": [
    "Verif.C45_pack_round_trip"
   ],
   "note": "For every pair of the three kinds of stores, every selection of complete layers and every order in which the names are walked. The destination must not have the layers yet. A pack is the list of its entries: tar and gzip are trusted. The reference to a rollup is not taken along, on purpose (src/storage/pack.rs:215-218)."
  },
  {
   "property": "C46",
   "status": "proved",
   "theorems": [
    "Verif.C46_pack_parents",
    "Verif.C46_entry_order",
    "Verif.C46_exported_parents"
   ],
   "note": "For every list of entries. If a pack has two parent files for one layer that differ, the last one counts; such a pack is never exported."
  },
  {
   "property": "C47",
   "status": "partial",
   "theorems": [
    "Verif.C47_others_partial",
    "Verif.C47_missing_appears",
    "Verif.C47_memory_emptied",
    "Verif.C47_archive_panics"
   ],
   "note": "False as stated: a name that is not in the pack gives a new empty layer in all stores, empties an existing layer in memory and panics in an archive store if the layer exists. Layers that are not asked for are untouched, and in a directory store also existing layers that are not in the pack."
  },
  {
   "property": "C48",
   "status": "partial",
   "theorems": [
    "Verif.C48_memory_partial",
    "Verif.C48_directory_wrong",
    "Verif.C48_archive_wrong"
   ],
   "note": "Holds for stores in memory. False for directory stores (the listing is an error as soon as there is a layer) and archive stores (only the layers under construction are listed)."
  },
  {
   "property": "C49",
   "status": "partial",
   "theorems": [
    "Verif.C49_changes_upto",
    "Verif.C49_changes_upto_cached_partial",
    "Verif.C49_cached_wrong",
    "Verif.C49_layer_changes_partial",
    "Verif.C49_layer_changes_repeats",
    "Verif.C49_layer_changes_wrong"
   ],
   "note": "layer_changes_upto is right in every execution without a cache, and with a cache unless a rollup was rolled up (C49_cached_wrong). layer_changes is wrong for every layer with a parent: it gives the changes of the topmost layer once per layer of the stack (C49_layer_changes_repeats)."
  },
  {
   "property": "C50",
   "status": "partial",
   "theorems": [
    "Verif.C50_counts_partial",
    "Verif.C50_predicate_count_values",
    "Verif.C50_predicate_count_wrong"
   ],
   "note": "Right for nodes and values. For predicates the cached store returns the number of values of layers that are not cached."
  },
  {
   "property": "C51",
   "status": "proved",
   "theorems": [
    "Verif.C51_base_stream",
    "Verif.C51_child_stream",
    "Verif.World.C51_streams_in_store_partial"
   ],
   "note": "For every list of triples a layer can hold; the form about stored layers excludes rollups and merges that go wrong (C24, C25, C28)."
  },
  {
   "property": "C52",
   "status": "partial",
   "theorems": [
    "Verif.Proc.C52_layers_partial",
    "Verif.Proc.C52_contents_partial",
    "Verif.Proc.C52_never_wrong_partial",
    "Verif.Proc.C52_files_stay",
    "Verif.Proc.C52_parents",
    "Verif.Proc.C52_unfinished",
    "Verif.Proc.C52_heads",
    "Verif.Proc.C52_rollup_wrong",
    "Verif.Proc.C52_rollup_reader_wrong",
    "Verif.ArchStore.C52_archive_files",
    "Verif.ArchStore.C52_archive_rollup_partial",
    "Verif.ArchStore.C52_archive_rollup_wrong",
    "Verif.C52_import_others",
    "Verif.C52_import_again",
    "Verif.C52_import_again_wrong"
   ],
   "note": "False for rollup files: a crash while a rollup is registered leaves a torn rollup file, and the layer cannot be loaded any more (an error in a directory store, a panic in an archive store). In a directory store a load during the registration fails too. Importing a layer that is there may damage it if files are truncated. All other layers load and answer as before, every other file stays, no unfinished layer is a head, a parent or a rollup. Labels after a crash are C37."
  },
  {
   "property": "C53",
   "status": "proved",
   "theorems": [
    "Verif.World.C53_parents_end",
    "Verif.World.C53_parent_fixed",
    "Verif.World.C53_unknown"
   ],
   "note": "In every execution."
  },
  {
   "property": "C54",
   "status": "partial",
   "theorems": [
    "Verif.C54_dictionaries",
    "Verif.C54_changes_partial",
    "Verif.C54_changes_by_object_partial",
    "Verif.C54_parent_partial",
    "Verif.C54_missing",
    "Verif.C54_changes_by_object_wrong",
    "Verif.C54_parent_wrong",
    "Verif.C50_predicate_count_wrong"
   ],
   "note": "Exceptions, each with a witness: changes by object answered from the cache (as in C10), changes by predicate 0 (as in C09), the parent if a rollup was rolled up, the number of predicates (C50)."
  },
  {
   "property": "C55",
   "status": "proved",
   "theorems": [
    "Verif.C55_written",
    "Verif.C55_read_back",
    "Verif.C55_imported",
    "Verif.C55_copied",
    "Verif.C55_missing"
   ],
   "note": "For every layer of every execution (without the rollups and merges that go wrong, C24, C25, C28), every kind of store and every order of the writes. What single files hold is assumed to be read back (Coder, tdb-succinct); names, indexes into the tables, widths and absent files are modelled."
  },
  {
   "property": "C56",
   "status": "partial",
   "theorems": [
    "Verif.Api.C56_names_partial",
    "Verif.Api.C56_api_partial",
    "Verif.Api.C56_no_panic",
    "Verif.Api.C56_read_your_writes",
    "Verif.Api.C56_unknown_ids_fail",
    "Verif.Api.C56_apply_diff_fails"
   ],
   "note": "The sequential interface, in memory or on disk, refines the simple store, for every program up to its first call outside of the contract (`InContract`): rollups down to an ancestor across layers that are rolled up (C24, C25), predicate 0 (C09), ids that stand for nothing (C56_unknown_ids_fail), applying a difference to a committed builder (C56_apply_diff_fails), names of rollup layers. Changes by object are in the contract for objects that occur or are larger than all that occur (C10). Left out of the interface: export and import (see C63), counts of whole stacks (C50)."
  },
  {
   "property": "C57",
   "status": "proved",
   "theorems": [
    "Verif.LockedLabels.C57_locked_labels",
    "Verif.LockedLabels.C57_no_deadlock",
    "Verif.LockedLabels.C57_calls_end",
    "Verif.LockedLabels.C57_noreadlock_wrong"
   ],
   "note": "Every interleaving of system calls that the file locks allow, for the default features. With the feature noreadlock it would be wrong (C57_noreadlock_wrong). A caller may wait as long as new calls keep coming; without new calls all calls return."
  },
  {
   "property": "C58",
   "status": "proved",
   "theorems": [
    "Verif.World.C58_replication"
   ],
   "note": "For any two stores after any executions, and any executions of both afterwards, rollups and cache changes included (those excepted that go wrong under C24, C25 and C28). The layers get into the store one by one, parents first; that the files arrive as they were is C45 and C55. None of the layers is one that was written as a rollup (no call returns such names)."
  },
  {
   "property": "C59",
   "status": "proved",
   "theorems": [
    "Verif.LockedRollups.C59_linearizable",
    "Verif.LockedRollups.C59_no_panic",
    "Verif.LockedRollups.C59_read_written",
    "Verif.LockedRollups.C59_read_after",
    "Verif.LockedRollups.C59_no_deadlock",
    "Verif.LockedRollups.C59_calls_end",
    "Verif.LockedRollups.C59_noreadlock_wrong",
    "Verif.LockedRollups.C59_drop_wrong"
   ],
   "note": "Every interleaving of system calls that the file locks allow, for the default features. Outside of the property: with the feature noreadlock a reader can panic (C59_noreadlock_wrong), and if the future of set_rollup is dropped while it writes, all later readers panic (C59_drop_wrong)."
  },
  {
   "property": "C60",
   "status": "partial",
   "theorems": [
    "Verif.C60_one_at_a_time_partial",
    "Verif.C60_archived_files_partial",
    "Verif.C60_poisoned_forever",
    "Verif.C60_poison_wrong",
    "Verif.C60_get_finalize_wrong",
    "Verif.C60_lost_file_wrong",
    "Verif.C60_flicker_wrong"
   ],
   "note": "Proved for callers that do not create a layer twice, do not ask for one new file twice at once and do not finalize a layer while its files are asked for: calls are as if one at a time. Otherwise the property is false: creating a layer that is under construction (two imports of one layer, a list with a layer twice, or a second try after an import that failed) poisons the lock and every later call on the store panics (C60_poison_wrong, C60_poisoned_forever); a synced file can be lost (C60_lost_file_wrong); and a layer does not exist while it is being finalized (C60_flicker_wrong)."
  },
  {
   "property": "C61",
   "status": "partial",
   "theorems": [
    "Verif.C61_serializable_disk",
    "Verif.C61_serializable_memory",
    "Verif.C61_head_loads_partial",
    "Verif.C61_not_lost_disk",
    "Verif.C61_not_lost_memory"
   ],
   "note": "Serializability holds in full, for all label stores and every execution of the layer store, for graphs that are not deleted and moved with set_head only. Partial because of the clause on what loading the head gives (C61_head_loads_partial): executions with the rollups and merges that go wrong (C24, C25, C28) are left out there. That a layer which the head was read as keeps its name if rollups are rolled up is C31."
  },
  {
   "property": "C62",
   "status": "partial",
   "theorems": [
    "Verif.LockedLabels.C62_dropped_calls_partial",
    "Verif.LockedLabels.C62_no_deadlock",
    "Verif.LockedLabels.C62_calls_end",
    "Verif.LockedLabels.C62_drop_set_wrong",
    "Verif.LockedLabels.C62_drop_create_wrong"
   ],
   "note": "Partial because the code is wrong: a set_label or create_label that is dropped between truncating or making the file and writing it makes the label unusable until it is deleted (C62_drop_set_wrong, C62_drop_create_wrong). If no call is dropped there, everything holds (C62_dropped_calls_partial). That dropped calls do not block others holds without exception."
  },
  {
   "property": "C63",
   "status": "partial",
   "theorems": [
    "Verif.Net.C63_names_partial",
    "Verif.Net.C63_stores_partial",
    "Verif.Net.C63_no_panic",
    "Verif.Net.C63_write_here_read_there",
    "Verif.Net.C63_without_parent_fails"
   ],
   "note": "Any number of stores, each in memory or on disk, with all calls of C56 on each, and packs made of layers of one and taken over by another, for every program up to its first call outside of the contract (`InContract`): that of C56 for the calls on one store; packs are made of layers, not of rollups; imported are layers that the pack has and the store does not have, and not without their parents (C63_without_parent_fails). Names that are drawn at random are assumed to be different in all stores."
  },
  {
   "property": "C64",
   "status": "partial",
   "theorems": [
    "Verif.Conc.C64_concurrent_partial",
    "Verif.Conc.C64_kept_partial",
    "Verif.Conc.C64_sequential",
    "Verif.Conc.C64_lasting",
    "Verif.Conc.C64_same_triples",
    "Verif.Conc.C64_no_panic",
    "Verif.Conc.C64_set_head_fails",
    "Verif.Conc.C64_apply_diff_fails"
   ],
   "note": "All calls of C56 on a store in memory or on disk, any number at the same time, for every interleaving of their steps up to the first step of a call outside of the contract (`Conc.CState.InContract`): that of C56; a layer is not asked for by name while it is being committed; apply_diff not with a builder that is committed meanwhile (C64_apply_diff_fails). Calls that are dropped between two steps are included, as calls that make no further step; calls that are dropped while they write files are left out (see C62). Calls are not atomic in the strict sense: C64_set_head_fails."
  },
  {
   "property": "C65",
   "status": "partial",
   "theorems": [
    "Verif.Conc.C65_steps",
    "Verif.Conc.C65_more_steps",
    "Verif.Conc.C65_force_steps",
    "Verif.Conc.C65_alone_partial",
    "Verif.Conc.C65_search_partial"
   ],
   "note": "For the calls of C64 and the steps that the model gives them. C65_steps, C65_more_steps and C65_force_steps hold from every state; that the next step is always possible (C65_alone_partial) and that searches end (C65_search_partial) are for runs up to the first step of a call outside of the contract of C64. Taking a lock of the label store or of a builder is part of a step: that a lock that is free is given to someone who waits is left to the runtime."
  },
  {
   "property": "C66",
   "status": "partial",
   "theorems": [
    "Verif.Conc.C66_lives_partial",
    "Verif.Conc.C66_kept_partial",
    "Verif.Conc.C66_same_triples",
    "Verif.Conc.C66_heads"
   ],
   "note": "Any number of processes one after the other on a store on disk, each with all calls of C64, stopped between any two steps, with the contract of C64. Names of builders that made no layer, and names of layers whose files were not all written, stay in use and are not to be asked for. That a process stops in the middle of writing a label, a rollup file or the files of a layer is C37, C38 and C52, where what is then found is shown file by file; here only the complete layer or none is left. Processes at the same time on one directory are C68."
  },
  {
   "property": "C67",
   "status": "partial",
   "theorems": [
    "Verif.Conc.C67_store_partial",
    "Verif.Conc.C67_not_lost",
    "Verif.Conc.C67_in_order",
    "Verif.Conc.C67_one_line",
    "Verif.Conc.C67_versions"
   ],
   "note": "C67_not_lost, C67_in_order, C67_one_line and C67_versions are about all that the simple store of C64 and C66 allows; C67_store_partial is about the model of the store, in memory (one process) or on disk (any number), unless a call goes on outside of the contract of C64. The others carry over in the same way with C64_kept_partial and C66_kept_partial."
  },
  {
   "property": "C68",
   "status": "partial",
   "theorems": [
    "Verif.Conc.C68_processes_partial",
    "Verif.Conc.C68_kept_partial",
    "Verif.Conc.C68_same_triples",
    "Verif.Conc.C68_heads_partial"
   ],
   "note": "Any number of processes at the same time on a store on disk, each with all calls of C64 and a cache of its own; they begin and are killed at any moment between two steps, and when none is left others may begin (C66). The contract is that of C64. C68_same_triples is about all that the simple store allows, and carries over with C68_kept_partial. That a process is killed in the middle of writing a file is C37, C38 and C52. Labels are those of DirectoryLabelStore, which all open functions use; CachedDirectoryLabelStore keeps labels in memory and would not see those of other processes. That the locks of files work across processes is trusted."
  },
  {
   "property": "C69",
   "status": "partial",
   "theorems": [
    "Verif.Trade.C69_exchange_partial",
    "Verif.Trade.C69_kept_partial",
    "Verif.Trade.C69_ends_partial",
    "Verif.Trade.C69_same_layer",
    "Verif.Trade.C69_imported",
    "Verif.Trade.C69_packed"
   ],
   "note": "Any number of stores, each in memory or on disk and with all calls of C64 at the same time, and any number of calls with packs, for every interleaving up to the first step of a call outside of the contract: that of C64; an import is of layers that the pack has and the store has not, with their parents (C63_without_parent_fails), and no other call asks for, exports or imports a layer while it is being imported. The files of one layer are read, and written, in one step; layers are written parents first. New names are new in all stores (names are random numbers of 160 bits). C69_same_layer, C69_imported and C69_packed are about all that the simple stores allow, and carry over with C69_kept_partial."
  },
  {
   "property": "C70",
   "status": "partial",
   "theorems": [
    "Verif.Conc.C70_added",
    "Verif.Conc.C70_removed",
    "Verif.Conc.C70_both",
    "Verif.Conc.C70_untouched",
    "Verif.Conc.C70_once",
    "Verif.Conc.C70_layer",
    "Verif.Conc.C70_store_partial",
    "Verif.Conc.C70_processes_partial"
   ],
   "note": "C70_added, C70_removed, C70_both, C70_untouched, C70_once and C70_layer are about all that the simple store allows, in the first or a later process. C70_store_partial and C70_processes_partial carry them over to the model of the store in memory or on disk and of processes that share it, up to the first step of a call outside of the contract (as in C64 and C68). Additions and removals by ids and from other layers count as possible changes of every triple (MayAdd, MayRemove)."
  },
  {
   "property": "C71",
   "status": "partial",
   "theorems": [
    "Verif.RollupFile.C71_register_partial",
    "Verif.RollupFile.C71_read_written_partial",
    "Verif.RollupFile.C71_read_after_partial",
    "Verif.RollupFile.C71_pieces_read",
    "Verif.RollupFile.C71_pieces_write",
    "Verif.RollupFile.C71_calls_end",
    "Verif.RollupFile.C71_unreadable_wrong",
    "Verif.RollupFile.C71_mixed_wrong"
   ],
   "note": "There are no locks. If the 43 bytes of a rollup file are read and written in one piece, then rollups are registered and read at single moments, except that a caller can get an error while a rollup of that layer is being registered; so the property is false (C71_unreadable_wrong). C71_read_after_partial: without registrations under way the last one is found. C71_pieces_read and C71_pieces_write: in pieces of any size, if nobody else registers a rollup of that layer meanwhile. C71_calls_end: calls return, whatever the others do. If files are read or written in several pieces at the same time, a rollup that nobody registered can be found (C71_mixed_wrong)."
  }
 ]
}