{"id": "C01", "title": "Commit applies exactly the requested changes", "statement": "After any sequence of add_value_triple/remove_value_triple calls on a builder opened on a layer (or on no layer) and a successful commit, a value triple exists in the new layer iff: it was both added and removed in the builder and it existed in the parent; or it was only added; or it was only removed and then it does not exist; or it was not mentioned and it existed in the parent.", "quantifier": "every parent layer stack, every finite sequence of add and remove calls, every value triple", "why_tests_cant": "the set of builder histories and parent stacks is unbounded; tests only sample a few triples and shallow stacks", "anchors": ["src/layer/simple_builder.rs:calculate_triple", "src/layer/simple_builder.rs:commit", "src/layer/internal/child.rs:add_id_triples", "src/layer/internal/child.rs:remove_id_triples", "src/layer/layer.rs:value_triple_exists"]}
{"id": "C02", "title": "Builder calls are order and duplication independent", "statement": "Two sequences of value triple calls that request the same set of additions and the same set of removals commit to layers with identical dictionaries, identical ids and identical triples, whatever the order, interleaving or repetition of the calls and whatever the iteration order of the builder's internal hash maps.", "quantifier": "every parent layer, every pair of call sequences with the same sets of additions and removals, every hash map iteration order", "why_tests_cant": "orders and hash seeds cannot be enumerated; temporary ids depend on call order", "anchors": ["src/layer/simple_builder.rs:calculate_triple", "src/layer/simple_builder.rs:commit"]}
{"id": "C03", "title": "Adding and removing the same triple is a no-op", "statement": "A triple that is both added and removed in the same builder, in either order and any number of times, leaves the existence of that triple as it was in the parent, appears neither in triple_additions nor in triple_removals of the new layer, and brings no string into the dictionaries of the new layer by itself.", "quantifier": "every parent, every history that contains both an addition and a removal of the triple", "why_tests_cant": "requires all interleavings with other triples sharing strings", "anchors": ["src/layer/simple_builder.rs:commit"]}
{"id": "C04", "title": "triples() enumerates exactly the existing triples, sorted, once", "statement": "For every layer, triples() yields a strictly increasing (subject, predicate, object) sequence of id triples, and an id triple is yielded iff triple_exists reports true for it.", "quantifier": "every layer stack depth, every dictionary and triple content, every id triple including 0 and out of range ids", "why_tests_cant": "unbounded stack depth and re-addition after removal histories", "anchors": ["src/layer/internal/subject_iterator.rs:InternalTripleSubjectIterator::next", "src/layer/internal/mod.rs:triple_exists", "src/layer/internal/mod.rs:layer_triple_exists", "src/layer/internal/mod.rs:sp_o_position"]}
{"id": "C05", "title": "triples_s and triples_sp are the filters of triples()", "statement": "triples_s(s) yields exactly the triples of triples() with subject s, and triples_sp(s,p) exactly those with subject s and predicate p, in the same order, for every s and p (including 0, gaps and ids past the end), without panicking.", "quantifier": "every layer stack, every subject id, every predicate id", "why_tests_cant": "seek positions in succinct structures have many boundary cases (gaps, first, last, absent) that multiply with stack depth", "anchors": ["src/layer/internal/subject_iterator.rs:seek_subject_ref", "src/layer/internal/subject_iterator.rs:seek_subject_predicate_ref", "src/layer/internal/mod.rs:triples_s", "src/layer/internal/mod.rs:triples_sp"]}
{"id": "C06", "title": "triples_p is the filter of triples()", "statement": "triples_p(p) yields exactly the triples of triples() whose predicate is p, in the order of triples(), for every p.", "quantifier": "every layer stack, every predicate id including 0 and ids never used", "why_tests_cant": "depends on every combination of gap subjects and predicate positions", "anchors": ["src/layer/internal/predicate_iterator.rs:InternalLayerTriplePredicateIterator::next", "src/layer/internal/predicate_iterator.rs:InternalTriplePredicateIterator::next", "src/layer/internal/mod.rs:triples_p", "src/layer/builder.rs:build_predicate_index"]}
{"id": "C07", "title": "triples_o is the filter of triples()", "statement": "triples_o(o) yields exactly the triples of triples() whose object is o, ordered by subject then predicate, for every o.", "quantifier": "every layer stack, every object id including 0, gaps and ids past the end", "why_tests_cant": "the object index is a sorted transposition of the triple structure; correctness is for all contents", "anchors": ["src/layer/internal/object_iterator.rs:InternalLayerTripleObjectIterator::next", "src/layer/internal/object_iterator.rs:InternalTripleObjectIterator::next", "src/layer/builder.rs:build_object_index_from_direct_files", "src/layer/internal/mod.rs:triples_o"]}
{"id": "C08", "title": "single_triple_sp is sound and complete", "statement": "single_triple_sp(s,p) returns Some(t) only if t exists in the layer with subject s and predicate p, and returns None only if no triple with that subject and predicate exists.", "quantifier": "every layer stack, every subject and predicate id", "why_tests_cant": "depends on all add/remove/re-add histories of one subject-predicate pair", "anchors": ["src/layer/internal/mod.rs:single_triple_sp", "src/layer/internal/mod.rs:sp_o_position"]}
{"id": "C09", "title": "Layer additions and removals are the exact difference with the parent", "statement": "For a committed layer with a parent, triple_additions yields exactly the triples that exist in the layer and not in the parent, triple_removals exactly those that exist in the parent and not in the layer, both strictly sorted; they are disjoint, and triple_addition_exists / triple_removal_exists and the _s, _sp, _p variants agree with them.", "quantifier": "every parent stack, every builder history, every id", "why_tests_cant": "the claim is about every history of no-op requests (adding existing, removing absent triples)", "anchors": ["src/layer/internal/child.rs:add_id_triples", "src/layer/internal/child.rs:remove_id_triples", "src/layer/internal/mod.rs:internal_triple_additions", "src/layer/internal/mod.rs:internal_triple_removals", "src/storage/layer.rs:triple_additions", "src/store/mod.rs:StoreLayer"]}
{"id": "C10", "title": "triple_additions_o and triple_removals_o return only the asked object", "statement": "triple_additions_o(o) and triple_removals_o(o) yield exactly the layer additions/removals whose object is o, whether the layer is in the layer cache or read from storage.", "quantifier": "every layer, every object id including ids with no addition in the layer, both cache states", "why_tests_cant": "whether the cached or the stored path runs depends on cache history and drop timing", "anchors": ["src/layer/internal/mod.rs:internal_triple_additions_o", "src/layer/internal/mod.rs:internal_triple_removals_o", "src/storage/layer.rs:triple_additions_o", "src/storage/cache.rs:triple_additions_o"]}
{"id": "C11", "title": "Counts equal the number of triples", "statement": "triple_layer_addition_count, triple_layer_removal_count, triple_addition_count, triple_removal_count and triple_count equal the lengths of the corresponding enumerations; triple_count never underflows.", "quantifier": "every layer stack", "why_tests_cant": "stub entries for gap ids must be discounted exactly, for every gap pattern", "anchors": ["src/layer/internal/mod.rs:internal_triple_layer_addition_count", "src/layer/internal/mod.rs:internal_triple_layer_removal_count", "src/layer/layer.rs:triple_count", "src/storage/layer.rs:file_triple_layer_count"]}
{"id": "C12", "title": "Dictionary round trips", "statement": "For every layer, subject_id(s)=Some(i) iff id_subject(i)=Some(s); the same for predicates; object_node_id and object_value_id are inverse to id_object; every id in 1..=node_and_value_count (resp. predicate_count) resolves, and 0 or larger ids resolve to None.", "quantifier": "every layer stack including rolled up layers, every string, every id", "why_tests_cant": "offset arithmetic across arbitrarily deep stacks and id maps", "anchors": ["src/layer/internal/mod.rs:subject_id", "src/layer/internal/mod.rs:id_subject", "src/layer/internal/mod.rs:predicate_id", "src/layer/internal/mod.rs:id_predicate", "src/layer/internal/mod.rs:object_value_id", "src/layer/internal/mod.rs:id_object", "src/layer/internal/mod.rs:id_object_is_node", "src/layer/id_map.rs:IdMap"]}
{"id": "C13", "title": "Ids are stable in descendants", "statement": "An id that resolves in a layer resolves to the same string (or value) in every layer committed on top of it, and a string that has an id in a layer has the same id in every descendant.", "quantifier": "every layer, every chain of commits on top of it, every id and string", "why_tests_cant": "chains are unbounded", "anchors": ["src/layer/simple_builder.rs:commit", "src/layer/internal/mod.rs:subject_id", "src/layer/internal/mod.rs:id_subject", "src/layer/internal/child.rs:add_node"]}
{"id": "C14", "title": "Node and value namespaces never collide", "statement": "A string used as a node and the same text used as a value get different ids; id_object and id_object_is_node report the kind it was added with; id_subject never resolves a value id.", "quantifier": "every layer stack, every pair of node and value", "why_tests_cant": "collisions depend on offsets produced by arbitrary histories", "anchors": ["src/layer/simple_builder.rs:calculate_triple", "src/layer/internal/mod.rs:object_value_id", "src/layer/internal/mod.rs:id_object", "src/layer/internal/mod.rs:id_object_is_node", "src/layer/internal/mod.rs:id_subject"]}
{"id": "C15", "title": "Dictionaries hold no duplicates and no unused entries", "statement": "A layer committed from a builder adds to the dictionaries exactly the strings that are unknown to the parent and used by a triple that was added and not also removed; no string has two ids anywhere in the stack; the new dictionary segments are strictly sorted.", "quantifier": "every parent, every builder history", "why_tests_cant": "depends on every combination of cancelled operations sharing strings", "anchors": ["src/layer/simple_builder.rs:commit", "src/layer/internal/child.rs:add_node", "src/layer/internal/child.rs:add_predicate", "src/layer/internal/child.rs:add_value"]}
{"id": "C16", "title": "Value and id triple conversions round trip", "statement": "value_triple_to_id and id_triple_to_string are mutually inverse on resolvable triples, value_triple_exists agrees with triple_exists on the converted triple, value_triple_to_partially_resolved followed by resolve_with over maps for the unresolved strings gives the same ids as full resolution.", "quantifier": "every layer stack, every triple", "why_tests_cant": "all kinds of partial resolution and all stacks", "anchors": ["src/layer/layer.rs:value_triple_to_id", "src/layer/layer.rs:id_triple_to_string", "src/layer/layer.rs:value_triple_exists", "src/layer/layer.rs:value_triple_to_partially_resolved", "src/layer/layer.rs:PartiallyResolvedTriple::resolve_with"]}
{"id": "C17", "title": "Commit never panics on value triples", "statement": "For any sequence of value triple additions and removals, commit never hits the ordering panics of the dictionary, triple file or adjacency list builders, nor an out of bounds index, and the resulting structures pass all their well-formedness requirements.", "quantifier": "every parent stack, every sequence of value triple operations", "why_tests_cant": "panics are conditions over all sorted/remapped inputs", "anchors": ["src/layer/simple_builder.rs:commit", "src/layer/builder.rs:TripleFileBuilder::add_triple", "src/layer/builder.rs:DictionarySetFileBuilder"]}
{"id": "C18", "title": "Id triple operations behave like their resolved value triples", "statement": "add_id_triple/remove_id_triple with ids known to the parent have the same effect as the value triple operations on the strings those ids stand for; with unknown ids commit must not panic and must not touch unrelated triples.", "quantifier": "every parent, every mix of id and value operations, every id", "why_tests_cant": "ids are arbitrary u64; aliasing with temporary ids depends on the mix of calls", "anchors": ["src/layer/simple_builder.rs:add_id_triple", "src/layer/simple_builder.rs:remove_id_triple", "src/layer/simple_builder.rs:commit"]}
{"id": "C19", "title": "Ancestors and siblings are immutable", "statement": "Opening builders on a layer, committing children, rolling up, squashing, exporting or importing other layers and changing labels never changes the answer of any query on an existing layer.", "quantifier": "every layer, every later history of store operations", "why_tests_cant": "histories are unbounded", "anchors": ["src/storage/layer.rs:create_child_layer", "src/storage/layer.rs:create_base_layer", "src/storage/directory.rs:create_named_directory", "src/storage/memory.rs:create_named_directory", "src/storage/pack.rs:import_layers"]}
{"id": "C20", "title": "A builder commits at most once", "statement": "For any interleaving of threads calling commit/commit_no_load/add/remove on one store layer builder, at most one commit takes the contents, every call after it returns an error and has no effect, and the committed contents are exactly the operations that were applied before it.", "quantifier": "every interleaving of any number of callers", "why_tests_cant": "schedules cannot be enumerated by tests", "anchors": ["src/store/mod.rs:StoreLayerBuilder::with_builder", "src/store/mod.rs:StoreLayerBuilder::commit_no_load", "src/store/mod.rs:StoreLayerBuilder::committed", "src/store/mod.rs:StoreLayerBuilder::apply_delta"]}
{"id": "C21", "title": "apply_delta replays the delta", "statement": "Committing a builder after apply_delta(delta) on a layer L gives a layer whose value triples are those of L minus the triples removed by delta plus the triples added by delta, independent of the parallel order in which the triples are visited.", "quantifier": "every L, every delta layer (from any stack), every parallel schedule", "why_tests_cant": "parallel orders and unrelated id spaces", "anchors": ["src/store/mod.rs:StoreLayerBuilder::apply_delta"]}
{"id": "C22", "title": "apply_diff reaches the other layer's contents", "statement": "Committing a builder opened on L after apply_diff(other) gives a layer with exactly the value triples of other, for layers from unrelated stacks.", "quantifier": "every pair of layers, every parallel schedule", "why_tests_cant": "parallel orders and unrelated id spaces", "anchors": ["src/store/mod.rs:StoreLayerBuilder::apply_diff"]}
{"id": "C23", "title": "Rollup is transparent", "statement": "After rollup of a layer, reloading it gives the same name, the same parent name, the same id for every string, the same string for every id, the same triples in the same order and the same counts of nodes, values, predicates and triples.", "quantifier": "every layer stack, including stacks that already contain rollups, every query", "why_tests_cant": "id maps are permutations determined by arbitrary dictionaries at arbitrary depth", "anchors": ["src/storage/delta.rs:delta_rollup", "src/storage/delta.rs:dictionary_rollup", "src/layer/id_map.rs:construct_idmaps_from_structures", "src/layer/internal/rollup.rs:RollupLayer", "src/storage/layer.rs:perform_rollup", "src/storage/layer.rs:get_layer_with_cache"]}
{"id": "C24", "title": "Rollup up to an ancestor is transparent", "statement": "After rollup_upto(layer, ancestor) the reloaded layer answers every query as before, whatever rollups exist in between.", "quantifier": "every stack, every ancestor, every earlier rollup history", "why_tests_cant": "the number of rollup histories is unbounded", "anchors": ["src/storage/delta.rs:delta_rollup_upto", "src/storage/delta.rs:dictionary_rollup_upto", "src/storage/layer.rs:perform_rollup_upto_with_cache"]}
{"id": "C25", "title": "Imprecise rollup is transparent", "statement": "After imprecise_rollup_upto(layer, ancestor) the reloaded layer answers every query as before, whatever rollups exist in between.", "quantifier": "every stack, every ancestor, every earlier rollup history", "why_tests_cant": "the number of rollup histories is unbounded", "anchors": ["src/storage/delta.rs:imprecise_delta_rollup_upto", "src/storage/delta.rs:safe_upto_bound", "src/storage/layer.rs:perform_imprecise_rollup_upto_with_cache"]}
{"id": "C26", "title": "Squash preserves contents in a fresh base layer", "statement": "squash(layer) creates a layer without parent whose value triples are exactly those of the layer, leaving the layer itself unchanged.", "quantifier": "every layer stack", "why_tests_cant": "id remapping over arbitrary stacks", "anchors": ["src/storage/layer.rs:squash", "src/store/mod.rs:StoreLayer::squash"]}
{"id": "C27", "title": "Squash up to an ancestor preserves contents and parentage", "statement": "squash_upto(layer, ancestor) creates a layer whose parent is the ancestor and whose value triples are exactly those of the layer.", "quantifier": "every stack, every strict ancestor", "why_tests_cant": "id remapping over arbitrary stacks", "anchors": ["src/storage/layer.rs:squash_upto", "src/store/mod.rs:StoreLayer::squash_upto"]}
{"id": "C28", "title": "Merging base layers is set union", "statement": "merge_base_layers creates a base layer whose value triples are the union of the value triples of the given base layers, with dictionaries that hold each string once, whatever the number, order and overlap of the layers.", "quantifier": "every list of base layers built by the builder", "why_tests_cant": "arbitrary overlap patterns", "anchors": ["src/layer/internal/base_merge.rs:merge_base_layers", "src/layer/internal/base_merge.rs:map_triple", "src/storage/layer.rs:merge_base_layer"]}
{"id": "C29", "title": "Ancestry check equals reachability through parents", "statement": "layer_is_ancestor_of(descendant, ancestor) answers true iff ancestor is reached from descendant by following parent links zero or more times.", "quantifier": "every finite parent graph that commits can create, every pair of names", "why_tests_cant": "depth is unbounded", "anchors": ["src/storage/layer.rs:layer_is_ancestor_of", "src/storage/layer.rs:read_parent_file"]}
{"id": "C30", "title": "Layer stack names list the parent chain", "statement": "retrieve_layer_stack_names returns the parent chain of a layer oldest first ending in the layer; the _upto variant returns exactly the names strictly above the bound and fails iff the bound is not a strict ancestor.", "quantifier": "every store history, every pair of names", "why_tests_cant": "depth is unbounded", "anchors": ["src/storage/layer.rs:retrieve_layer_stack_names", "src/storage/layer.rs:retrieve_layer_stack_names_upto"]}
{"id": "C31", "title": "Retrieved layers are the committed layers", "statement": "get_layer(name) returns a layer with that name, with the parent recorded at creation and with the contents that were committed, for every state of the layer cache and every set of registered rollups.", "quantifier": "every store history of commits, rollups, cache drops and lookups", "why_tests_cant": "cache states depend on drop timing and history", "anchors": ["src/storage/layer.rs:get_layer_with_cache", "src/storage/cache.rs:LockingHashMapLayerCache", "src/storage/cache.rs:CachedLayerStore"]}
{"id": "C32", "title": "Label compare-and-swap is exact", "statement": "set_label succeeds only if the stored label still is the label the caller read; each success raises the version by exactly one; of any set of concurrent updates from the same read version at most one succeeds; failures change nothing.", "quantifier": "every label store backend, every interleaving of label operations by any number of clients", "why_tests_cant": "interleavings cannot be enumerated", "anchors": ["src/storage/memory.rs:MemoryLabelStore", "src/storage/directory.rs:DirectoryLabelStore::set_label_option", "src/storage/directory.rs:CachedDirectoryLabelStore::set_label_option", "src/storage/label.rs:with_updated_layer"]}
{"id": "C33", "title": "set_head only moves a graph forward", "statement": "Whenever set_head reports success, the graph's head just before was empty or an ancestor of the new head, for every interleaving with other set_head, force_set_head, delete and create calls.", "quantifier": "every interleaving of any number of clients, every backend", "why_tests_cant": "time-of-check to time-of-use windows only show under specific schedules", "anchors": ["src/store/mod.rs:NamedGraph::set_head", "src/storage/layer.rs:layer_is_ancestor_of", "src/storage/memory.rs:set_label_option", "src/storage/directory.rs:set_label_option"]}
{"id": "C34", "title": "force_set_head takes effect exactly once", "statement": "force_set_head returns success only after its layer was the stored head at some version during the call, it advances the version by exactly one in total, retries only when another update succeeded in between, and does not overwrite an unseen label.", "quantifier": "every interleaving", "why_tests_cant": "retry loops depend on schedules", "anchors": ["src/store/mod.rs:NamedGraph::force_set_head"]}
{"id": "C35", "title": "force_set_head_version respects the expected version", "statement": "force_set_head_version(layer, v) succeeds iff at its linearization point the label has version v, leaving version v+1 with the given layer; otherwise it changes nothing and reports false.", "quantifier": "every interleaving, every version", "why_tests_cant": "schedules", "anchors": ["src/store/mod.rs:NamedGraph::force_set_head_version"]}
{"id": "C36", "title": "Label files round trip", "statement": "Writing a label to its file and reading it back gives the same version and layer; any file content that is not exactly a version line followed by an empty or 40 hex digit line is rejected with an error.", "quantifier": "every version, every layer name, every byte string", "why_tests_cant": "all byte strings", "anchors": ["src/storage/directory.rs:get_label_from_data", "src/storage/directory.rs:DirectoryLabelStore::set_label_option"]}
{"id": "C37", "title": "Label updates survive crashes", "statement": "If the process stops at any point during an update of a label file, the next read returns either the old label or the new label.", "quantifier": "every crash point between the file operations, every pair of labels", "why_tests_cant": "crash points cannot be driven by unit tests", "anchors": ["src/storage/directory.rs:DirectoryLabelStore::set_label_option", "src/storage/directory.rs:create_label"]}
{"id": "C38", "title": "The cached label store agrees with its directory", "statement": "After any sequence of operations on the cached directory label store, reopening the directory yields the same labels.", "quantifier": "every operation sequence, including clearing a label", "why_tests_cant": "sequences are unbounded", "anchors": ["src/storage/directory.rs:CachedDirectoryLabelStore"]}
{"id": "C39", "title": "Label namespace behaves like a map", "statement": "create fails iff the label exists and otherwise starts at version 0 with no layer; get returns the last stored value; delete reports whether it existed and removes it; labels lists exactly the existing labels; operations on one label never affect another.", "quantifier": "every sequence of operations on any number of labels", "why_tests_cant": "sequences are unbounded", "anchors": ["src/storage/memory.rs:MemoryLabelStore", "src/storage/directory.rs:DirectoryLabelStore", "src/storage/directory.rs:CachedDirectoryLabelStore", "src/store/mod.rs:Store::create"]}
{"id": "C40", "title": "Layer names round trip through text and bytes", "statement": "name_to_string is injective with 40 lower case hex digits, string_to_name inverts it, and strings of any other length are rejected with an error; parent files and rollup files written by the store are read back to the same name.", "quantifier": "every name, every string", "why_tests_cant": "all 160 bit names and all strings", "anchors": ["src/storage/layer.rs:name_to_string", "src/storage/layer.rs:string_to_name", "src/storage/layer.rs:bytes_to_name", "src/storage/layer.rs:write_parent_file", "src/storage/layer.rs:read_parent_file", "src/storage/layer.rs:write_rollup_file", "src/storage/layer.rs:read_rollup_file"]}
{"id": "C41", "title": "Archived layers return exactly the written bytes", "statement": "After finalizing a layer under construction, each file written to it reads back byte for byte (whole, from an offset, through any sequence of partial reads), its size is reported exactly, and files not written are reported absent.", "quantifier": "every set of files with any contents, every file kind, every read pattern", "why_tests_cant": "all contents and all 2^50 presence patterns", "anchors": ["src/storage/archive.rs:ArchiveLayerStore::finalize", "src/storage/archive.rs:ArchiveHeader", "src/storage/archive.rs:ArchiveFilePresenceHeader", "src/storage/archive.rs:ArchiveSliceReader", "src/storage/archive.rs:DirectoryArchiveBackend"]}
{"id": "C42", "title": "Archive rollup files report their true size and contents", "statement": "For the rollup file of an archived layer, size, mapped bytes and streamed bytes describe the same content, and reading it gives the registered rollup.", "quantifier": "every layer and rollup name", "why_tests_cant": "requires agreement of three code paths for every name", "anchors": ["src/storage/archive.rs:ArchiveRollupFile", "src/storage/archive.rs:set_rollup", "src/storage/archive.rs:get_rollup"]}
{"id": "C43", "title": "The archive memory cache is transparent and bounded", "statement": "Reads through the LRU archive backend return the same bytes as direct reads for every interleaving of readers and evictions, and the bytes held never exceed the configured limit.", "quantifier": "every access sequence, every set of layer sizes, every limit", "why_tests_cant": "access histories are unbounded", "anchors": ["src/storage/archive.rs:LruArchiveBackend"]}
{"id": "C44", "title": "Files under construction are written once", "statement": "A file under construction becomes readable only after it is synced, its contents are then the concatenation of everything written before, and later writes or syncs fail without changing it.", "quantifier": "every sequence of writes, syncs and reads", "why_tests_cant": "sequences are unbounded", "anchors": ["src/storage/archive.rs:ConstructionFile"]}
{"id": "C45", "title": "Packs round trip", "statement": "Exporting any set of layers and importing the pack into another store gives layers with the same name, parent and file contents; importing only some ids creates only those layers.", "quantifier": "every set of layers, every selection, every backend pair", "why_tests_cant": "all layer contents and selections", "anchors": ["src/storage/pack.rs:export_layers", "src/storage/pack.rs:import_layers", "src/storage/pack.rs:tar_append_layer", "src/storage/consts.rs:SHARED_REQUIRED_FILES"]}
{"id": "C46", "title": "Pack parent listing is exact", "statement": "pack_layer_parents returns exactly the layers in the pack, each with the parent that the pack records for it, whatever the order of the entries.", "quantifier": "every pack, every entry order", "why_tests_cant": "entry orders", "anchors": ["src/storage/pack.rs:pack_layer_parents"]}
{"id": "C47", "title": "Importing an id that is not in the pack has no effect", "statement": "Layer ids given to import_layers that are not in the pack are ignored: no layer with that id appears and an existing layer with that id is untouched.", "quantifier": "every pack, every list of ids, every store state", "why_tests_cant": "store states", "anchors": ["src/storage/pack.rs:import_layers", "src/storage/memory.rs:create_named_directory", "src/storage/archive.rs:create_named_directory"]}
{"id": "C48", "title": "Store listing returns the stored layers", "statement": "layers() returns exactly the names of the layers that were created in the store.", "quantifier": "every store history, every backend", "why_tests_cant": "histories", "anchors": ["src/storage/directory.rs:directories", "src/storage/archive.rs:get_layer_names", "src/storage/memory.rs:directories", "src/storage/layer.rs:layers"]}
{"id": "C49", "title": "Change iterators give the net difference", "statement": "layer_changes_upto(layer, ancestor) yields exactly the triples that exist in one of the two layers and not the other, each once, in order, labelled addition or removal; layer_changes(layer) does the same against the empty layer.", "quantifier": "every stack, every strict ancestor", "why_tests_cant": "cancelling histories of unbounded length", "anchors": ["src/storage/layer.rs:layer_changes", "src/storage/layer.rs:layer_changes_upto", "src/layer/internal/subject_iterator.rs:InternalTripleStackIterator"]}
{"id": "C50", "title": "Dictionary counts do not depend on the cache", "statement": "get_node_count, get_predicate_count and get_value_count return the number of entries of the layer's own dictionary of that kind, whether or not the layer is cached or rolled up.", "quantifier": "every layer, every cache state", "why_tests_cant": "cache states", "anchors": ["src/storage/cache.rs:get_predicate_count", "src/storage/layer.rs:get_predicate_count"]}
{"id": "C51", "title": "Triple streams equal the iterators", "statement": "The streaming readers of base and child layers yield the same triples as the in-memory iterators.", "quantifier": "every layer content", "why_tests_cant": "all gap patterns", "anchors": ["src/layer/internal/base.rs:BaseTripleStream", "src/layer/internal/child.rs:ChildTripleStream"]}
{"id": "C52", "title": "A crash during a commit harms nothing else", "statement": "If the process stops at any point while a layer is being built, rolled up, squashed or imported, all previously committed layers and all labels still read as before, and the unfinished layer is not the head of any graph.", "quantifier": "every crash point, every store state", "why_tests_cant": "crash points cannot be driven by unit tests", "anchors": ["src/storage/layer.rs:create_child_layer", "src/store/mod.rs:commit", "src/storage/directory.rs:finalize", "src/storage/layer.rs:register_rollup"]}
{"id": "C53", "title": "A layer name identifies its stack", "statement": "Following parent links from any committed layer ends at a base layer after finitely many steps; the links form a forest, every layer other than a base having exactly one parent fixed at creation.", "quantifier": "every store history", "why_tests_cant": "histories", "anchors": ["src/storage/layer.rs:layer_parent", "src/storage/layer.rs:write_parent_file", "src/storage/layer.rs:create_child_layer"]}
{"id": "C54", "title": "What the store tells about one layer does not depend on the cache", "statement": "The store's questions about a single layer (parent, dictionaries, id maps, additions and removals in all variants, and their counts) are answered from that layer alone: the dictionaries are exactly the terms that the layer has and its parent has not, the id maps give their ids, the additions and removals are exactly the differences of the triples of the layer and its parent. The answers are the same whether the layer is cached, cached as a rollup, or not cached, and at every later moment.", "quantifier": "every history with concurrent loads, rollups, squashes and merges, every cache state, every layer", "why_tests_cant": "cache states and histories cannot be enumerated", "anchors": ["src/storage/cache.rs:LayerStore for CachedLayerStore", "src/storage/layer.rs:get_node_dictionary", "src/storage/layer.rs:triple_additions", "src/storage/layer.rs:get_layer_parent_name"]}
{"id": "C55", "title": "A layer is read back from its files as it was written", "statement": "Writing the files of a layer succeeds (no number is too large for the width chosen for it), and whatever store the files are put into, in whatever order they are written, loading the layer gives the layer that was written, and every question answered from single files (dictionaries, counts, id maps, additions and removals by all patterns) gets the answer of that layer. The same holds after the layer was exported and imported into another store, and its files can be copied without loss.", "quantifier": "every layer that a commit, rollup, squash or merge makes (the rollups and merges that go wrong under C24, C25 and C28 excepted), every kind of store, every order of the writes", "why_tests_cant": "the about forty files are named in several tables and chosen by position; a slip shows only for layers that use that file, and widths only for particular sizes", "anchors": ["src/storage/layer.rs:base_layer_files", "src/storage/layer.rs:child_layer_files", "src/storage/consts.rs:BASE_LAYER_FILES", "src/storage/consts.rs:CHILD_LAYER_FILES", "src/layer/builder.rs:TripleFileBuilder", "src/storage/file.rs:BaseLayerFiles", "src/storage/copy.rs:copy_from"]}
{"id": "C56", "title": "The whole store behaves as a simple one", "statement": "A program that makes one call after the other on a new store (graphs, layers, builders, queries, changes, rollups, squashes, merges) gets only answers that a simple store could give: a list of immutable sets of triples with parents, a numbering of their terms that each layer inherits from its parent, a map from graphs to a head and a version, and builders that collect changes. Rollups and cache evictions never show in an answer, no call panics, and layers in hand never change.", "quantifier": "every finite program of calls, every choice of names for new layers, every order of hash maps and of parallel workers, every moment at which cached layers are dropped", "why_tests_cant": "the answers depend on the whole history of calls; unit tests try a few short ones", "anchors": ["src/store/mod.rs:Store", "src/store/mod.rs:NamedGraph", "src/store/mod.rs:StoreLayer", "src/store/mod.rs:StoreLayerBuilder", "src/storage/cache.rs:CachedLayerStore"]}
{"id": "C57", "title": "File locks make label calls atomic", "statement": "With the default features, callers in any number of threads or processes that use labels of one directory at the same time never see a label that is half written, and never lose an update: whatever the order of their system calls (open, lock, read a part, truncate, write a part, unlock, unlink), the answers are those of calls that happen one at a time. A label that cannot be read is being created at that moment. Callers never block each other for ever: if no further calls are made, all return.", "quantifier": "every number of callers, every interleaving of their system calls, every size of partial reads and writes", "why_tests_cant": "interleavings of system calls cannot be driven by unit tests", "anchors": ["src/storage/locking.rs:LockedFile", "src/storage/locking.rs:ExclusiveLockedFile", "src/storage/directory.rs:DirectoryLabelStore", "src/storage/directory.rs:get_label_from_exclusive_locked_file"]}
{"id": "C58", "title": "Imported layers are the layers that were exported", "statement": "Importing a layer and its ancestors from another store is possible whatever both stores did before, as long as the receiving store has no other layer of one of these names. Afterwards the layers have the parents and triples they had, nothing else has changed in the receiving store, and from then on the two stores answer all queries on these layers alike, ids included, whatever is rolled up, squashed, committed, merged, cached or imported in either of them. So a later commit on top of the layer can be transferred the same way.", "quantifier": "every pair of stores, every history of both before and after the import, every layer", "why_tests_cant": "histories of two stores cannot be enumerated; ids could differ only after particular rollups", "anchors": ["src/storage/pack.rs:import_layers", "src/storage/pack.rs:export_layers", "src/storage/layer.rs:get_layer_with_cache"]}
{"id": "C59", "title": "File locks make rollup registrations atomic", "statement": "In an archive store with the default features, callers in any number of threads or processes may ask for the rollup of a layer and register one at the same time: whatever the order of their system calls (open, lock, truncate, read a part, write a part, unlock), the answers are those of calls that happen one at a time, so nobody gets a part of a name, and who asks after a registration returned gets a rollup. Calls that only read may be given up at any moment. Callers never block each other for ever.", "quantifier": "every number of callers, every interleaving of their system calls, every size of partial reads and writes", "why_tests_cant": "interleavings of system calls cannot be driven by unit tests", "anchors": ["src/storage/archive.rs:get_rollup", "src/storage/archive.rs:set_rollup", "src/storage/locking.rs:LockedFile", "src/storage/locking.rs:ExclusiveLockedFile"]}
{"id": "C60", "title": "Tasks that build layers in an archive store do not disturb each other", "statement": "Several tasks may use one archive store at the same time. What they do has the same effect as if their calls happened one at a time: each layer that is finalized has the files that were synced for it and no others, a layer exists from its creation on, and a task that fails (its import is refused, or it panics) does not make calls of other tasks fail.", "quantifier": "every number of tasks, every interleaving of their calls at the moments when the construction map is locked", "why_tests_cant": "interleavings within calls cannot be driven by unit tests, and a poisoned lock shows only after a failure", "anchors": ["src/storage/archive.rs:create_named_directory", "src/storage/archive.rs:get_file", "src/storage/archive.rs:finalize", "src/storage/archive.rs:write_bytes", "src/storage/pack.rs:import_layers"]}
{"id": "C61", "title": "Transactions on a graph are serializable", "statement": "Clients that each read the head of a graph, commit changes on top of it and then call set_head are served as if their transactions had been made one after the other, in an order that respects time: each transaction that reports success is built on exactly those before it, the head and version that anyone reads are those after some first transactions of the order, with the triples that result from their changes, and a transaction that reports failure leaves no trace. No reported update is lost, also if set_head is called with other layers.", "quantifier": "every number of clients, every interleaving of their calls, every change, clients that stop half way included", "why_tests_cant": "the property is about all interleavings of reads, commits and updates of the label with the ancestor check in between", "anchors": ["src/store/mod.rs:NamedGraph::head_version", "src/store/mod.rs:NamedGraph::set_head", "src/store/mod.rs:StoreLayer::open_write", "src/store/mod.rs:StoreLayerBuilder::commit", "src/storage/layer.rs:layer_is_ancestor_of"]}
{"id": "C62", "title": "Label calls can be given up", "statement": "A caller of the label store of a directory may drop the future of a call at any moment, for example because of a timeout. The call then has happened as a whole or not at all, in the eyes of all other callers; the label stays usable; and nobody waits for ever for a call that was dropped.", "quantifier": "every number of callers, every interleaving of their system calls, every moment at which a future is dropped", "why_tests_cant": "the moments between two system calls of one call cannot be hit by unit tests", "anchors": ["src/storage/directory.rs:DirectoryLabelStore", "src/storage/locking.rs:LockedFile", "src/storage/locking.rs:ExclusiveLockedFile", "src/storage/locking.rs:LockedFileLockFuture"]}
{"id": "C63", "title": "A name stands for the same layer in all stores", "statement": "A program that uses several stores and carries layers from one to another by export and import gets, on every store, the answers of a simple store that it alone uses. A layer has the same parent, the same triples and the same ids in all stores that have a layer of this name, whether it was made there or imported, whatever is rolled up, squashed, merged or cached anywhere. A pack has exactly the layers that were asked for, as they were then, and lists their parents. Layers that are imported can be used like others: as heads, as parents of new layers that are exported again, in merges and comparisons.", "quantifier": "every program, every number of stores and packs, every choice of names, hash orders and cache contents", "why_tests_cant": "histories of several stores and the ways of layers between them cannot be enumerated", "anchors": ["src/store/mod.rs:Store::export_layers", "src/store/mod.rs:Store::import_layers", "src/storage/pack.rs:export_layers", "src/storage/pack.rs:import_layers", "src/storage/pack.rs:pack_layer_parents"]}
{"id": "C64", "title": "Calls at the same time behave as on a simple store", "statement": "A program that makes many calls on one store at the same time (from several tasks or threads) gets only answers that a simple store could give on which each call takes effect between its beginning and its end: at one moment, except that a commit closes its builder before its layer appears, a rollup may be made twice, changes read from another layer are made one by one, and set_head also answers false if the head was changed since the call began. Loads, rollups, cache insertions and evictions that run at the same time never show in an answer, and no call panics. For calls that do not overlap this is exactly the simple store of C56.", "quantifier": "every number of tasks, every interleaving of the steps of their calls, every choice of names, hash orders and cache contents", "why_tests_cant": "interleavings of whole calls with loads and rollups cannot be enumerated by unit tests", "anchors": ["src/store/mod.rs:Store", "src/store/mod.rs:NamedGraph", "src/store/mod.rs:StoreLayer", "src/store/mod.rs:StoreLayerBuilder", "src/storage/cache.rs:CachedLayerStore", "src/storage/layer.rs:get_layer_with_cache"]}
{"id": "C65", "title": "Calls at the same time come to an end", "statement": "A call that was begun ends after a bounded number of its own steps, whatever other calls do meanwhile: eight steps suffice for every call except force_set_head, apply_delta and apply_diff; for the latter two the number depends on the number of changes to be made, which is known after the first step. force_set_head starts again only when the head of its graph has changed since it was read, so two steps and at most two more for each change of the head suffice. A load ends although layers are committed, rolled up, cached and dropped from the cache while it searches for an ancestor. No call has to wait for another one: from every moment a call under way can end if only it goes on.", "quantifier": "every number of tasks, every interleaving of the steps of their calls, every moment", "why_tests_cant": "a call that never returns or a retry that never succeeds shows only in particular interleavings, and a test cannot wait for ever", "anchors": ["src/store/mod.rs:NamedGraph::force_set_head", "src/store/mod.rs:NamedGraph::set_head", "src/store/mod.rs:StoreLayer", "src/store/mod.rs:StoreLayerBuilder", "src/storage/layer.rs:get_layer_with_cache"]}
{"id": "C66", "title": "A store on disk outlives its processes", "statement": "A store in a directory that is used by one process after the other, each making many calls at the same time and each stopped at any moment, is for all of them one simple store. A process finds all layers that earlier ones have made, under the same names, with the same triples, ids and parents, and every graph with the head and version it had; only layers in hand, builders and calls under way are gone. So the head that a call has reported to be set is found later unless other calls change it, and a layer that was committed is never missing afterwards. A commit that was under way either has made its layer or has not.", "quantifier": "every number of processes, every interleaving of the calls in each, every moment at which each stops", "why_tests_cant": "the histories of several processes and the moments at which they stop cannot be enumerated", "anchors": ["src/store/mod.rs:open_directory_store", "src/store/mod.rs:open_archive_store", "src/store/mod.rs:open_raw_archive_store", "src/store/mod.rs:Store", "src/storage/directory.rs:DirectoryLabelStore", "src/storage/directory.rs:CachedDirectoryLabelStore", "src/storage/directory.rs:DirectoryLayerStore"]}
{"id": "C67", "title": "A head that was set is never lost", "statement": "For a graph that is not deleted and whose head is moved with set_head only: a layer that a set_head has made the head (it answered true) is the head or an ancestor of the head whenever the head is read afterwards, also by later processes; of two layers that set_head made the head one is an ancestor of the other, so of two layers that were built at the same time on the same head only one becomes the head and the other set_head answers false; the version never gets smaller, and with the same version it is the same layer.", "quantifier": "every number of tasks and processes, every program that uses the whole interface, every interleaving of calls, every moment at which a process stops", "why_tests_cant": "lost updates show only in particular interleavings of calls with all the others, and across processes", "anchors": ["src/store/mod.rs:NamedGraph::set_head", "src/store/mod.rs:NamedGraph::head_version", "src/storage/layer.rs:layer_is_ancestor_of", "src/storage/directory.rs:DirectoryLabelStore", "src/storage/directory.rs:CachedDirectoryLabelStore", "src/storage/memory.rs:MemoryLabelStore"]}
{"id": "C68", "title": "Processes can share a store on disk", "statement": "Any number of processes that have opened the same directory at the same time, each with tasks of its own and a cache of its own, use one simple store: what one of them commits, rolls up or sets as a head is there for the others as if they were tasks of one process. A layer has the same triples in all of them, although one may still have it in its cache while another has rolled it up. A set_head that has succeeded in one process is not lost by one in another. Processes may begin and be killed at any moment.", "quantifier": "every number of processes and tasks, every interleaving of their calls, every content of each cache, every moment at which a process begins or is killed", "why_tests_cant": "a unit test runs in one process, and the interleavings of several with their caches cannot be enumerated", "anchors": ["src/store/mod.rs:open_directory_store", "src/store/mod.rs:open_archive_store", "src/store/mod.rs:open_raw_archive_store", "src/storage/cache.rs:LockingHashMapLayerCache", "src/storage/cache.rs:CachedLayerStore", "src/storage/directory.rs:DirectoryLabelStore", "src/storage/locking.rs:LockedFile", "src/storage/archive.rs:LruArchiveBackend"]}
{"id": "C69", "title": "Layers can be carried between stores in use", "statement": "Layers can be exported from a store and imported into another one while many other calls are made on both, from several tasks: commits, rollups, loads, changes of heads. A pack has exactly the layers that were asked for, each as it was made, whatever was rolled up while it was written. An import makes its layers appear one by one, none before its parent, and when it has ended all of them are found. At every moment a name stands for the same layer in all stores, so questions about it have the same answers everywhere. The other calls are not disturbed: each store goes on to behave as a simple store, and a call with a pack never waits for them.", "quantifier": "every number of stores, tasks and packs, every interleaving of the steps of all calls, every choice of names, hash orders and cache contents", "why_tests_cant": "interleavings of an import or an export with the calls of other tasks on two stores cannot be enumerated by unit tests", "anchors": ["src/store/mod.rs:Store::export_layers", "src/store/mod.rs:Store::import_layers", "src/storage/pack.rs:export_layers", "src/storage/pack.rs:import_layers", "src/storage/pack.rs:pack_layer_parents", "src/storage/cache.rs:CachedLayerStore", "src/storage/layer.rs:get_layer_with_cache"]}
{"id": "C70", "title": "A commit makes one layer with all that was asked before", "statement": "Whatever other calls are made at the same time: a triple whose addition to a builder has succeeded is in the layer that is made with the builder, if nobody may remove it; one whose removal has succeeded is not, if nobody may add it; one for which both have succeeded, in whatever order and by whatever tasks, is as in the layer below, and so is one that nobody may have changed. So a change that was reported as made is never dropped by a commit that runs at the same time. Of all commits of a builder, however many tasks try, one succeeds at most, and the layer that it returns has the name that the builder had from the start.", "quantifier": "every number of tasks and processes, every interleaving of edits, commits and other calls, every builder and triple", "why_tests_cant": "a change that is lost between two tasks, or a builder committed twice, shows only in particular interleavings", "anchors": ["src/store/mod.rs:StoreLayerBuilder::add_value_triple", "src/store/mod.rs:StoreLayerBuilder::remove_value_triple", "src/store/mod.rs:StoreLayerBuilder::commit", "src/store/mod.rs:StoreLayerBuilder::commit_no_load", "src/store/mod.rs:StoreLayerBuilder::with_builder"]}
{"id": "C71", "title": "Rollups of one layer registered and read at the same time in a directory store", "statement": "If any number of callers, also in several processes, register rollups of the layers of a directory store and load layers at the same time, then every registration takes effect at one moment while it is under way, and everyone who looks for the rollup of a layer finds the one that was registered last at some moment while they look, or that there is none; nobody finds a rollup that nobody registered, gets an error or panics, and once a rollup is registered and no other registration is under way it is found.", "quantifier": "every number of callers and processes, every interleaving of their system calls, every moment at which calls are given up, whether or not opening a file for writing truncates it", "why_tests_cant": "the window between opening a rollup file and writing it is a few microseconds; a test does not hit it", "anchors": ["src/storage/layer.rs:write_rollup_file", "src/storage/layer.rs:read_rollup_file", "src/storage/layer.rs:layer_has_rollup", "src/storage/directory.rs:get_file", "src/storage/directory.rs:file_exists"]}
