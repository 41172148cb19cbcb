# Formal model of terminusdb-store in Lean 4

## 1. Trusted base

* Lean 4.33.0's kernel. No axioms are added. Each property theorem depends at
  most on `propext`, `Classical.choice` and `Quot.sound` (checked with
  `#print axioms`, see `lean/Verif/Audit.lean`).
* The reading of the Rust sources: every definition of the model cites the file
  and lines in `/repo` it models. Nothing was compiled or run.
* `tdb-succinct` (external crate, not part of `/repo`): modelled by its
  interface. `AdjacencyList` is a pair of lists (numbers, end-of-group bits) with
  `push`, `offset_for`, `num_at_pos`, `bit_at_pos`, `left_at_pos`,
  `pair_at_pos`; `MonotonicLogArray` is a sorted list with exact and lower bound
  search; `WaveletTree` is a list with `lookup` / `lookup_one` / `decode_one`;
  `StringDict`/`TypedDict` are sorted lists with 1-based access. The bit level
  encodings of these structures are trusted. In particular
  `adjacency_list_stream_pairs` is assumed to leave out the zero (stub) entries.
  `dedup_merge_string_dictionaries_stream` and `dedup_merge_typed_dictionary_streams`
  are assumed to write the sorted union of their inputs and to return the position
  of each entry, `heap_sorted_stream` to yield the smallest of the first elements.
  The array of offsets in the header of an archive is written and read by it too: the
  structure `OffsetCodec` (Model/Archive.lean) states what is assumed, that reading gives
  back up to 50 numbers below 2^64 and that the first eight bytes determine the length;
  `OffsetCodec.plain` shows that the assumptions can be met. `SmallBitArray` is a number
  with `get` and `rank1` counted from the highest bit.
  What the files of a layer hold is stated by the structure `Coder` (Model/LayerFiles.lean):
  dictionaries, arrays of numbers that fit into their width, bits and wavelet trees are read back,
  the length and width of an array and the number of entries of a dictionary can be read from their
  files alone, and `copy_file` copies a file that is there. `Witness.coder` shows that the
  assumptions can be met.
* The crates `tar` and `flate2`: a pack is the list of its entries (path, kind, contents), and
  reading gives back the entries that were written in their order. Paths that are not UTF-8
  are left out.
* Dictionary keys (strings, typed values) are elements of arbitrary linear
  orders. The model never looks inside them.
* `u64`/`usize` are modelled by `Nat`: ids, counts and versions are assumed not
  to reach 2^64.
* Asynchrony: a Rust `async` function is modelled by the sequence of its effects.
  Where interleavings matter (labels, builders, caches) each lock-protected
  section is one atomic step and the theorems quantify over all interleavings of
  the steps. The tokio runtime and rayon are trusted to provide that atomicity. For the labels of a
  directory the atomicity is proved from the file locks (C57); the operating system is trusted to
  grant a shared lock only while nobody has the exclusive one, and that only while nobody has any,
  and to do a single read, write or truncation in one piece.

## 2. Conventions

* A panic is an explicit `none` (type `Option`), an `io::Error` is an explicit
  error value. Theorems that say "succeeds" therefore also say "does not panic".
* Loops become structural recursion, with a fuel argument where Rust loops on a
  position that strictly increases; the theorems show that the fuel suffices.
* `Verif/Model/*.lean`: definitions only (with citations).
  `Verif/Lemmas/*.lean`: helper lemmas. `Verif/Props/*.lean`: property theorems,
  each with an `example` showing that a concrete non-trivial case meets the
  hypotheses. `Verif/Spec.lean`: the small independent specification.

## 3. Plan per property

| id | model | proof |
|----|-------|-------|
| C01 | SimpleLayerBuilder operations and commit over an arbitrary well-formed stack | refinement to a set of value triples; induction over operations, sorting and remapping lemmas |
| C02 | same | commit result depends only on the sets: uniqueness of sorted lists |
| C03 | same | corollary of the C01 analysis plus dictionary characterisation |
| C04 | triple file builder, adjacency lists, per-layer iterator, merging iterator, triple_exists | representation invariant "position list", merge invariant |
| C05 | seek functions | lower bound lemmas on the position list |
| C06 | wavelet lookup, predicate iterator | as C05; negation for p = 0 |
| C07 | object index builder, object iterator | transposition lemma (sorted pairs) |
| C08 | single_triple_sp | stack invariant |
| C09 | child builder filters, per-layer iterators, stored variants | corollary of C01 and C04 |
| C10 | in-memory and stored `_o` variants | stored proved; in-memory negated on a witness, partial for objects in use |
| C11 | counts | length of the position list minus stubs |
| C12-C14 | dictionaries, id maps, offset walks | induction over the stack |
| C15 | commit | sorted, deduplicated, used entries |
| C16 | Layer default methods | corollary of C12 |
| C17 | all panic sites of commit are explicit | totality theorem |
| C18 | id operations | partial for known ids; negation for unknown ids |
| C19, C52 | store as a map from (layer, file) to bytes with per-operation writes | invariants over operation and crash prefixes |
| C20 | builder lock state machine | invariant over interleavings; negation for apply_delta |
| C21, C22 | apply_delta / apply_diff as builder op lists in any order | C01 + C02 |
| C23-C25 | rollup functions, id map construction, loader | query equivalence of stacks; negations on witnesses |
| C26, C27 | squash functions | value level equality; negation for the parent after a rollup of a rollup |
| C28 | merge_base_layers | value level union |
| C29, C30, C53 | parent file graph | induction over creation history |
| C31 | loader with cache and rollups | invariant: cache entries agree with the store |
| C32-C35 | label state machines and NamedGraph operations | invariants over interleavings |
| C36, C40 | text codecs over characters | round trip |
| C37 | label file write as crash steps | negation and partial |
| C38, C39 | label stores as maps | refinement; negation |
| C41-C44 | archive header, slices, LRU, construction files | round trip, invariants; negations |
| C45-C47 | tar entries as lists | round trip; negation |
| C48 | directory listing | negation, partial |
| C49 | stack (change) iterator | net difference; negation for layer_changes |
| C50 | cached getter | negation, partial |
| C51 | stream state machines | equality with the iterator |
| C52 | every write of the layer stores and label stores as a step that may be the last | invariant over the steps; negation for rollup files |
| C53 | parent files in all executions | induction over the execution |
| C54 | the getters of both layer stores, over all executions | invariant of the cache; negations |
| C55 | the tables of file names, writing and loading file by file, the getters on files, copying | round trip through any store; names by computation on code points |
| C56 | all calls of `Store`, `NamedGraph`, `StoreLayer`, `StoreLayerBuilder`, one after the other | simulation: the session, an execution of `World`, and a state of the simple store of `ApiSpec` are related, and every call keeps the relation |
| C58 | import as a step of the store executions | invariant; induction along the ancestors of the imported layer |
| C57 | the directory label store one system call at a time | simulation by the store whose locked sections are one step; a measure for termination; negation for `noreadlock` |
| C59 | `get_rollup` and `set_rollup` of an archive store one system call at a time | invariant of files, locks and effects; a measure for termination; negations for `noreadlock` and dropped futures |
| C60 | `create_named_directory`, `get_file`, `write_bytes` and `finalize` of an archive store with a step for each time they hold the lock of the construction map, and lock poisoning | simulation by the store in which each call is one step; negations by runs |
| C61 | clients as programs on the label store and the layer store; set_head may be unanswered | the successful updates of the linearized label history are the order; an update since the read would close a cycle of parents |
| C62 | futures of label calls are dropped in any phase | the simulation of C57, in which a dropped call is one that is never answered; an invariant of empty files for the negations |
| C63 | several stores, each in memory or on disk, with the whole interface of C56, `export_layers`, `import_layers` and `pack_layer_parents`, one call after the other | simulation as for C56, for all stores at once; the layers of one name in two stores have the same files, which every call keeps |
| C64 | all calls of C56, many at the same time, each in several steps that interleave | simulation as for C56 step by step: each call under way is at a place that matches a place in the simple store, and steps of others keep the match; what a call has seen is among the states since it began |
| C65 | the steps of calls of C64 | a rank of the stages of a call falls with each of its own steps and is not changed by others; for `force_set_head` a change of the label raises it by two; the simulation of C64 shows that the next step exists |
| C66 | processes one after the other on a store on disk, each with the calls of C64 | the simulation of C64 goes on when the next process opens the store: the world forgets its cache, and layers in hand and builders are gone; layers and heads of the simple store are shown to stay |
| C67 | graphs that are created and moved with `set_head` only, with all calls of C64, in one process after the other | from the specification of C64 and C66 alone: the moment at which an ended call took effect (`Moment`), and the invariant that every earlier state of the graph is below the present one (`Onward`), which also rules out that `set_head` takes a new graph for the old one |
| C68 | processes at the same time on a store on disk, with the calls of C64 and a cache for each process | simulation by one process: between any two steps its cache changes from that of one process to that of another, since cached layers vanish and loaded layers are cached at any time; what a load of one process has seen is among what the one process has seen (`Stands`) |
| C69 | several stores, each with the calls of C64 at the same time, and calls with packs under way between them | simulation of each store as in C64 and of each pack call step by step (`TSim`); what a pack has read stays right because layers do not change; that a name stands for one layer everywhere is an invariant of the specification alone (`Agree`) |
| C70 | the calls of C64 to C68, seen by a program that makes layers with builders | invariants of the specification alone (`Gets`: the changes are in the builder, in the commit that has closed it, or in its layer; `Spending`: who has closed the builder); carried over with C64 and C68 |
| C71 | registering and reading rollup files of a directory store one system call at a time, without locks | invariant of files, calls and the moments of registrations; a measure for termination; negations: errors while a rollup is registered, mixed files if written or read in pieces |

## 4. Disagreements between code and properties

Each line names the theorem that exhibits the disagreement on a concrete
execution of the model, and the theorem that covers the rest.

1. C06, C09: `triples_p(0)` (and `_additions_p(0)`, `_removals_p(0)`) yields
   triples of other predicates if a base layer has an unused subject id.
   `C06_predicate_zero`, `C09_predicate_zero`; `C06_triples_by_predicate_partial`,
   `C09_changes_exact_partial`.
2. C10: the `_o` variants on a loaded layer do not stop at the end of the object
   (no `take_while`), so an object that does not occur yields the triples of
   others. `C10_loaded_wrong_object`; `C10_loaded_changes_by_object_partial`. The
   variants that read from storage are right (`C10_stored_changes_by_object`).
3. C18: an unknown id in `add_id_triple` panics at commit or is taken for a
   temporary id. `C18_unknown_id_panics`, `C18_unknown_id_cancels`;
   `C18_id_calls_like_value_calls_partial`.
4. C24 (and with it C19, C23, C31): `dictionary_rollup_upto`
   (src/storage/delta.rs:192-200) takes the predicate id maps of loaded layers
   from `node_value_id_map`. After a rollup down to one ancestor, a rollup down
   to a lower one renumbers predicates and loses triples.
   `World.C24_rollup_upto_wrong`; `World.C24_rollup_upto_partial`.
5. C25 (and with it C19, C31): `imprecise_rollup_upto` writes the parent it was
   asked for, but merges only down to the bound that `safe_upto_bound` finds. The
   changes of the layers between are lost.
   `World.C25_imprecise_rollup_upto_wrong`; `World.C25_imprecise_rollup_upto_partial`.
6. C24, C25: after a full rollup of a layer both variants fail, because the
   parent file of the rollup is read without asking whether it exists
   (src/storage/layer.rs:1752-1820). `World.C24_rollup_upto_after_rollup_fails`.
7. C24, C25: after a rollup of a layer down to one ancestor, both variants down to
   a higher ancestor panic in `immediate_layers_upto`: the bound is the layer
   itself. `World.C24_rollup_upto_after_rollup_upto_panics`.
8. C19, C23, C31: if a rollup is rolled up under its own name, the layer that the
   first rollup stands for is afterwards loaded under the name of the first
   rollup, and with its parent. `World.C31_name_wrong`; the name parts of
   `World.C31_get_layer_partial` and `World.C23_rollup_partial`.
9. C36: the reader of label files also accepts versions with a sign, layer names in
   upper case or with signs, and CRLF line ends. `C36_plus_accepted`;
   `C36_exact` says exactly which files are read and as which label, `C40_exact` which
   texts are read as which layer name.
10. C36, C40: `string_to_name` slices a 40 byte string at multiples of 8, and panics
   if a character lies across such a boundary. `C40_panics`, `C36_panics`;
   `C40_ascii_no_panic`, `C36_ascii_no_panic_partial`; `C40_panic_exact` and
   `C36_panic_exact` say exactly when. A rollup file is read whatever its first line is, and
   a parent file whatever follows the name (`C40_rollup_exact`, `C40_parent_exact`).
11. C32, C33, C34: `MemoryLabelStore::set_label_option` compares versions only
   (src/storage/memory.rs:118-142). After a deletion and new creation, a caller that
   has read the old label replaces one that it has not seen; `set_head` then moves the
   head to a layer that is no descendant of it. `C32_memory_wrong`,
   `C33_memory_wrong`, `C34_memory_wrong`; `C33_set_head_memory_partial`,
   `C34_force_set_head_memory_partial`. The stores on disk compare whole labels.
12. C37: the directory store truncates the file before it writes, the cached store
   overwrites it in place, and `create_label` makes the file before it writes.
   `C37_directory_wrong`, `C37_cached_wrong`, `C37_create_wrong`;
   `C37_directory_partial`.
13. C38: the cached store does not truncate, so clearing a label that has a layer
   leaves a file with three lines, and the directory cannot be opened any more.
   `C38_clear_wrong`; `C38_reopen_partial`.
14. C39: a label with the empty name is stored in `.label`, whose stem is `.label`; it
   is read under that name and no update of it succeeds (`force_set_head` does not
   return). `C39_empty_name_wrong`; `C39_file_names`, `C39_named_update`. Names with
   `/` are paths and are not modelled. Beside it: a file in the directory whose name is not
   UTF-8 makes `labels` of the directory store fail, label or not (`C39_foreign_file`); the
   cached store passes over it (`C39_open_succeeds`).
15. C20 (beside it): `apply_delta` drops the results of its calls, so on a committed
    builder it changes nothing and returns `Ok` (`C20_apply_delta_silent`); `apply_diff`
    unwraps them and panics (`C20_apply_diff_panics`).
16. C28 (outside the builder made layers it is about): `merge_base_layers` reads the
    files of the given layers and not their id maps. The base layer that a rollup wrote
    can be named, and merging it garbles its triples.
    `World.C28_rollup_layer_garbled`. A base layer with a value as the subject of a
    triple, which a squash can write after a commit with an id triple, makes it panic.
    `World.C28_value_subject_panics`. `C28_merge_is_union`,
    `World.C28_merge_in_store_partial`.
17. C41 (outside the property): opening an archived file at an offset past its end panics,
    where a file under construction returns an error. `archive_read_past_end`.
18. C42: the size of an archived rollup file is reported as 22, its contents have 42 bytes.
    `C42_size_wrong`; `C42_rollup_file_partial`.
19. C43: `LruArchiveBackend` never counts what it holds (`current` stays 0), so nothing is
    ever dropped and the limit is not kept; `store_layer_file` does not look at it at
    all. `LruArch.C43_limit_wrong`, `LruArch.C43_never_evicts`,
    `LruArch.C43_store_ignores_limit`. A read that begins after a layer was stored can
    fail if an older read looked for the file too early and has not returned:
    `LruArch.C43_stale_miss_wrong`. A layer that is read while its file is being written (as
    when a pack is imported whose layers somebody already asks for) stays in the cache as
    the part that was read, so that reads that begin after the layer was stored return a
    part of it: `LruArch.C43_torn_wrong`; it is always the beginning of the file:
    `LruArch.C43_read_prefix`. If the future of a read is dropped while it reads the
    file, all later reads of that layer panic: `LruArch.C43_cancel_wedges`,
    `LruArch.C43_cancel_panics`, `LruArch.C43_cancel_reached`. Apart from these the cache
    is transparent: `LruArch.C43_read_right_partial` and the theorems after it.

20. C47: a name given to `import_layers` that is not in the pack is not ignored. A new layer
    without files appears (`C47_missing_appears`); in memory an existing layer is emptied
    (`C47_memory_emptied`); an archive store panics if it has the layer
    (`C47_archive_panics`). Other layers are untouched: `C47_others_partial`.
21. C48: `layers()` of a directory store fails as soon as there is a layer, since the names of
    the directories in it are the first three digits of layer names (`C48_directory_wrong`);
    for an archive store it lists only the layers under construction, since it looks for
    archives one level too high (`C48_archive_wrong`). `C48_memory_partial`.
22. C49: `layer_changes` takes the iterators of the layer itself in each round of its walk, not
    those of the ancestor it is at (`C49_layer_changes_repeats`, `C49_layer_changes_wrong`).
    `layer_changes_upto` through the cache is an error in the situation of item 8
    (`C49_cached_wrong`). The rest: `C49_changes_upto`, `C49_changes_upto_cached_partial`.
23. C50: `get_predicate_count` of the cached store asks the inner store for the number of values
    (`C50_predicate_count_wrong`). The rest: `C50_counts_partial`.
24. C54: `get_layer_parent_name` in the situation of item 8 (`C54_parent_wrong`); the changes by
    object from a cached layer (`C54_changes_by_object_wrong`, see item 2).
25. C52: a rollup file is opened and then written. If the process stops in between, the layer
    cannot be loaded any more (`C52_rollup_wrong`); in an archive store loading panics
    (`C52_archive_rollup_wrong`). In a directory store, where nothing is locked, a load at the
    same time fails too (`C52_rollup_reader_wrong`). The rest: `C52_layers_partial`,
    `C52_contents_partial`, `C52_archive_files`, `C52_archive_rollup_partial`.
26. C52: importing a layer that is in a directory store already writes its files again; if
    opening a file truncates it, a crash may leave an empty file in a layer that was whole
    (`C52_import_again_wrong`). Without truncation nothing changes (`C52_import_again`).
27. C56: calls for which the code does not behave as the simple store, besides those above: an
    edit with ids that stand for nothing is taken and lets the commit panic
    (`Api.C56_unknown_ids_fail`); `apply_diff` on a committed builder panics
    (`Api.C56_apply_diff_fails`) while `apply_delta` does nothing. Changes by object may be wrong for
    objects in between those that occur (item 2).
28. C27: if an ancestor was rolled up and that rollup again, a squash down to it reports the
    first rollup as its parent (`World.C27_parent_wrong`).
29. C57: with the feature `noreadlock` a reader can get the version of one label and the layer of
    another (`LockedLabels.C57_noreadlock_wrong`).
30. C59 (outside the property): with `noreadlock` a reader of a rollup can panic
    (`LockedRollups.C59_noreadlock_wrong`). If the future of `set_rollup` of an archive store is
    dropped while it writes, the file stays cut off and everybody who reads it panics until it is
    written again (`LockedRollups.C59_drop_wrong`).
31. C60 is false. `create_named_directory` of an archive store panics while it holds the lock
    of the construction map if the layer is in the map, so that the lock is poisoned and every
    later call on the store panics (`C60_poison_wrong`, `C60_poisoned_forever`). This happens if
    two tasks import the same layer, if a list of layers to import has one twice, and if an
    import is tried again after one that failed: `import_layers` puts its layers into the map
    before it looks at the pack and leaves them there. Likewise if a layer is finalized while
    another task asks for a new file of it (`C60_get_finalize_wrong`). Two tasks that ask for
    the same new file may get two, and what the first one syncs is lost
    (`C60_lost_file_wrong`). A layer does not exist while it is being finalized
    (`C60_flicker_wrong`).
32. C62 is false. If the future of `set_label` (so of `set_head`) is dropped after the file was
    truncated and before it is written, the label is lost: every later call that reads it fails,
    and it cannot be created before it is deleted (`LockedLabels.C62_drop_set_wrong`). Likewise if
    `create_label` is dropped after it made the file (`LockedLabels.C62_drop_create_wrong`). A
    timeout around the call suffices for this. Dropping calls at other moments does no harm
    (`LockedLabels.C62_dropped_calls_partial`).
33. C63: `import_layers` imports a layer without its parent and reports success; the layer cannot be
    loaded then (`Net.C63_without_parent_fails`).
34. C64: calls are not atomic in the strict sense. Two calls of `set_head` at the same time can give
    answers that they give in no order (`Conc.C64_set_head_fails`): the one that loses the race
    answers `false` although its layer is a child of the new head. A builder that is committed while
    `apply_diff` goes on lets that panic (`Conc.C64_apply_diff_fails`).
35. C71 is false. A rollup file of a directory store is opened and then written, without a lock. Whoever
    loads the layer in between gets an error; if opening truncates the file, also when the layer
    already had a rollup (`RollupFile.C71_unreadable_wrong`). If the operating system reads or writes
    less than the 43 bytes at once, a rollup that nobody registered can be found, and can stay
    (`RollupFile.C71_mixed_wrong`).

## 5. The model of the store

* `Model/Layer.lean`, `Model/SimpleBuilder.lean`, `Model/Rollup.lean`: one stack of
  layers, queries, the builder, rollups and squashes. `Model/Reach.lean` defines
  `Reachable`: the stacks that commits, rollups, squashes and merges make, and `Alike`: the
  pairs of stacks that arise from one another by rollups and reloading.
  `Answers.lean` lists all queries of the `Layer` trait.
* `Model/Store.lean`: stored layers with parent and rollup files, the loader with its
  cache, the decisions of rollups and squashes, walks along parents.
* `Model/TripleStream.lean`, `Model/BaseMerge.lean`, `Model/StoreMerge.lean`: the
  streaming readers and `merge_base_layers`. The temporary directory it writes to first is
  not modelled.
* `Model/World.lean`: executions in which any number of tasks run at the same time. A
  loading task may see a different state of files and cache in every round of its
  loop. So may the decision of a rollup or squash each time it reads something that can
  change: the rollup file when it is looked for and when it is read, the parent file of the rollup, the
  rounds of loading the ancestor. Files that never change are read at the end of the decision. Writing
  and registering are later steps. Names of new layers are fresh. An imported layer gets in with one
  step: its files were made by some store on top of the same files (`Raw`); C58 shows that the
  layers of any other execution meet this. Importing a layer that is there already is left out
  (`C52_import_again` for directories).
* `Model/Getters.lean`: the questions about single layers, asked of the files and of the cache, and
  the two change iterators. A walk may see a different state at each of its awaits.
* `History.lean`: the specification. A history lists the operations that made layers;
  the parent and triples of a layer are read off it.
* `Model/Text.lean`: names, parent files, rollup files and label files as bytes and
  characters: lossy UTF-8 decoding, `str::lines`, `from_str_radix`, `{:08x}`.
* `Model/LabelStore.lean`: the three label stores with any number of callers. Calls on
  the memory and cached stores hold one lock and are one step. A call on the directory
  store is several steps: opening, reading or comparing and writing under the file lock,
  checking, making and filling a new file, unlinking; an open file outlives its name.
  `Model/LabelDir.lean` says which entries of a directory are taken for labels when it is
  listed or opened, all read at one moment.
  `Model/LockedLabels.lean` has the same store one system call at a time, and calls whose futures are dropped.
  `LabelSpec.lean` is the specification: a map, and what it means that a history of
  overlapping calls is as if they happened one at a time. `Model/Named.lean`: the
  operations of `NamedGraph` as programs over such histories. `Model/Transactions.lean`: clients
  that read a head, commit a layer on top and call `set_head`. The label history and the
  execution of the layer store have no common clock; that the layer was committed is asked of
  the last state only, and answers about ancestors may be those of any state.

### Builders

`Model/StoreBuilder` is `StoreLayerBuilder`: the lock around the builder, and the calls on
it as steps: a call begins, does its work under the lock, and returns; a commit takes the
builder out under the lock and writes the layer later, with an i/o error, a panic or
success. `apply_delta` and `apply_diff` are the lists of calls that their workers
make; the theorems let these calls be made in any order and at the same time. Not
modelled: rayon itself (that each item of the iterator is handled once), and callers that
never return.

### Archives

`Model/Files` lists the file names and their numbers, `Model/Construction` the files under
construction, `Model/Archive` the format, `Model/ArchiveDir` the directory of archives,
`Model/ArchiveStore` the store: which layers are under construction, the handles, and all
histories of calls on them (`ArchStore.Run`). Each call is one step. `Model/ArchiveConc` has
several tasks and a step for each time a call holds the lock of the construction map; it also
has what happens when a task panics with that lock. Callers that keep to some rules (`Begins`)
cannot tell the difference (C60).
Failures of the disk are left out, with one exception: missing and short files.

`Model/Lru` is the memory cache over the directory of archives. A read takes several steps,
any number of reads run at the same time with stores of new layers, and futures may be
dropped if the parameter `cancels` is true. A layer is stored at most once
(`ArchiveLayerStore` panics otherwise). The crate `lru` is modelled by a list, the entry used
last first. Reading a file of the disk is one step (it holds a file lock).

### Packs

`Model/Backend` has the three layer stores as places for files, behind one interface, with
`StoreKind` to range over them. `Model/Pack` is export, import and `pack_layer_parents`. The
order in which the set of names is walked at the end of an import is a parameter. What is
expected is in `PackSpec` and `NameSpec`: the files of a layer are found by the prefixes of
their names, not by the lists in the code. Each call on a store is one step, and nothing else
runs at the same time.

### Crashes

`Model/Crash` puts the files of a directory store under the executions of `Model/World`: a
layer is made by creating its directory and writing its files one after the other, in pieces
of any size and in any order; a registration opens the rollup file and writes it. At any
moment the process may stop; what was written stays, the cache, the handles of callers and the
tasks are gone. (What the operating system loses in a power failure is left out.) How the
contents of a layer become bytes is a parameter, `LayerCodec`: files of a layer, and reading
gives back the layer; `Coder.codec` shows that there is one for every `Coder`, so that nothing is
assumed beyond single files. Whether opening a file for
writing truncates it is open (`trunc`), since `FileBackedStore` is a part of `tdb-succinct`.
Two tasks do not write the same rollup file at the same time; `Model/RollupFile` is about those that
do (C71). `Lemmas/CrashReal` shows that
every execution of `World` is one of these processes, so the theorems are not about fewer
executions. `Model/CrashArchive` has crashes of an archive store, and the moments of an import.

### Files of layers

`Model/LayerFiles` has the names of the about forty files of a layer, the tables in which the code
finds them by position, the writing of all files from the contents of a layer with the widths the
builders compute, the loading, and the functions of the layer store that read only some files.
`LayerSpec` says which file is for what, by name. A file system object is what it answers
(`Access`: is the file there, what does it hold); `C55_written` connects it with all three kinds of
stores. The order of the writes does not matter: the theorem is about every permutation. That
numbers fit into the widths is an invariant of all layers (`LayerData.Fits`). That an id map file
is read with the width of the dictionary is modelled; how it encodes the map is not.

### The whole interface

`ApiSpec` is a small store written down without looking at the code's data structures: a history
of layers (`History`), a numbering of terms for each layer that extends that of its parent, heads,
builders as lists of changes. Its relation `Step` says which answers a call may get. `Model/Api` is
`src/store/mod.rs` for a program that makes one call after the other on a store in memory or on disk; it uses
the model of the layer store, the cache, the label store and the builder. What the code leaves open
is in `Choice`. `C56_api_partial` says that every series of calls and answers of the code is one of the
simple store. The proof keeps three states side by side (`Api.Sim`): the session, a state of
`Model/World` (so that its invariants can be used), and the state of the simple store. `InContract` has
the calls that are covered; `C56_read_your_writes` draws a conclusion from the simple store alone.
`C56_names_partial` also fixes the names: the simple store uses up no name that the code did not choose
in that call, so it cannot excuse an answer by a name of a layer that does not exist in the code.
Left out are the counts of the changes of whole stacks.

`NetSpec` and `Model/Net` do the same for any number of stores between which a program carries layers
in packs. In the specification a pack is a function from names to layers, and `Explains` asks that a
name always stands for the same layer in all stores that have it. New names are new in all stores: the
code draws 160 random bits (src/storage/layer.rs:360-363), so this is an assumption about
chance. A pack is modelled as the list of the files of its layers; how it is made of bytes is C45 and
C46. Packs are made by the stores of the program, so packs with wrong contents are not covered.

`ConcSpec` and `Model/Conc` are about a program that makes many calls at the same time. A call in the
specification is a `Pending` that has effects (`Effect`) between its beginning and its end: mostly one,
which is a `Step` of `ApiSpec`; the exceptions are listed at the top of the file. What a call may know
is the states since it began (`since`). `C64_sequential` shows that for calls one after the other nothing
is allowed beyond `ApiSpec`, so the exceptions are about overlapping calls only. In the model a call goes
through stages (`Stage`), with one step for each call of the label store, each use of the lock of a builder,
the first look of a load, its search, and so on. Simplifications: the files of a layer are written in
one step, so a layer that is being written is not seen half finished (C48 and C52 are about that); the reads of a
rollup, squash or merge after it has found its layer are one step, except that another step may come between finding
and reading a rollup file (the other files never change, and of the ancestor that is loaded only two
counts are used, which are those of any load: `World.C24_ancestor_any_load_partial`; `World` has
these reads at different moments, and there a decision is one that could have been made at a single moment:
`C23_rollup_concurrent_partial`, `C24_rollup_upto_concurrent_partial`, `C25_imprecise_rollup_upto_concurrent_partial`
and `C27_squash_upto_concurrent_partial`); a call that is dropped makes no further step, but is not dropped while it writes the
files of a layer (C62 is about that). The contract (`CState.InContract`) excludes, besides
what C56 excludes: asking by name for a layer that is being committed, and `apply_diff` with a
builder that is committed meanwhile. `C64_lasting` shows from the specification alone that an answer about a layer in hand stays
right whatever is done afterwards, so that a layer has the same triples whenever it is asked (`C64_same_triples`).

C65 is about the steps of these calls. The bounds hold from every state of the model, also outside of the
contract; only that a next step is possible (a name that is free, a search that comes to its end) uses the simulation. What a
step is was chosen by the model: each holds a lock of the code at most for its own duration, so no call
holds a lock between two steps, which is why none waits for another. `Turns` counts the changes of the head of
a graph in a run.

C66 (`LifeSpec`, `Model/Life`) is about processes that use a store on disk one after the other. Between two
steps of C64 a process may stop; the next one finds the layers, the rollups and the labels, an empty
cache and nothing in hand. `Reopened` says the same of the simple store. Directories without a layer,
which builders leave behind, are names that are not free (`lost`). `C66_same_triples` and `C66_heads` draw
conclusions from the specification alone. The labels on disk are a map here (`DiskLabels`), of
which `C32_disk` shows that it does what the files do (`C32_cached`, `C32_directory`).

C67 draws more conclusions from this specification, about graphs that are moved with `set_head` only. It
extends C61, where the callers only read a head, build on it and set it, to programs that use the whole
interface and to several processes. `After` says which of two parts of what happened is the later one.

C68 (`Model/Shared`) is about processes that use a store on disk at the same time. The files are one
store, each process has a cache, and the steps are those of C64 with the cache of the process that makes
the call. A process does not notice that another has registered a rollup: it goes on with the layer in
its cache. The numbers of layers and builders in hand are given for all processes together; that a
process uses only its own is not required. A killed process makes no further step, and one that has made
no step may as well begin later.

C69 (`Model/Trade`) is about calls with packs that are under way while other calls are made on the stores.
Reading the files of one layer for a pack is one step, and so is writing those of one layer from a
pack. In the code the files of all layers are written in the order of the pack; a layer whose files are
only partly there is not loaded by anyone, since nobody may ask for a layer that is coming
(`State.Early`), and layers on top of it come after it in the model. A new name is new in all stores.

In `World`, a rollup down to an ancestor may find any part of the cache, and `safe` executions leave
out only the rollups of this kind that write a wrong layer: with an id map in a merged layer that is
not the same for predicates and nodes (C24), or with a bound other than the one asked for (C25).
`C24_rollup_upto_untouched_partial` and `C25_imprecise_rollup_upto_untouched_partial` show that nothing goes
wrong if no layer above the ancestor was rolled up.
