import Verif.Model.Text

/-!
Model of src/storage/consts.rs: the kinds of files of a layer and their names.
-/

namespace Verif

/-- `LayerFileEnum` (src/storage/consts.rs:95-159): a kind is its number. -/
abbrev FileKind := Fin 50

/-- A file name. -/
abbrev FileName := String

namespace FileKind

/-- `LayerFileEnum::Parent` (src/storage/consts.rs:157). -/
def parent : FileKind := 48

/-- `LayerFileEnum::Rollup` (src/storage/consts.rs:158). -/
def rollup : FileKind := 49

end FileKind

namespace FileName

/-- `FILENAME_ENUM_MAP` (src/storage/consts.rs:259-506). -/
def table : List (FileName × FileKind) :=
  [("node_dictionary_blocks.tfc", 0),
   ("node_dictionary_offsets.logarray", 1),
   ("predicate_dictionary_blocks.tfc", 2),
   ("predicate_dictionary_offsets.logarray", 3),
   ("value_dictionary_types.logarray", 4),
   ("value_dictionary_type_offsets.logarray", 5),
   ("value_dictionary_blocks.tfc", 6),
   ("value_dictionary_offsets.logarray", 7),
   ("node_value_idmap_bits.bitarray", 8),
   ("node_value_idmap_bit_index_blocks.bitarray", 9),
   ("node_value_idmap_bit_index_sblocks.bitarray", 10),
   ("predicate_idmap_bits.bitarray", 11),
   ("predicate_idmap_bit_index_blocks.bitarray", 12),
   ("predicate_idmap_bit_index_sblocks.bitarray", 13),
   ("base_subjects.logarray", 14),
   ("base_objects.logarray", 15),
   ("child_pos_subjects.logarray", 14),
   ("child_pos_objects.logarray", 15),
   ("child_neg_subjects.logarray", 16),
   ("child_neg_objects.logarray", 17),
   ("base_s_p_adjacency_list_nums.logarray", 18),
   ("base_s_p_adjacency_list_bits.bitarray", 19),
   ("base_s_p_adjacency_list_bit_index_blocks.logarray", 20),
   ("base_s_p_adjacency_list_bit_index_sblocks.logarray", 21),
   ("base_sp_o_adjacency_list_nums.logarray", 22),
   ("base_sp_o_adjacency_list_bits.bitarray", 23),
   ("base_sp_o_adjacency_list_bit_index_blocks.logarray", 24),
   ("base_sp_o_adjacency_list_bit_index_sblocks.logarray", 25),
   ("base_o_ps_adjacency_list_nums.logarray", 26),
   ("base_o_ps_adjacency_list_bits.bitarray", 27),
   ("base_o_ps_adjacency_list_bit_index_blocks.logarray", 28),
   ("base_o_ps_adjacency_list_bit_index_sblocks.logarray", 29),
   ("base_predicate_wavelet_tree_bits.bitarray", 30),
   ("base_predicate_wavelet_tree_bit_index_blocks.logarray", 31),
   ("base_predicate_wavelet_tree_bit_index_sblocks.logarray", 32),
   ("pos_s_p_adjacency_list_nums.logarray", 18),
   ("pos_s_p_adjacency_list_bits.bitarray", 19),
   ("pos_s_p_adjacency_list_bit_index_blocks.logarray", 20),
   ("pos_s_p_adjacency_list_bit_index_sblocks.logarray", 21),
   ("pos_sp_o_adjacency_list_nums.logarray", 22),
   ("pos_sp_o_adjacency_list_bits.bitarray", 23),
   ("pos_sp_o_adjacency_list_bit_index_blocks.logarray", 24),
   ("pos_sp_o_adjacency_list_bit_index_sblocks.logarray", 25),
   ("pos_o_ps_adjacency_list_nums.logarray", 26),
   ("pos_o_ps_adjacency_list_bits.bitarray", 27),
   ("pos_o_ps_adjacency_list_bit_index_blocks.logarray", 28),
   ("pos_o_ps_adjacency_list_bit_index_sblocks.logarray", 29),
   ("pos_predicate_wavelet_tree_bits.bitarray", 30),
   ("pos_predicate_wavelet_tree_bit_index_blocks.logarray", 31),
   ("pos_predicate_wavelet_tree_bit_index_sblocks.logarray", 32),
   ("neg_s_p_adjacency_list_nums.logarray", 33),
   ("neg_s_p_adjacency_list_bits.bitarray", 34),
   ("neg_s_p_adjacency_list_bit_index_blocks.logarray", 35),
   ("neg_s_p_adjacency_list_bit_index_sblocks.logarray", 36),
   ("neg_sp_o_adjacency_list_nums.logarray", 37),
   ("neg_sp_o_adjacency_list_bits.bitarray", 38),
   ("neg_sp_o_adjacency_list_bit_index_blocks.logarray", 39),
   ("neg_sp_o_adjacency_list_bit_index_sblocks.logarray", 40),
   ("neg_o_ps_adjacency_list_nums.logarray", 41),
   ("neg_o_ps_adjacency_list_bits.bitarray", 42),
   ("neg_o_ps_adjacency_list_bit_index_blocks.logarray", 43),
   ("neg_o_ps_adjacency_list_bit_index_sblocks.logarray", 44),
   ("neg_predicate_wavelet_tree_bits.bitarray", 45),
   ("neg_predicate_wavelet_tree_bit_index_blocks.logarray", 46),
   ("neg_predicate_wavelet_tree_bit_index_sblocks.logarray", 47),
   ("parent.hex", 48),
   ("rollup.hex", 49)]

/-- `FILENAMES.parent` (src/storage/consts.rs:255). -/
def parent : FileName := "parent.hex"

/-- `FILENAMES.rollup` (src/storage/consts.rs:256). -/
def rollup : FileName := "rollup.hex"

/-- `SHARED_REQUIRED_FILES` (src/storage/consts.rs:508-517). -/
def sharedRequired : List FileName :=
  ["node_dictionary_blocks.tfc",
   "node_dictionary_offsets.logarray",
   "predicate_dictionary_blocks.tfc",
   "predicate_dictionary_offsets.logarray",
   "value_dictionary_types.logarray",
   "value_dictionary_type_offsets.logarray",
   "value_dictionary_blocks.tfc",
   "value_dictionary_offsets.logarray"]

/-- `SHARED_OPTIONAL_FILES` (src/storage/consts.rs:519-527). -/
def sharedOptional : List FileName :=
  ["node_value_idmap_bits.bitarray",
   "node_value_idmap_bit_index_blocks.bitarray",
   "node_value_idmap_bit_index_sblocks.bitarray",
   "predicate_idmap_bits.bitarray",
   "predicate_idmap_bit_index_blocks.bitarray",
   "predicate_idmap_bit_index_sblocks.bitarray",
   "rollup.hex"]

/-- `BASE_LAYER_REQUIRED_FILES` (src/storage/consts.rs:529-545). -/
def baseRequired : List FileName :=
  ["base_s_p_adjacency_list_nums.logarray",
   "base_s_p_adjacency_list_bits.bitarray",
   "base_s_p_adjacency_list_bit_index_blocks.logarray",
   "base_s_p_adjacency_list_bit_index_sblocks.logarray",
   "base_sp_o_adjacency_list_nums.logarray",
   "base_sp_o_adjacency_list_bits.bitarray",
   "base_sp_o_adjacency_list_bit_index_blocks.logarray",
   "base_sp_o_adjacency_list_bit_index_sblocks.logarray",
   "base_o_ps_adjacency_list_nums.logarray",
   "base_o_ps_adjacency_list_bits.bitarray",
   "base_o_ps_adjacency_list_bit_index_blocks.logarray",
   "base_o_ps_adjacency_list_bit_index_sblocks.logarray",
   "base_predicate_wavelet_tree_bits.bitarray",
   "base_predicate_wavelet_tree_bit_index_blocks.logarray",
   "base_predicate_wavelet_tree_bit_index_sblocks.logarray"]

/-- `BASE_LAYER_OPTIONAL_FILES` (src/storage/consts.rs:547-548). -/
def baseOptional : List FileName :=
  ["base_subjects.logarray",
   "base_objects.logarray"]

/-- `CHILD_LAYER_REQUIRED_FILES` (src/storage/consts.rs:550-582). -/
def childRequired : List FileName :=
  ["parent.hex",
   "pos_s_p_adjacency_list_nums.logarray",
   "pos_s_p_adjacency_list_bits.bitarray",
   "pos_s_p_adjacency_list_bit_index_blocks.logarray",
   "pos_s_p_adjacency_list_bit_index_sblocks.logarray",
   "pos_sp_o_adjacency_list_nums.logarray",
   "pos_sp_o_adjacency_list_bits.bitarray",
   "pos_sp_o_adjacency_list_bit_index_blocks.logarray",
   "pos_sp_o_adjacency_list_bit_index_sblocks.logarray",
   "pos_o_ps_adjacency_list_nums.logarray",
   "pos_o_ps_adjacency_list_bits.bitarray",
   "pos_o_ps_adjacency_list_bit_index_blocks.logarray",
   "pos_o_ps_adjacency_list_bit_index_sblocks.logarray",
   "pos_predicate_wavelet_tree_bits.bitarray",
   "pos_predicate_wavelet_tree_bit_index_blocks.logarray",
   "pos_predicate_wavelet_tree_bit_index_sblocks.logarray",
   "neg_s_p_adjacency_list_nums.logarray",
   "neg_s_p_adjacency_list_bits.bitarray",
   "neg_s_p_adjacency_list_bit_index_blocks.logarray",
   "neg_s_p_adjacency_list_bit_index_sblocks.logarray",
   "neg_sp_o_adjacency_list_nums.logarray",
   "neg_sp_o_adjacency_list_bits.bitarray",
   "neg_sp_o_adjacency_list_bit_index_blocks.logarray",
   "neg_sp_o_adjacency_list_bit_index_sblocks.logarray",
   "neg_o_ps_adjacency_list_nums.logarray",
   "neg_o_ps_adjacency_list_bits.bitarray",
   "neg_o_ps_adjacency_list_bit_index_blocks.logarray",
   "neg_o_ps_adjacency_list_bit_index_sblocks.logarray",
   "neg_predicate_wavelet_tree_bits.bitarray",
   "neg_predicate_wavelet_tree_bit_index_blocks.logarray",
   "neg_predicate_wavelet_tree_bit_index_sblocks.logarray"]

/-- `CHILD_LAYER_OPTIONAL_FILES` (src/storage/consts.rs:584-589). -/
def childOptional : List FileName :=
  ["child_pos_subjects.logarray",
   "child_pos_objects.logarray",
   "child_neg_subjects.logarray",
   "child_neg_objects.logarray"]

/-- `FILENAME_ENUM_MAP[name]`: an unknown name is a panic. -/
def kind (f : FileName) : Out FileKind := Out.ofOption (table.lookup f)

end FileName

end Verif
