import Verif.Model.Files
import Verif.Model.Store
import Verif.Model.Backend

/-!
Model of the files of a layer: which files there are (src/storage/consts.rs, src/storage/file.rs,
src/storage/layer.rs:397-652, 739-1384), how the parts of a layer are written to them
(src/layer/builder.rs, src/layer/internal/base.rs, src/layer/internal/child.rs,
src/storage/delta.rs) and read from them (src/storage/file.rs,
src/layer/internal/base.rs:43-140, src/layer/internal/child.rs:53-197), and how they are copied
(src/storage/copy.rs).
-/

namespace Verif

/-! ### Names -/

namespace FileName

/-- `FILENAMES.node_dictionary_blocks` (src/storage/consts.rs:162). -/
def nodeDictionaryBlocks : FileName := "node_dictionary_blocks.tfc"

/-- `FILENAMES.node_dictionary_offsets` (src/storage/consts.rs:163). -/
def nodeDictionaryOffsets : FileName := "node_dictionary_offsets.logarray"

/-- `FILENAMES.predicate_dictionary_blocks` (src/storage/consts.rs:165). -/
def predicateDictionaryBlocks : FileName := "predicate_dictionary_blocks.tfc"

/-- `FILENAMES.predicate_dictionary_offsets` (src/storage/consts.rs:166). -/
def predicateDictionaryOffsets : FileName := "predicate_dictionary_offsets.logarray"

/-- `FILENAMES.value_dictionary_types_present` (src/storage/consts.rs:168). -/
def valueDictionaryTypesPresent : FileName := "value_dictionary_types.logarray"

/-- `FILENAMES.value_dictionary_type_offsets` (src/storage/consts.rs:169). -/
def valueDictionaryTypeOffsets : FileName := "value_dictionary_type_offsets.logarray"

/-- `FILENAMES.value_dictionary_blocks` (src/storage/consts.rs:170). -/
def valueDictionaryBlocks : FileName := "value_dictionary_blocks.tfc"

/-- `FILENAMES.value_dictionary_offsets` (src/storage/consts.rs:171). -/
def valueDictionaryOffsets : FileName := "value_dictionary_offsets.logarray"

/-- `FILENAMES.node_value_idmap_bits` (src/storage/consts.rs:173). -/
def nodeValueIdmapBits : FileName := "node_value_idmap_bits.bitarray"

/-- `FILENAMES.node_value_idmap_bit_index_blocks` (src/storage/consts.rs:174). -/
def nodeValueIdmapBitIndexBlocks : FileName := "node_value_idmap_bit_index_blocks.bitarray"

/-- `FILENAMES.node_value_idmap_bit_index_sblocks` (src/storage/consts.rs:175). -/
def nodeValueIdmapBitIndexSblocks : FileName := "node_value_idmap_bit_index_sblocks.bitarray"

/-- `FILENAMES.predicate_idmap_bits` (src/storage/consts.rs:177). -/
def predicateIdmapBits : FileName := "predicate_idmap_bits.bitarray"

/-- `FILENAMES.predicate_idmap_bit_index_blocks` (src/storage/consts.rs:178). -/
def predicateIdmapBitIndexBlocks : FileName := "predicate_idmap_bit_index_blocks.bitarray"

/-- `FILENAMES.predicate_idmap_bit_index_sblocks` (src/storage/consts.rs:179). -/
def predicateIdmapBitIndexSblocks : FileName := "predicate_idmap_bit_index_sblocks.bitarray"

/-- `FILENAMES.base_subjects` (src/storage/consts.rs:181). -/
def baseSubjects : FileName := "base_subjects.logarray"

/-- `FILENAMES.base_objects` (src/storage/consts.rs:182). -/
def baseObjects : FileName := "base_objects.logarray"

/-- `FILENAMES.base_s_p_adjacency_list_nums` (src/storage/consts.rs:184). -/
def baseSPAdjacencyListNums : FileName := "base_s_p_adjacency_list_nums.logarray"

/-- `FILENAMES.base_s_p_adjacency_list_bits` (src/storage/consts.rs:185). -/
def baseSPAdjacencyListBits : FileName := "base_s_p_adjacency_list_bits.bitarray"

/-- `FILENAMES.base_s_p_adjacency_list_bit_index_blocks` (src/storage/consts.rs:186). -/
def baseSPAdjacencyListBitIndexBlocks : FileName := "base_s_p_adjacency_list_bit_index_blocks.logarray"

/-- `FILENAMES.base_s_p_adjacency_list_bit_index_sblocks` (src/storage/consts.rs:187). -/
def baseSPAdjacencyListBitIndexSblocks : FileName := "base_s_p_adjacency_list_bit_index_sblocks.logarray"

/-- `FILENAMES.base_sp_o_adjacency_list_nums` (src/storage/consts.rs:189). -/
def baseSpOAdjacencyListNums : FileName := "base_sp_o_adjacency_list_nums.logarray"

/-- `FILENAMES.base_sp_o_adjacency_list_bits` (src/storage/consts.rs:190). -/
def baseSpOAdjacencyListBits : FileName := "base_sp_o_adjacency_list_bits.bitarray"

/-- `FILENAMES.base_sp_o_adjacency_list_bit_index_blocks` (src/storage/consts.rs:191). -/
def baseSpOAdjacencyListBitIndexBlocks : FileName := "base_sp_o_adjacency_list_bit_index_blocks.logarray"

/-- `FILENAMES.base_sp_o_adjacency_list_bit_index_sblocks` (src/storage/consts.rs:192-193). -/
def baseSpOAdjacencyListBitIndexSblocks : FileName := "base_sp_o_adjacency_list_bit_index_sblocks.logarray"

/-- `FILENAMES.base_o_ps_adjacency_list_nums` (src/storage/consts.rs:195). -/
def baseOPsAdjacencyListNums : FileName := "base_o_ps_adjacency_list_nums.logarray"

/-- `FILENAMES.base_o_ps_adjacency_list_bits` (src/storage/consts.rs:196). -/
def baseOPsAdjacencyListBits : FileName := "base_o_ps_adjacency_list_bits.bitarray"

/-- `FILENAMES.base_o_ps_adjacency_list_bit_index_blocks` (src/storage/consts.rs:197). -/
def baseOPsAdjacencyListBitIndexBlocks : FileName := "base_o_ps_adjacency_list_bit_index_blocks.logarray"

/-- `FILENAMES.base_o_ps_adjacency_list_bit_index_sblocks` (src/storage/consts.rs:198-199). -/
def baseOPsAdjacencyListBitIndexSblocks : FileName := "base_o_ps_adjacency_list_bit_index_sblocks.logarray"

/-- `FILENAMES.pos_subjects` (src/storage/consts.rs:201). -/
def posSubjects : FileName := "child_pos_subjects.logarray"

/-- `FILENAMES.pos_objects` (src/storage/consts.rs:202). -/
def posObjects : FileName := "child_pos_objects.logarray"

/-- `FILENAMES.pos_s_p_adjacency_list_nums` (src/storage/consts.rs:204). -/
def posSPAdjacencyListNums : FileName := "pos_s_p_adjacency_list_nums.logarray"

/-- `FILENAMES.pos_s_p_adjacency_list_bits` (src/storage/consts.rs:205). -/
def posSPAdjacencyListBits : FileName := "pos_s_p_adjacency_list_bits.bitarray"

/-- `FILENAMES.pos_s_p_adjacency_list_bit_index_blocks` (src/storage/consts.rs:206). -/
def posSPAdjacencyListBitIndexBlocks : FileName := "pos_s_p_adjacency_list_bit_index_blocks.logarray"

/-- `FILENAMES.pos_s_p_adjacency_list_bit_index_sblocks` (src/storage/consts.rs:207). -/
def posSPAdjacencyListBitIndexSblocks : FileName := "pos_s_p_adjacency_list_bit_index_sblocks.logarray"

/-- `FILENAMES.pos_sp_o_adjacency_list_nums` (src/storage/consts.rs:209). -/
def posSpOAdjacencyListNums : FileName := "pos_sp_o_adjacency_list_nums.logarray"

/-- `FILENAMES.pos_sp_o_adjacency_list_bits` (src/storage/consts.rs:210). -/
def posSpOAdjacencyListBits : FileName := "pos_sp_o_adjacency_list_bits.bitarray"

/-- `FILENAMES.pos_sp_o_adjacency_list_bit_index_blocks` (src/storage/consts.rs:211). -/
def posSpOAdjacencyListBitIndexBlocks : FileName := "pos_sp_o_adjacency_list_bit_index_blocks.logarray"

/-- `FILENAMES.pos_sp_o_adjacency_list_bit_index_sblocks` (src/storage/consts.rs:212). -/
def posSpOAdjacencyListBitIndexSblocks : FileName := "pos_sp_o_adjacency_list_bit_index_sblocks.logarray"

/-- `FILENAMES.pos_o_ps_adjacency_list_nums` (src/storage/consts.rs:214). -/
def posOPsAdjacencyListNums : FileName := "pos_o_ps_adjacency_list_nums.logarray"

/-- `FILENAMES.pos_o_ps_adjacency_list_bits` (src/storage/consts.rs:215). -/
def posOPsAdjacencyListBits : FileName := "pos_o_ps_adjacency_list_bits.bitarray"

/-- `FILENAMES.pos_o_ps_adjacency_list_bit_index_blocks` (src/storage/consts.rs:216). -/
def posOPsAdjacencyListBitIndexBlocks : FileName := "pos_o_ps_adjacency_list_bit_index_blocks.logarray"

/-- `FILENAMES.pos_o_ps_adjacency_list_bit_index_sblocks` (src/storage/consts.rs:217). -/
def posOPsAdjacencyListBitIndexSblocks : FileName := "pos_o_ps_adjacency_list_bit_index_sblocks.logarray"

/-- `FILENAMES.neg_subjects` (src/storage/consts.rs:219). -/
def negSubjects : FileName := "child_neg_subjects.logarray"

/-- `FILENAMES.neg_objects` (src/storage/consts.rs:220). -/
def negObjects : FileName := "child_neg_objects.logarray"

/-- `FILENAMES.neg_s_p_adjacency_list_nums` (src/storage/consts.rs:222). -/
def negSPAdjacencyListNums : FileName := "neg_s_p_adjacency_list_nums.logarray"

/-- `FILENAMES.neg_s_p_adjacency_list_bits` (src/storage/consts.rs:223). -/
def negSPAdjacencyListBits : FileName := "neg_s_p_adjacency_list_bits.bitarray"

/-- `FILENAMES.neg_s_p_adjacency_list_bit_index_blocks` (src/storage/consts.rs:224). -/
def negSPAdjacencyListBitIndexBlocks : FileName := "neg_s_p_adjacency_list_bit_index_blocks.logarray"

/-- `FILENAMES.neg_s_p_adjacency_list_bit_index_sblocks` (src/storage/consts.rs:225). -/
def negSPAdjacencyListBitIndexSblocks : FileName := "neg_s_p_adjacency_list_bit_index_sblocks.logarray"

/-- `FILENAMES.neg_sp_o_adjacency_list_nums` (src/storage/consts.rs:227). -/
def negSpOAdjacencyListNums : FileName := "neg_sp_o_adjacency_list_nums.logarray"

/-- `FILENAMES.neg_sp_o_adjacency_list_bits` (src/storage/consts.rs:228). -/
def negSpOAdjacencyListBits : FileName := "neg_sp_o_adjacency_list_bits.bitarray"

/-- `FILENAMES.neg_sp_o_adjacency_list_bit_index_blocks` (src/storage/consts.rs:229). -/
def negSpOAdjacencyListBitIndexBlocks : FileName := "neg_sp_o_adjacency_list_bit_index_blocks.logarray"

/-- `FILENAMES.neg_sp_o_adjacency_list_bit_index_sblocks` (src/storage/consts.rs:230). -/
def negSpOAdjacencyListBitIndexSblocks : FileName := "neg_sp_o_adjacency_list_bit_index_sblocks.logarray"

/-- `FILENAMES.neg_o_ps_adjacency_list_nums` (src/storage/consts.rs:232). -/
def negOPsAdjacencyListNums : FileName := "neg_o_ps_adjacency_list_nums.logarray"

/-- `FILENAMES.neg_o_ps_adjacency_list_bits` (src/storage/consts.rs:233). -/
def negOPsAdjacencyListBits : FileName := "neg_o_ps_adjacency_list_bits.bitarray"

/-- `FILENAMES.neg_o_ps_adjacency_list_bit_index_blocks` (src/storage/consts.rs:234). -/
def negOPsAdjacencyListBitIndexBlocks : FileName := "neg_o_ps_adjacency_list_bit_index_blocks.logarray"

/-- `FILENAMES.neg_o_ps_adjacency_list_bit_index_sblocks` (src/storage/consts.rs:235). -/
def negOPsAdjacencyListBitIndexSblocks : FileName := "neg_o_ps_adjacency_list_bit_index_sblocks.logarray"

/-- `FILENAMES.base_predicate_wavelet_tree_bits` (src/storage/consts.rs:237). -/
def basePredicateWaveletTreeBits : FileName := "base_predicate_wavelet_tree_bits.bitarray"

/-- `FILENAMES.base_predicate_wavelet_tree_bit_index_blocks` (src/storage/consts.rs:238-239). -/
def basePredicateWaveletTreeBitIndexBlocks : FileName := "base_predicate_wavelet_tree_bit_index_blocks.logarray"

/-- `FILENAMES.base_predicate_wavelet_tree_bit_index_sblocks` (src/storage/consts.rs:240-241). -/
def basePredicateWaveletTreeBitIndexSblocks : FileName := "base_predicate_wavelet_tree_bit_index_sblocks.logarray"

/-- `FILENAMES.pos_predicate_wavelet_tree_bits` (src/storage/consts.rs:243). -/
def posPredicateWaveletTreeBits : FileName := "pos_predicate_wavelet_tree_bits.bitarray"

/-- `FILENAMES.pos_predicate_wavelet_tree_bit_index_blocks` (src/storage/consts.rs:244-245). -/
def posPredicateWaveletTreeBitIndexBlocks : FileName := "pos_predicate_wavelet_tree_bit_index_blocks.logarray"

/-- `FILENAMES.pos_predicate_wavelet_tree_bit_index_sblocks` (src/storage/consts.rs:246-247). -/
def posPredicateWaveletTreeBitIndexSblocks : FileName := "pos_predicate_wavelet_tree_bit_index_sblocks.logarray"

/-- `FILENAMES.neg_predicate_wavelet_tree_bits` (src/storage/consts.rs:249). -/
def negPredicateWaveletTreeBits : FileName := "neg_predicate_wavelet_tree_bits.bitarray"

/-- `FILENAMES.neg_predicate_wavelet_tree_bit_index_blocks` (src/storage/consts.rs:250-251). -/
def negPredicateWaveletTreeBitIndexBlocks : FileName := "neg_predicate_wavelet_tree_bit_index_blocks.logarray"

/-- `FILENAMES.neg_predicate_wavelet_tree_bit_index_sblocks` (src/storage/consts.rs:252-253). -/
def negPredicateWaveletTreeBitIndexSblocks : FileName := "neg_predicate_wavelet_tree_bit_index_sblocks.logarray"

end FileName

/-! ### The files -/

/-- `DictionaryFiles` of tdb-succinct, also `DictionaryMaps`. -/
structure DictFiles (F : Type) where
  blocks : F
  offsets : F
deriving DecidableEq, Repr

/-- `TypedDictionaryFiles` of tdb-succinct, also `TypedDictionaryMaps`. -/
structure TypedDictFiles (F : Type) where
  typesPresent : F
  typeOffsets : F
  offsets : F
  blocks : F
deriving DecidableEq, Repr

/-- `BitIndexFiles` of tdb-succinct, also `BitIndexMaps`. -/
structure BitIndexFiles (F : Type) where
  bits : F
  blocks : F
  sblocks : F
deriving DecidableEq, Repr

/-- `AdjacencyListFiles` of tdb-succinct, also `AdjacencyListMaps`. -/
structure AdjFiles (F : Type) where
  bitindex : BitIndexFiles F
  nums : F
deriving DecidableEq, Repr

/-- `IdMapFiles` (src/storage/file.rs:17-21). -/
structure IdMapFiles (F : Type) where
  nodeValue : BitIndexFiles F
  predicate : BitIndexFiles F
deriving DecidableEq, Repr

/-- `BaseLayerFiles` (src/storage/file.rs:79-95). -/
structure BaseLayerFiles (F : Type) where
  node : DictFiles F
  predicate : DictFiles F
  value : TypedDictFiles F
  idMap : IdMapFiles F
  subjects : F
  objects : F
  sp : AdjFiles F
  spo : AdjFiles F
  ops : AdjFiles F
  wavelet : BitIndexFiles F
deriving DecidableEq, Repr

/-- `ChildLayerFiles` (src/storage/file.rs:153-174). -/
structure ChildLayerFiles (F : Type) where
  node : DictFiles F
  predicate : DictFiles F
  value : TypedDictFiles F
  idMap : IdMapFiles F
  posSubjects : F
  posObjects : F
  negSubjects : F
  negObjects : F
  posSp : AdjFiles F
  posSpo : AdjFiles F
  posOps : AdjFiles F
  negSp : AdjFiles F
  negSpo : AdjFiles F
  negOps : AdjFiles F
  posWavelet : BitIndexFiles F
  negWavelet : BitIndexFiles F
deriving DecidableEq, Repr

namespace LayerFiles

/-- The names that `base_layer_files` asks for (src/storage/layer.rs:398-430). -/
def baseNames : List FileName :=
  [FileName.nodeDictionaryBlocks,
   FileName.nodeDictionaryOffsets,
   FileName.predicateDictionaryBlocks,
   FileName.predicateDictionaryOffsets,
   FileName.valueDictionaryTypesPresent,
   FileName.valueDictionaryTypeOffsets,
   FileName.valueDictionaryOffsets,
   FileName.valueDictionaryBlocks,
   FileName.nodeValueIdmapBits,
   FileName.nodeValueIdmapBitIndexBlocks,
   FileName.nodeValueIdmapBitIndexSblocks,
   FileName.predicateIdmapBits,
   FileName.predicateIdmapBitIndexBlocks,
   FileName.predicateIdmapBitIndexSblocks,
   FileName.baseSubjects,
   FileName.baseObjects,
   FileName.baseSPAdjacencyListBits,
   FileName.baseSPAdjacencyListBitIndexBlocks,
   FileName.baseSPAdjacencyListBitIndexSblocks,
   FileName.baseSPAdjacencyListNums,
   FileName.baseSpOAdjacencyListBits,
   FileName.baseSpOAdjacencyListBitIndexBlocks,
   FileName.baseSpOAdjacencyListBitIndexSblocks,
   FileName.baseSpOAdjacencyListNums,
   FileName.baseOPsAdjacencyListBits,
   FileName.baseOPsAdjacencyListBitIndexBlocks,
   FileName.baseOPsAdjacencyListBitIndexSblocks,
   FileName.baseOPsAdjacencyListNums,
   FileName.basePredicateWaveletTreeBits,
   FileName.basePredicateWaveletTreeBitIndexBlocks,
   FileName.basePredicateWaveletTreeBitIndexSblocks]

/-- The names that `child_layer_files` asks for (src/storage/layer.rs:503-552). -/
def childNames : List FileName :=
  [FileName.nodeDictionaryBlocks,
   FileName.nodeDictionaryOffsets,
   FileName.predicateDictionaryBlocks,
   FileName.predicateDictionaryOffsets,
   FileName.valueDictionaryTypesPresent,
   FileName.valueDictionaryTypeOffsets,
   FileName.valueDictionaryOffsets,
   FileName.valueDictionaryBlocks,
   FileName.nodeValueIdmapBits,
   FileName.nodeValueIdmapBitIndexBlocks,
   FileName.nodeValueIdmapBitIndexSblocks,
   FileName.predicateIdmapBits,
   FileName.predicateIdmapBitIndexBlocks,
   FileName.predicateIdmapBitIndexSblocks,
   FileName.posSubjects,
   FileName.posObjects,
   FileName.negSubjects,
   FileName.negObjects,
   FileName.posSPAdjacencyListBits,
   FileName.posSPAdjacencyListBitIndexBlocks,
   FileName.posSPAdjacencyListBitIndexSblocks,
   FileName.posSPAdjacencyListNums,
   FileName.posSpOAdjacencyListBits,
   FileName.posSpOAdjacencyListBitIndexBlocks,
   FileName.posSpOAdjacencyListBitIndexSblocks,
   FileName.posSpOAdjacencyListNums,
   FileName.posOPsAdjacencyListBits,
   FileName.posOPsAdjacencyListBitIndexBlocks,
   FileName.posOPsAdjacencyListBitIndexSblocks,
   FileName.posOPsAdjacencyListNums,
   FileName.negSPAdjacencyListBits,
   FileName.negSPAdjacencyListBitIndexBlocks,
   FileName.negSPAdjacencyListBitIndexSblocks,
   FileName.negSPAdjacencyListNums,
   FileName.negSpOAdjacencyListBits,
   FileName.negSpOAdjacencyListBitIndexBlocks,
   FileName.negSpOAdjacencyListBitIndexSblocks,
   FileName.negSpOAdjacencyListNums,
   FileName.negOPsAdjacencyListBits,
   FileName.negOPsAdjacencyListBitIndexBlocks,
   FileName.negOPsAdjacencyListBitIndexSblocks,
   FileName.negOPsAdjacencyListNums,
   FileName.posPredicateWaveletTreeBits,
   FileName.posPredicateWaveletTreeBitIndexBlocks,
   FileName.posPredicateWaveletTreeBitIndexSblocks,
   FileName.negPredicateWaveletTreeBits,
   FileName.negPredicateWaveletTreeBitIndexBlocks,
   FileName.negPredicateWaveletTreeBitIndexSblocks]

variable {F : Type}

/-- `files[i].clone()`. -/
def at' (l : List F) (i : Nat) : Out F := Out.ofOption l[i]?

/-- A `DictionaryFiles` of `base_layer_files`. -/
def dictAt (l : List F) (blocks offsets : Nat) : Out (DictFiles F) := do
  let b ← at' l blocks
  let o ← at' l offsets
  return { blocks := b, offsets := o }

/-- A `TypedDictionaryFiles` of `base_layer_files`. -/
def typedAt (l : List F) (typesPresent typeOffsets offsets blocks : Nat) :
    Out (TypedDictFiles F) := do
  let p ← at' l typesPresent
  let t ← at' l typeOffsets
  let o ← at' l offsets
  let b ← at' l blocks
  return { typesPresent := p, typeOffsets := t, offsets := o, blocks := b }

/-- A `BitIndexFiles` of `base_layer_files`. -/
def bitIndexAt (l : List F) (bits blocks sblocks : Nat) : Out (BitIndexFiles F) := do
  let a ← at' l bits
  let b ← at' l blocks
  let s ← at' l sblocks
  return { bits := a, blocks := b, sblocks := s }

/-- An `AdjacencyListFiles` of `base_layer_files`. -/
def adjAt (l : List F) (bits blocks sblocks nums : Nat) : Out (AdjFiles F) := do
  let x ← bitIndexAt l bits blocks sblocks
  let n ← at' l nums
  return { bitindex := x, nums := n }

/-- `base_layer_files` (src/storage/layer.rs:397-500). `get` is `get_file`. -/
def baseLayerFiles (get : FileName → Out F) : Out (BaseLayerFiles F) := do
  let l ← Out.collect get baseNames
  let node ← dictAt l 0 1
  let predicate ← dictAt l 2 3
  let value ← typedAt l 4 5 6 7
  let nodeValue ← bitIndexAt l 8 9 10
  let predicateMap ← bitIndexAt l 11 12 13
  let subjects ← at' l 14
  let objects ← at' l 15
  let sp ← adjAt l 16 17 18 19
  let spo ← adjAt l 20 21 22 23
  let ops ← adjAt l 24 25 26 27
  let wavelet ← bitIndexAt l 28 29 30
  return { node, predicate, value, idMap := { nodeValue, predicate := predicateMap }, subjects,
           objects, sp, spo, ops, wavelet }

/-- `child_layer_files` (src/storage/layer.rs:502-652). -/
def childLayerFiles (get : FileName → Out F) : Out (ChildLayerFiles F) := do
  let l ← Out.collect get childNames
  let node ← dictAt l 0 1
  let predicate ← dictAt l 2 3
  let value ← typedAt l 4 5 6 7
  let nodeValue ← bitIndexAt l 8 9 10
  let predicateMap ← bitIndexAt l 11 12 13
  let posSubjects ← at' l 14
  let posObjects ← at' l 15
  let negSubjects ← at' l 16
  let negObjects ← at' l 17
  let posSp ← adjAt l 18 19 20 21
  let posSpo ← adjAt l 22 23 24 25
  let posOps ← adjAt l 26 27 28 29
  let negSp ← adjAt l 30 31 32 33
  let negSpo ← adjAt l 34 35 36 37
  let negOps ← adjAt l 38 39 40 41
  let posWavelet ← bitIndexAt l 42 43 44
  let negWavelet ← bitIndexAt l 45 46 47
  return { node, predicate, value, idMap := { nodeValue, predicate := predicateMap }, posSubjects,
           posObjects, negSubjects, negObjects, posSp, posSpo, posOps, negSp, negSpo, negOps,
           posWavelet, negWavelet }

/-! ### The files for single questions

`dir` is whether the layer is there (`directory_exists`), `child` whether it has a parent
(`layer_has_parent`). -/

/-- `Err(NotFound)` if the layer is not there. -/
def ifThere {α : Type} (dir : Bool) (x : Out α) : Out α := if dir then x else .err

/-- `node_dictionary_files` (src/storage/layer.rs:738-759). -/
def nodeDictionaryFiles (get : FileName → Out F) (dir : Bool) : Out (DictFiles F) :=
  ifThere dir (do
    let offsets ← get FileName.nodeDictionaryOffsets
    let blocks ← get FileName.nodeDictionaryBlocks
    return { blocks, offsets })

/-- `predicate_dictionary_files` (src/storage/layer.rs:761-782). -/
def predicateDictionaryFiles (get : FileName → Out F) (dir : Bool) : Out (DictFiles F) :=
  ifThere dir (do
    let offsets ← get FileName.predicateDictionaryOffsets
    let blocks ← get FileName.predicateDictionaryBlocks
    return { blocks, offsets })

/-- `value_dictionary_files` (src/storage/layer.rs:784-813). -/
def valueDictionaryFiles (get : FileName → Out F) (dir : Bool) : Out (TypedDictFiles F) :=
  ifThere dir (do
    let typesPresent ← get FileName.valueDictionaryTypesPresent
    let typeOffsets ← get FileName.valueDictionaryTypeOffsets
    let offsets ← get FileName.valueDictionaryOffsets
    let blocks ← get FileName.valueDictionaryBlocks
    return { typesPresent, typeOffsets, offsets, blocks })

/-- Get the three files of a bit index. -/
def getBitIndex (get : FileName → Out F) (bits blocks sblocks : FileName) :
    Out (BitIndexFiles F) := do
  let a ← get bits
  let b ← get blocks
  let s ← get sblocks
  return { bits := a, blocks := b, sblocks := s }

/-- Get the four files of an adjacency list. -/
def getAdj (get : FileName → Out F) (nums bits blocks sblocks : FileName) : Out (AdjFiles F) := do
  let n ← get nums
  let x ← getBitIndex get bits blocks sblocks
  return { bitindex := x, nums := n }

/-- `node_value_idmap_files` (src/storage/layer.rs:815-839). -/
def nodeValueIdMapFiles (get : FileName → Out F) (dir : Bool) : Out (BitIndexFiles F) :=
  ifThere dir (getBitIndex get FileName.nodeValueIdmapBits FileName.nodeValueIdmapBitIndexBlocks
    FileName.nodeValueIdmapBitIndexSblocks)

/-- `predicate_idmap_files` (src/storage/layer.rs:841-863). -/
def predicateIdMapFiles (get : FileName → Out F) (dir : Bool) : Out (BitIndexFiles F) :=
  ifThere dir (getBitIndex get FileName.predicateIdmapBits FileName.predicateIdmapBitIndexBlocks
    FileName.predicateIdmapBitIndexSblocks)

/-- The file with the subjects and the two adjacency lists that are read for the triples of a
layer. -/
structure SubjectFiles (F : Type) where
  subjects : F
  sp : AdjFiles F
  spo : AdjFiles F
deriving DecidableEq, Repr

/-- The files that are read for the triples of an object. -/
structure ObjectFiles (F : Type) where
  subjects : F
  objects : F
  ops : AdjFiles F
  sp : AdjFiles F
deriving DecidableEq, Repr

/-- The files that are read for the number of triples. -/
structure CountFiles (F : Type) where
  spNums : F
  spoBits : F
  wavelet : BitIndexFiles F
deriving DecidableEq, Repr

/-- `triple_addition_files` (src/storage/layer.rs:865-963). -/
def additionFiles (get : FileName → Out F) (dir child : Bool) : Out (SubjectFiles F) :=
  ifThere dir
    (if child then do
      let sp ← getAdj get FileName.posSPAdjacencyListNums FileName.posSPAdjacencyListBits
        FileName.posSPAdjacencyListBitIndexBlocks FileName.posSPAdjacencyListBitIndexSblocks
      let spo ← getAdj get FileName.posSpOAdjacencyListNums FileName.posSpOAdjacencyListBits
        FileName.posSpOAdjacencyListBitIndexBlocks FileName.posSpOAdjacencyListBitIndexSblocks
      let subjects ← get FileName.posSubjects
      return { subjects, sp, spo }
    else do
      let sp ← getAdj get FileName.baseSPAdjacencyListNums FileName.baseSPAdjacencyListBits
        FileName.baseSPAdjacencyListBitIndexBlocks FileName.baseSPAdjacencyListBitIndexSblocks
      let spo ← getAdj get FileName.baseSpOAdjacencyListNums FileName.baseSpOAdjacencyListBits
        FileName.baseSpOAdjacencyListBitIndexBlocks FileName.baseSpOAdjacencyListBitIndexSblocks
      let subjects ← get FileName.baseSubjects
      return { subjects, sp, spo })

/-- `triple_removal_files` (src/storage/layer.rs:965-1042). -/
def removalFiles (get : FileName → Out F) (dir child : Bool) : Out (Option (SubjectFiles F)) :=
  ifThere dir
    (if child then do
      let sp ← getAdj get FileName.negSPAdjacencyListNums FileName.negSPAdjacencyListBits
        FileName.negSPAdjacencyListBitIndexBlocks FileName.negSPAdjacencyListBitIndexSblocks
      let spo ← getAdj get FileName.negSpOAdjacencyListNums FileName.negSpOAdjacencyListBits
        FileName.negSpOAdjacencyListBitIndexBlocks FileName.negSpOAdjacencyListBitIndexSblocks
      let subjects ← get FileName.negSubjects
      return some { subjects, sp, spo }
    else .ok none)

/-- `predicate_wavelet_addition_files` (src/storage/layer.rs:1044-1095). -/
def waveletAdditionFiles (get : FileName → Out F) (dir child : Bool) : Out (BitIndexFiles F) :=
  ifThere dir
    (if child then
      getBitIndex get FileName.posPredicateWaveletTreeBits
        FileName.posPredicateWaveletTreeBitIndexBlocks
        FileName.posPredicateWaveletTreeBitIndexSblocks
    else
      getBitIndex get FileName.basePredicateWaveletTreeBits
        FileName.basePredicateWaveletTreeBitIndexBlocks
        FileName.basePredicateWaveletTreeBitIndexSblocks)

/-- `predicate_wavelet_removal_files` (src/storage/layer.rs:1097-1134). -/
def waveletRemovalFiles (get : FileName → Out F) (dir child : Bool) :
    Out (Option (BitIndexFiles F)) :=
  ifThere dir
    (if child then do
      let x ← getBitIndex get FileName.negPredicateWaveletTreeBits
        FileName.negPredicateWaveletTreeBitIndexBlocks
        FileName.negPredicateWaveletTreeBitIndexSblocks
      return some x
    else .ok none)

/-- `triple_addition_files_by_object` (src/storage/layer.rs:1136-1244). -/
def additionFilesByObject (get : FileName → Out F) (dir child : Bool) : Out (ObjectFiles F) :=
  ifThere dir
    (if child then do
      let ops ← getAdj get FileName.posOPsAdjacencyListNums FileName.posOPsAdjacencyListBits
        FileName.posOPsAdjacencyListBitIndexBlocks FileName.posOPsAdjacencyListBitIndexSblocks
      let sp ← getAdj get FileName.posSPAdjacencyListNums FileName.posSPAdjacencyListBits
        FileName.posSPAdjacencyListBitIndexBlocks FileName.posSPAdjacencyListBitIndexSblocks
      let subjects ← get FileName.posSubjects
      let objects ← get FileName.posObjects
      return { subjects, objects, ops, sp }
    else do
      let ops ← getAdj get FileName.baseOPsAdjacencyListNums FileName.baseOPsAdjacencyListBits
        FileName.baseOPsAdjacencyListBitIndexBlocks FileName.baseOPsAdjacencyListBitIndexSblocks
      let sp ← getAdj get FileName.baseSPAdjacencyListNums FileName.baseSPAdjacencyListBits
        FileName.baseSPAdjacencyListBitIndexBlocks FileName.baseSPAdjacencyListBitIndexSblocks
      let subjects ← get FileName.baseSubjects
      let objects ← get FileName.baseObjects
      return { subjects, objects, ops, sp })

/-- `triple_removal_files_by_object` (src/storage/layer.rs:1246-1320). -/
def removalFilesByObject (get : FileName → Out F) (dir child : Bool) :
    Out (Option (ObjectFiles F)) :=
  ifThere dir
    (if child then do
      let ops ← getAdj get FileName.negOPsAdjacencyListNums FileName.negOPsAdjacencyListBits
        FileName.negOPsAdjacencyListBitIndexBlocks FileName.negOPsAdjacencyListBitIndexSblocks
      let sp ← getAdj get FileName.negSPAdjacencyListNums FileName.negSPAdjacencyListBits
        FileName.negSPAdjacencyListBitIndexBlocks FileName.negSPAdjacencyListBitIndexSblocks
      let subjects ← get FileName.negSubjects
      let objects ← get FileName.negObjects
      return some { subjects, objects, ops, sp }
    else .ok none)

/-- `triple_layer_addition_count_files` (src/storage/layer.rs:1322-1352). -/
def additionCountFiles (get : FileName → Out F) (dir child : Bool) : Out (CountFiles F) :=
  ifThere dir (do
    let spNums ← get (if child then FileName.posSPAdjacencyListNums
      else FileName.baseSPAdjacencyListNums)
    let spoBits ← get (if child then FileName.posSpOAdjacencyListBits
      else FileName.baseSpOAdjacencyListBits)
    let wavelet ← waveletAdditionFiles get dir child
    return { spNums, spoBits, wavelet })

/-- `triple_layer_removal_count_files` (src/storage/layer.rs:1354-1384). -/
def removalCountFiles (get : FileName → Out F) (dir child : Bool) : Out (Option (CountFiles F)) :=
  ifThere dir
    (if child then do
      let spNums ← get FileName.negSPAdjacencyListNums
      let spoBits ← get FileName.negSpOAdjacencyListBits
      let w ← waveletRemovalFiles get dir child
      let wavelet ← Out.ofOption w
      return some { spNums, spoBits, wavelet }
    else .ok none)

end LayerFiles

/-! ### The formats -/

/-- `calculate_width` of tdb-succinct: the number of bits that a number needs, at least one. -/
def calcWidth (n : Nat) : Nat := if n = 0 then 1 else Nat.log2 n + 1

/-- How tdb-succinct writes and reads dictionaries, log arrays, bit indexes and wavelet trees.
That what was written is read back is assumed, for dictionaries with increasing entries and for
numbers that fit in the width. A file with other contents may be read as anything, or be a
panic. -/
structure Coder (K V : Type) [LinearOrder K] [LinearOrder V] where
  dict : List K → DictFiles Bytes
  /-- `StringDict::parse`: offsets and blocks. -/
  parseDict : Bytes → Bytes → Out (List K)
  typed : List V → TypedDictFiles Bytes
  /-- `TypedDict::from_parts`: types, type offsets, offsets and blocks. -/
  parseTyped : Bytes → Bytes → Bytes → Bytes → Out (List V)
  /-- `dict_file_get_count` of the blocks. -/
  count : Bytes → Out Nat
  /-- A log array with numbers of this width. -/
  log : Nat → List Nat → Bytes
  /-- `LogArray::parse`: the width and the numbers. -/
  parseLog : Bytes → Out (Nat × List Nat)
  /-- `logarray_file_get_length_and_width`. -/
  logHeader : Bytes → Out (Nat × Nat)
  bits : List Bool → BitIndexFiles Bytes
  /-- `BitIndex::from_maps`: bits, blocks and superblocks. -/
  parseBits : Bytes → Bytes → Bytes → Out (List Bool)
  /-- `bitarray_len_from_file`. -/
  bitsLen : Bytes → Out Nat
  /-- A wavelet tree of this width. -/
  wavelet : Nat → List Nat → BitIndexFiles Bytes
  /-- `WaveletTree::from_parts(BitIndex::from_maps(..), width)`. -/
  parseWavelet : Bytes → Bytes → Bytes → Nat → Out (List Nat)
  dict_ok : ∀ l, SortedLt l → parseDict (dict l).offsets (dict l).blocks = .ok l
  typed_ok : ∀ l, SortedLt l → parseTyped (typed l).typesPresent (typed l).typeOffsets
    (typed l).offsets (typed l).blocks = .ok l
  count_dict : ∀ l, SortedLt l → count (dict l).blocks = .ok l.length
  count_typed : ∀ l, SortedLt l → count (typed l).blocks = .ok l.length
  log_ok : ∀ w l, (∀ x ∈ l, x < 2 ^ w) → parseLog (log w l) = .ok (w, l)
  header_ok : ∀ w l, (∀ x ∈ l, x < 2 ^ w) → logHeader (log w l) = .ok (l.length, w)
  bits_ok : ∀ l, parseBits (bits l).bits (bits l).blocks (bits l).sblocks = .ok l
  len_ok : ∀ l, bitsLen (bits l).bits = .ok l.length
  wavelet_ok : ∀ w l, (∀ x ∈ l, x < 2 ^ w) →
    parseWavelet (wavelet w l).bits (wavelet w l).blocks (wavelet w l).sblocks w = .ok l

namespace LayerFiles

variable {K V : Type} [LinearOrder K] [LinearOrder V] {F : Type}

/-! ### Writing -/

/-- Files with what is written to them. -/
abbrev Writes (F : Type) := List (F × Bytes)

/-- Write a dictionary (`write_all_from_bufs` in src/layer/builder.rs:183-189, and the merged
dictionaries of rollups, src/storage/delta.rs:20-102). -/
def writeDict (c : Coder K V) (f : DictFiles F) (l : List K) : Writes F :=
  [(f.blocks, (c.dict l).blocks), (f.offsets, (c.dict l).offsets)]

/-- Write the dictionary of values (src/layer/builder.rs:191-198). -/
def writeTyped (c : Coder K V) (f : TypedDictFiles F) (l : List V) : Writes F :=
  [(f.typesPresent, (c.typed l).typesPresent), (f.typeOffsets, (c.typed l).typeOffsets),
   (f.offsets, (c.typed l).offsets), (f.blocks, (c.typed l).blocks)]

/-- Write the three files of a bit index. -/
def writeBitIndex (f : BitIndexFiles F) (b : BitIndexFiles Bytes) : Writes F :=
  [(f.bits, b.bits), (f.blocks, b.blocks), (f.sblocks, b.sblocks)]

/-- Write a log array (`LogArrayFileBuilder`): a number that does not fit is an error. -/
def writeLog (c : Coder K V) (f : F) (w : Nat) (l : List Nat) : Out (Writes F) :=
  if ∀ x ∈ l, x < 2 ^ w then .ok [(f, c.log w l)] else .err

/-- Write an adjacency list with numbers of width `w` (`AdjacencyListBuilder`). -/
def writeAdj (c : Coder K V) (f : AdjFiles F) (w : Nat) (a : AdjList) : Out (Writes F) := do
  let nums ← writeLog c f.nums w a.nums
  return writeBitIndex f.bitindex (c.bits a.bits) ++ nums

/-- Write an id map (src/layer/id_map.rs:145-182); only rollups have them. The width is that of
the number of entries. -/
def writeIdMap (c : Coder K V) (f : BitIndexFiles F) (entries : Nat) : IdMap → Writes F
  | none => []
  | some l => writeBitIndex f (c.wavelet (calcWidth entries) l)

/-- Write a list of subjects or objects that is there in child layers only: the width is that of
the last one (src/layer/builder.rs:344-360, 484-490). -/
def writeOpt (c : Coder K V) (f : F) : Option (List Nat) → Out (Writes F)
  | none => .ok []
  | some l => writeLog c f (calcWidth (l.getLastD 0)) l

/-- The greatest number of a pair of subject and predicate that is in use: that of the last pair
of the stream (src/layer/builder.rs:383, 390-391). -/
def greatestSp (spo : AdjList) : Nat := (((streamPairs spo).map (·.1)).getLastD 0)

/-- The files of one side of a layer. -/
structure SideFiles (F : Type) where
  subjects : F
  objects : F
  sp : AdjFiles F
  spo : AdjFiles F
  ops : AdjFiles F
  wavelet : BitIndexFiles F
deriving DecidableEq, Repr

/-- The side of a base layer (src/layer/internal/base.rs:333-402). -/
def _root_.Verif.BaseLayerFiles.side (f : BaseLayerFiles F) : SideFiles F :=
  { subjects := f.subjects, objects := f.objects, sp := f.sp, spo := f.spo, ops := f.ops,
    wavelet := f.wavelet }

/-- The additions of a child layer (src/layer/internal/child.rs:403-412, 539-545). -/
def _root_.Verif.ChildLayerFiles.pos (f : ChildLayerFiles F) : SideFiles F :=
  { subjects := f.posSubjects, objects := f.posObjects, sp := f.posSp, spo := f.posSpo,
    ops := f.posOps, wavelet := f.posWavelet }

/-- The removals of a child layer (src/layer/internal/child.rs:413-422, 546-552). -/
def _root_.Verif.ChildLayerFiles.neg (f : ChildLayerFiles F) : SideFiles F :=
  { subjects := f.negSubjects, objects := f.negObjects, sp := f.negSp, spo := f.negSpo,
    ops := f.negOps, wavelet := f.negWavelet }

/-- Write one side: `TripleFileBuilder` (src/layer/builder.rs:221-363) and `build_indexes`
(src/layer/builder.rs:367-554). `np` and `no` are the numbers of predicates and of nodes and values
that the builder is told. The wavelet tree is made from the numbers in the s_p file, with the
width in its header. -/
def writeSide (c : Coder K V) (f : SideFiles F) (np no : Nat) (x : TripleIndex) :
    Out (Writes F) := do
  let sp ← writeAdj c f.sp (calcWidth np) x.sp
  let spo ← writeAdj c f.spo (calcWidth no) x.spo
  let subjects ← writeOpt c f.subjects x.subjects
  let ops ← writeAdj c f.ops (calcWidth (greatestSp x.spo)) x.ops
  let objects ← writeOpt c f.objects x.objects
  return sp ++ spo ++ subjects ++ ops ++ objects ++
    writeBitIndex f.wavelet (c.wavelet (calcWidth np) x.sp.nums)

/-- The dictionaries and id maps. -/
def writeDicts (c : Coder K V) (node predicate : DictFiles F) (value : TypedDictFiles F)
    (idMap : IdMapFiles F) (d : LayerData K V) : Writes F :=
  writeDict c node d.nodes ++ writeDict c predicate d.preds ++ writeTyped c value d.values ++
    writeIdMap c idMap.nodeValue (d.nodes.length + d.values.length) d.nvMap ++
    writeIdMap c idMap.predicate d.preds.length d.pMap

/-- How many predicates there are with those of the layers below
(src/layer/internal/base.rs:338-346, src/layer/internal/child.rs:396-422,
src/storage/delta.rs:276-290, 308-332, 374-398). -/
def totalP (d : LayerData K V) : Nat := d.parentP + d.preds.length

/-- How many nodes and values there are with those of the layers below. -/
def totalNV (d : LayerData K V) : Nat := d.parentNV + (d.nodes.length + d.values.length)

/-- Write the files of a base layer (src/layer/internal/base.rs:176-402,
src/storage/delta.rs:230-305, src/layer/internal/base_merge.rs:180-300). The tasks that build
different files run at the same time: the order in which the files are written means nothing. -/
def writeBase (c : Coder K V) (f : BaseLayerFiles F) (d : LayerData K V) : Out (Writes F) := do
  let side ← writeSide c f.side (totalP d) (totalNV d) d.pos
  return writeDicts c f.node f.predicate f.value f.idMap d ++ side

/-- Write the files of a child layer (src/layer/internal/child.rs:200-560,
src/storage/delta.rs:140-270, 307-435). -/
def writeChild (c : Coder K V) (f : ChildLayerFiles F) (d : LayerData K V) : Out (Writes F) := do
  let pos ← writeSide c f.pos (totalP d) (totalNV d) d.pos
  let neg ← Out.ofOption d.neg
  let neg ← writeSide c f.neg (totalP d) (totalNV d) neg
  return writeDicts c f.node f.predicate f.value f.idMap d ++ pos ++ neg

/-- Write a new layer: the files are those of `base_layer_files` or of `child_layer_files`
(src/storage/layer.rs:717-736, 1704-1730, 1745-1817, 1939-1940, 2116-2132, 2206-2210). The parent
file, the rollup file and `finalize` are not part of it. -/
def writeLayer (c : Coder K V) (child : Bool) (d : LayerData K V) : Out (Writes FileName) :=
  if child then do
    let f ← childLayerFiles .ok
    writeChild c f d
  else do
    let f ← baseLayerFiles .ok
    writeBase c f d

/-! ### Reading -/

/-- The files of a layer as they can be read: `exists` and `map`. -/
structure Access (F : Type) where
  ex : F → Out Bool
  map : F → Out Bytes

/-- `map_if_exists` of tdb-succinct. -/
def mapIfExists (a : Access F) (f : F) : Out (Option Bytes) := do
  if ← a.ex f then do
    let b ← a.map f
    return some b
  else return none

/-- `DictionaryFiles::map_all` of tdb-succinct. -/
def mapDict (a : Access F) (f : DictFiles F) : Out (DictFiles Bytes) := do
  let blocks ← a.map f.blocks
  let offsets ← a.map f.offsets
  return { blocks, offsets }

/-- `TypedDictionaryFiles::map_all` of tdb-succinct. -/
def mapTyped (a : Access F) (f : TypedDictFiles F) : Out (TypedDictFiles Bytes) := do
  let typesPresent ← a.map f.typesPresent
  let typeOffsets ← a.map f.typeOffsets
  let offsets ← a.map f.offsets
  let blocks ← a.map f.blocks
  return { typesPresent, typeOffsets, offsets, blocks }

/-- `BitIndexFiles::map_all` of tdb-succinct. -/
def mapBitIndex (a : Access F) (f : BitIndexFiles F) : Out (BitIndexFiles Bytes) := do
  let bits ← a.map f.bits
  let blocks ← a.map f.blocks
  let sblocks ← a.map f.sblocks
  return { bits, blocks, sblocks }

/-- `BitIndexFiles::map_all_if_exists` of tdb-succinct: the bits tell whether they are there. -/
def mapBitIndexIfExists (a : Access F) (f : BitIndexFiles F) :
    Out (Option (BitIndexFiles Bytes)) := do
  if ← a.ex f.bits then do
    let m ← mapBitIndex a f
    return some m
  else return none

/-- `AdjacencyListFiles::map_all` of tdb-succinct. -/
def mapAdj (a : Access F) (f : AdjFiles F) : Out (AdjFiles Bytes) := do
  let bitindex ← mapBitIndex a f.bitindex
  let nums ← a.map f.nums
  return { bitindex, nums }

/-- `BaseLayerMaps` (src/storage/file.rs:97-115), with `IdMapMaps` (src/storage/file.rs:11-15). -/
structure BaseLayerMaps where
  node : DictFiles Bytes
  predicate : DictFiles Bytes
  value : TypedDictFiles Bytes
  nodeValueMap : Option (BitIndexFiles Bytes)
  predicateMap : Option (BitIndexFiles Bytes)
  subjects : Option Bytes
  objects : Option Bytes
  sp : AdjFiles Bytes
  spo : AdjFiles Bytes
  ops : AdjFiles Bytes
  wavelet : BitIndexFiles Bytes

/-- `ChildLayerMaps` (src/storage/file.rs:176-201). -/
structure ChildLayerMaps where
  node : DictFiles Bytes
  predicate : DictFiles Bytes
  value : TypedDictFiles Bytes
  nodeValueMap : Option (BitIndexFiles Bytes)
  predicateMap : Option (BitIndexFiles Bytes)
  posSubjects : Bytes
  posObjects : Bytes
  negSubjects : Bytes
  negObjects : Bytes
  posSp : AdjFiles Bytes
  posSpo : AdjFiles Bytes
  posOps : AdjFiles Bytes
  negSp : AdjFiles Bytes
  negSpo : AdjFiles Bytes
  negOps : AdjFiles Bytes
  posWavelet : BitIndexFiles Bytes
  negWavelet : BitIndexFiles Bytes

/-- `BaseLayerFiles::map_all` (src/storage/file.rs:118-151), with `IdMapFiles::map_all`
(src/storage/file.rs:24-32). -/
def mapBase (a : Access F) (f : BaseLayerFiles F) : Out BaseLayerMaps := do
  let node ← mapDict a f.node
  let predicate ← mapDict a f.predicate
  let value ← mapTyped a f.value
  let nodeValueMap ← mapBitIndexIfExists a f.idMap.nodeValue
  let predicateMap ← mapBitIndexIfExists a f.idMap.predicate
  let subjects ← mapIfExists a f.subjects
  let objects ← mapIfExists a f.objects
  let sp ← mapAdj a f.sp
  let spo ← mapAdj a f.spo
  let ops ← mapAdj a f.ops
  let wavelet ← mapBitIndex a f.wavelet
  return { node, predicate, value, nodeValueMap, predicateMap, subjects, objects, sp, spo, ops,
           wavelet }

/-- `ChildLayerFiles::map_all` (src/storage/file.rs:204-257). -/
def mapChild (a : Access F) (f : ChildLayerFiles F) : Out ChildLayerMaps := do
  let node ← mapDict a f.node
  let predicate ← mapDict a f.predicate
  let value ← mapTyped a f.value
  let nodeValueMap ← mapBitIndexIfExists a f.idMap.nodeValue
  let predicateMap ← mapBitIndexIfExists a f.idMap.predicate
  let posSubjects ← a.map f.posSubjects
  let negSubjects ← a.map f.negSubjects
  let posObjects ← a.map f.posObjects
  let negObjects ← a.map f.negObjects
  let posSp ← mapAdj a f.posSp
  let posSpo ← mapAdj a f.posSpo
  let posOps ← mapAdj a f.posOps
  let negSp ← mapAdj a f.negSp
  let negSpo ← mapAdj a f.negSpo
  let negOps ← mapAdj a f.negOps
  let posWavelet ← mapBitIndex a f.posWavelet
  let negWavelet ← mapBitIndex a f.negWavelet
  return { node, predicate, value, nodeValueMap, predicateMap, posSubjects, posObjects,
           negSubjects, negObjects, posSp, posSpo, posOps, negSp, negSpo, negOps, posWavelet,
           negWavelet }

/-- `StringDict::parse`. -/
def parseDict (c : Coder K V) (m : DictFiles Bytes) : Out (List K) := c.parseDict m.offsets m.blocks

/-- `TypedDict::from_parts`. -/
def parseTyped (c : Coder K V) (m : TypedDictFiles Bytes) : Out (List V) :=
  c.parseTyped m.typesPresent m.typeOffsets m.offsets m.blocks

/-- `IdMap::from_maps` (src/layer/id_map.rs:20-25), or `IdMap::default`
(src/layer/id_map.rs:13-17). -/
def parseIdMap (c : Coder K V) (w : Nat) : Option (BitIndexFiles Bytes) → Out IdMap
  | none => .ok none
  | some m => do
    let l ← c.parseWavelet m.bits m.blocks m.sblocks w
    return some l

/-- `AdjacencyList::parse`: the list, and the width of its numbers. -/
def parseAdj (c : Coder K V) (m : AdjFiles Bytes) : Out (AdjList × Nat) := do
  let nums ← c.parseLog m.nums
  let bits ← c.parseBits m.bitindex.bits m.bitindex.blocks m.bitindex.sblocks
  return ({ nums := nums.2, bits := bits }, nums.1)

/-- `MonotonicLogArray::from_logarray(LogArray::parse(..).unwrap())`, if there is something to
parse. -/
def parseOpt (c : Coder K V) : Option Bytes → Out (Option (List Nat))
  | none => .ok none
  | some b => do
    let l ← c.parseLog b
    return some l.2

/-- The part of `BaseLayer::load` and `ChildLayer::load` that makes one side
(src/layer/internal/base.rs:86-118, src/layer/internal/child.rs:101-165). -/
def parseSide (c : Coder K V) (subjects objects : Option Bytes) (sp spo ops : AdjFiles Bytes)
    (wavelet : BitIndexFiles Bytes) : Out TripleIndex := do
  let subjects ← parseOpt c subjects
  let objects ← parseOpt c objects
  let sp ← parseAdj c sp
  let spo ← parseAdj c spo
  let ops ← parseAdj c ops
  let w ← c.parseWavelet wavelet.bits wavelet.blocks wavelet.sblocks sp.2
  return { subjects, objects, sp := sp.1, spo := spo.1, ops := ops.1, wavelet := w }

/-- `BaseLayer::load` (src/layer/internal/base.rs:52-140). -/
def parseBase (c : Coder K V) (m : BaseLayerMaps) : Out (LayerData K V) := do
  let nodes ← parseDict c m.node
  let preds ← parseDict c m.predicate
  let values ← parseTyped c m.value
  let nvMap ← parseIdMap c (calcWidth (nodes.length + values.length)) m.nodeValueMap
  let pMap ← parseIdMap c (calcWidth preds.length) m.predicateMap
  let pos ← parseSide c m.subjects m.objects m.sp m.spo m.ops m.wavelet
  return { nodes, preds, values, nvMap, pMap, pos }

/-- `ChildLayer::load` (src/layer/internal/child.rs:64-197) on top of the layers `S`. -/
def parseChild (c : Coder K V) (S : List (LayerData K V)) (m : ChildLayerMaps) :
    Out (LayerData K V) := do
  let nodes ← parseDict c m.node
  let preds ← parseDict c m.predicate
  let values ← parseTyped c m.value
  let nvMap ← parseIdMap c (calcWidth (nodes.length + values.length)) m.nodeValueMap
  let pMap ← parseIdMap c (calcWidth preds.length) m.predicateMap
  let pos ← parseSide c (some m.posSubjects) (some m.posObjects) m.posSp m.posSpo m.posOps
    m.posWavelet
  let neg ← parseSide c (some m.negSubjects) (some m.negObjects) m.negSp m.negSpo m.negOps
    m.negWavelet
  return { nodes, preds, values, nvMap, pMap, parentNV := Stack.nvCount S,
           parentP := Stack.pCount S, pos, neg := some neg }

/-- `BaseLayer::load_from_files` (src/layer/internal/base.rs:44-50). -/
def loadBase (c : Coder K V) (a : Access F) (f : BaseLayerFiles F) : Out (LayerData K V) := do
  let m ← mapBase a f
  parseBase c m

/-- `ChildLayer::load_from_files` (src/layer/internal/child.rs:54-62). -/
def loadChild (c : Coder K V) (a : Access F) (f : ChildLayerFiles F) (S : List (LayerData K V)) :
    Out (LayerData K V) := do
  let m ← mapChild a f
  parseChild c S m

/-- Load one layer on top of the loaded layers `S` (src/storage/layer.rs:1520-1570). -/
def loadLayer (c : Coder K V) (a : Access FileName) (child : Bool) (S : List (LayerData K V)) :
    Out (LayerData K V) :=
  if child then do
    let f ← childLayerFiles .ok
    loadChild c a f S
  else do
    let f ← baseLayerFiles .ok
    loadBase c a f

/-! ### Reading for single questions -/

/-- `get_node_dictionary` (src/storage/layer.rs:1597-1606); `None` if the layer is not there. -/
def nodeDictionary (c : Coder K V) (a : Access FileName) (dir : Bool) : Out (Option (List K)) :=
  if dir then do
    let f ← nodeDictionaryFiles .ok dir
    let m ← mapDict a f
    let l ← parseDict c m
    return some l
  else .ok none

/-- `get_predicate_dictionary` (src/storage/layer.rs:1608-1617). -/
def predicateDictionary (c : Coder K V) (a : Access FileName) (dir : Bool) :
    Out (Option (List K)) :=
  if dir then do
    let f ← predicateDictionaryFiles .ok dir
    let m ← mapDict a f
    let l ← parseDict c m
    return some l
  else .ok none

/-- `get_value_dictionary` (src/storage/layer.rs:1619-1633). -/
def valueDictionary (c : Coder K V) (a : Access FileName) (dir : Bool) : Out (Option (List V)) :=
  if dir then do
    let f ← valueDictionaryFiles .ok dir
    let m ← mapTyped a f
    let l ← parseTyped c m
    return some l
  else .ok none

/-- `get_node_count` (src/storage/layer.rs:1635-1642). -/
def nodeCount (c : Coder K V) (a : Access FileName) (dir : Bool) : Out (Option Nat) :=
  if dir then do
    let f ← nodeDictionaryFiles .ok dir
    let b ← a.map f.blocks
    let n ← c.count b
    return some n
  else .ok none

/-- `get_predicate_count` (src/storage/layer.rs:1644-1651). -/
def predicateCount (c : Coder K V) (a : Access FileName) (dir : Bool) : Out (Option Nat) :=
  if dir then do
    let f ← predicateDictionaryFiles .ok dir
    let b ← a.map f.blocks
    let n ← c.count b
    return some n
  else .ok none

/-- `get_value_count` (src/storage/layer.rs:1653-1660). -/
def valueCount (c : Coder K V) (a : Access FileName) (dir : Bool) : Out (Option Nat) :=
  if dir then do
    let f ← valueDictionaryFiles .ok dir
    let b ← a.map f.blocks
    let n ← c.count b
    return some n
  else .ok none

/-- `get_node_value_idmap` (src/storage/layer.rs:1662-1682). -/
def nodeValueIdMap (c : Coder K V) (a : Access FileName) (dir : Bool) : Out (Option IdMap) :=
  if dir then do
    let n ← nodeCount c a dir
    let n ← Out.ofOption n
    let v ← valueCount c a dir
    let v ← Out.ofOption v
    let f ← nodeValueIdMapFiles .ok dir
    let m ← mapBitIndexIfExists a f
    let l ← parseIdMap c (calcWidth (n + v)) m
    return some l
  else .ok none

/-- `get_predicate_idmap` (src/storage/layer.rs:1684-1703). -/
def predicateIdMap (c : Coder K V) (a : Access FileName) (dir : Bool) : Out (Option IdMap) :=
  if dir then do
    let n ← predicateCount c a dir
    let n ← Out.ofOption n
    let f ← predicateIdMapFiles .ok dir
    let m ← mapBitIndexIfExists a f
    let l ← parseIdMap c (calcWidth n) m
    return some l
  else .ok none

/-- The files of `file_triple_exists` and `file_triple_iterator` (src/storage/layer.rs:2538-2576)
as they are read: subjects, s_p and sp_o. -/
def readSubject (c : Coder K V) (a : Access FileName) (f : SubjectFiles FileName) :
    Out (Option (List Nat) × AdjList × AdjList) := do
  let sp ← mapAdj a f.sp
  let spo ← mapAdj a f.spo
  let subjects ← mapIfExists a f.subjects
  let subjects ← parseOpt c subjects
  let sp ← parseAdj c sp
  let spo ← parseAdj c spo
  return (subjects, sp.1, spo.1)

/-- `file_triple_exists` (src/storage/layer.rs:2530-2556). -/
def fileTripleExists (c : Coder K V) (a : Access FileName) (f : SubjectFiles FileName)
    (t : Triple) : Out Bool := do
  let x ← readSubject c a f
  Out.ofOption (layerTripleExists x.1 x.2.1 x.2.2 t)

/-- `file_triple_iterator` (src/storage/layer.rs:2558-2576). -/
def fileTripleIterator (c : Coder K V) (a : Access FileName) (f : SubjectFiles FileName) :
    Out SubjIter := do
  let x ← readSubject c a f
  return SubjIter.new x.1 x.2.1 x.2.2

/-- `file_triple_iterator_by_predicate` (src/storage/layer.rs:2578-2605). -/
def fileTripleIteratorByPredicate (c : Coder K V) (a : Access FileName)
    (f : SubjectFiles FileName) (w : BitIndexFiles FileName) (p : Nat) : Out (Option PredIter) := do
  let sp ← mapAdj a f.sp
  let spo ← mapAdj a f.spo
  let w ← mapBitIndex a w
  let subjects ← mapIfExists a f.subjects
  let subjects ← parseOpt c subjects
  let sp ← parseAdj c sp
  let spo ← parseAdj c spo
  let w ← c.parseWavelet w.bits w.blocks w.sblocks sp.2
  return (waveletLookup w p).map (fun l => PredIter.new l subjects sp.1 spo.1)

/-- `file_triple_iterator_by_object` (src/storage/layer.rs:2607-2632). -/
def fileTripleIteratorByObject (c : Coder K V) (a : Access FileName) (f : ObjectFiles FileName)
    (o : Nat) : Out ObjIter := do
  let subjects ← mapIfExists a f.subjects
  let subjects ← parseOpt c subjects
  let objects ← mapIfExists a f.objects
  let objects ← parseOpt c objects
  let ops ← mapAdj a f.ops
  let sp ← mapAdj a f.sp
  let ops ← parseAdj c ops
  let sp ← parseAdj c sp
  Out.ofOption ((ObjIter.new subjects objects ops.1 sp.1 true).seekObject o)

/-- `file_triple_layer_count` (src/storage/layer.rs:2634-2649). -/
def fileTripleLayerCount (c : Coder K V) (a : Access FileName) (f : CountFiles FileName) :
    Out Nat := do
  let nums ← a.map f.spNums
  let h ← c.logHeader nums
  let bits ← a.map f.spoBits
  let len ← c.bitsLen bits
  let w ← mapBitIndex a f.wavelet
  let w ← c.parseWavelet w.bits w.blocks w.sblocks h.2
  let stubs := ((waveletLookup w 0).map List.length).getD 0
  if stubs ≤ len then .ok (len - stubs) else .panic

/-- The triples of an iterator that is run to the end. -/
def run (it : SubjIter) : Out (List Triple) := Out.ofOption it.collect

/-- `triple_addition_exists` (src/storage/layer.rs:2238-2257). -/
def additionExists (c : Coder K V) (a : Access FileName) (dir child : Bool) (t : Triple) :
    Out Bool := do
  let f ← additionFiles .ok dir child
  fileTripleExists c a f t

/-- `triple_removal_exists` (src/storage/layer.rs:2259-2281). -/
def removalExists (c : Coder K V) (a : Access FileName) (dir child : Bool) (t : Triple) :
    Out Bool := do
  match ← removalFiles .ok dir child with
  | some f => fileTripleExists c a f t
  | none => .ok false

/-- `triple_additions` (src/storage/layer.rs:2283-2293). -/
def additions (c : Coder K V) (a : Access FileName) (dir child : Bool) : Out (List Triple) := do
  let f ← additionFiles .ok dir child
  let it ← fileTripleIterator c a f
  run it

/-- `triple_removals` (src/storage/layer.rs:2295-2308). -/
def removals (c : Coder K V) (a : Access FileName) (dir child : Bool) : Out (List Triple) := do
  match ← removalFiles .ok dir child with
  | some f => do
    let it ← fileTripleIterator c a f
    run it
  | none => .ok []

/-- The triples of an iterator with this subject. -/
def runS (it : SubjIter) (s : Nat) : Out (List Triple) := do
  let it ← Out.ofOption (it.seekSubject s)
  let l ← Out.ofOption it.collect
  return l.takeWhile (fun t => t.s == s)

/-- `triple_additions_s` (src/storage/layer.rs:2310-2324). -/
def additionsS (c : Coder K V) (a : Access FileName) (dir child : Bool) (s : Nat) :
    Out (List Triple) := do
  let f ← additionFiles .ok dir child
  let it ← fileTripleIterator c a f
  runS it s

/-- `triple_removals_s` (src/storage/layer.rs:2326-2343). -/
def removalsS (c : Coder K V) (a : Access FileName) (dir child : Bool) (s : Nat) :
    Out (List Triple) := do
  match ← removalFiles .ok dir child with
  | some f => do
    let it ← fileTripleIterator c a f
    runS it s
  | none => .ok []

/-- The triples of an iterator with this subject and predicate. -/
def runSP (it : SubjIter) (s p : Nat) : Out (List Triple) := do
  let it ← Out.ofOption (it.seekSubjectPredicate s p)
  let l ← Out.ofOption it.collect
  return l.takeWhile (fun t => t.p == p && t.s == s)

/-- `triple_additions_sp` (src/storage/layer.rs:2345-2360). -/
def additionsSP (c : Coder K V) (a : Access FileName) (dir child : Bool) (s p : Nat) :
    Out (List Triple) := do
  let f ← additionFiles .ok dir child
  let it ← fileTripleIterator c a f
  runSP it s p

/-- `triple_removals_sp` (src/storage/layer.rs:2362-2380). -/
def removalsSP (c : Coder K V) (a : Access FileName) (dir child : Bool) (s p : Nat) :
    Out (List Triple) := do
  match ← removalFiles .ok dir child with
  | some f => do
    let it ← fileTripleIterator c a f
    runSP it s p
  | none => .ok []

/-- The triples of an iterator by predicate. -/
def runP : Option PredIter → Out (List Triple)
  | none => .ok []
  | some it => Out.ofOption it.collect

/-- `triple_additions_p` (src/storage/layer.rs:2382-2401). -/
def additionsP (c : Coder K V) (a : Access FileName) (dir child : Bool) (p : Nat) :
    Out (List Triple) := do
  let f ← additionFiles .ok dir child
  let w ← waveletAdditionFiles .ok dir child
  let it ← fileTripleIteratorByPredicate c a f w p
  runP it

/-- `triple_removals_p` (src/storage/layer.rs:2403-2425). -/
def removalsP (c : Coder K V) (a : Access FileName) (dir child : Bool) (p : Nat) :
    Out (List Triple) := do
  let f ← removalFiles .ok dir child
  let w ← waveletRemovalFiles .ok dir child
  match f, w with
  | some f, some w => do
    let it ← fileTripleIteratorByPredicate c a f w p
    runP it
  | _, _ => .ok []

/-- The triples of an iterator with this object. -/
def runO (it : ObjIter) (o : Nat) : Out (List Triple) := do
  let l ← Out.ofOption it.collect
  return l.takeWhile (fun t => t.o == o)

/-- `triple_additions_o` (src/storage/layer.rs:2427-2446). -/
def additionsO (c : Coder K V) (a : Access FileName) (dir child : Bool) (o : Nat) :
    Out (List Triple) := do
  let f ← additionFilesByObject .ok dir child
  let it ← fileTripleIteratorByObject c a f o
  runO it o

/-- `triple_removals_o` (src/storage/layer.rs:2448-2470). -/
def removalsO (c : Coder K V) (a : Access FileName) (dir child : Bool) (o : Nat) :
    Out (List Triple) := do
  match ← removalFilesByObject .ok dir child with
  | some f => do
    let it ← fileTripleIteratorByObject c a f o
    runO it o
  | none => .ok []

/-- `triple_layer_addition_count` (src/storage/layer.rs:2472-2476). -/
def additionCount (c : Coder K V) (a : Access FileName) (dir child : Bool) : Out Nat := do
  let f ← additionCountFiles .ok dir child
  fileTripleLayerCount c a f

/-- `triple_layer_removal_count` (src/storage/layer.rs:2478-2486). -/
def removalCount (c : Coder K V) (a : Access FileName) (dir child : Bool) : Out Nat := do
  match ← removalCountFiles .ok dir child with
  | some f => fileTripleLayerCount c a f
  | none => .ok 0

/-! ### Copying -/

/-- `copy_file` of tdb-succinct, from a file to a file: if the source is not there nothing is
written. The result is what is written. -/
def copyFile {F' : Type} (a : Access F) (src : F) (dst : F') : Out (Writes F') := do
  match ← mapIfExists a src with
  | some b => .ok [(dst, b)]
  | none => .ok []

/-- `BitIndexFiles::copy_from` of tdb-succinct. -/
def copyBitIndex {F' : Type} (a : Access F) (src : BitIndexFiles F) (dst : BitIndexFiles F') :
    Out (Writes F') := do
  let x ← copyFile a src.bits dst.bits
  let y ← copyFile a src.blocks dst.blocks
  let z ← copyFile a src.sblocks dst.sblocks
  return x ++ y ++ z

/-- `AdjacencyListFiles::copy_from` of tdb-succinct. -/
def copyAdj {F' : Type} (a : Access F) (src : AdjFiles F) (dst : AdjFiles F') :
    Out (Writes F') := do
  let x ← copyBitIndex a src.bitindex dst.bitindex
  let y ← copyFile a src.nums dst.nums
  return x ++ y

/-- `DictionaryFiles::copy_from` of tdb-succinct. -/
def copyDict {F' : Type} (a : Access F) (src : DictFiles F) (dst : DictFiles F') :
    Out (Writes F') := do
  let x ← copyFile a src.blocks dst.blocks
  let y ← copyFile a src.offsets dst.offsets
  return x ++ y

/-- `TypedDictionaryFiles::copy_from` of tdb-succinct. -/
def copyTyped {F' : Type} (a : Access F) (src : TypedDictFiles F) (dst : TypedDictFiles F') :
    Out (Writes F') := do
  let x ← copyFile a src.typesPresent dst.typesPresent
  let y ← copyFile a src.typeOffsets dst.typeOffsets
  let z ← copyFile a src.offsets dst.offsets
  let w ← copyFile a src.blocks dst.blocks
  return x ++ y ++ z ++ w

/-- `IdMapFiles::copy_from` (src/storage/copy.rs:7-21). -/
def copyIdMap {F' : Type} (a : Access F) (src : IdMapFiles F) (dst : IdMapFiles F') :
    Out (Writes F') := do
  let x ← copyBitIndex a src.nodeValue dst.nodeValue
  let y ← copyBitIndex a src.predicate dst.predicate
  return x ++ y

/-- `BaseLayerFiles::copy_from` (src/storage/copy.rs:23-55). -/
def copyBase {F' : Type} (a : Access F) (src : BaseLayerFiles F) (dst : BaseLayerFiles F') :
    Out (Writes F') := do
  let node ← copyDict a src.node dst.node
  let predicate ← copyDict a src.predicate dst.predicate
  let value ← copyTyped a src.value dst.value
  let idMap ← copyIdMap a src.idMap dst.idMap
  let subjects ← copyFile a src.subjects dst.subjects
  let objects ← copyFile a src.objects dst.objects
  let sp ← copyAdj a src.sp dst.sp
  let spo ← copyAdj a src.spo dst.spo
  let ops ← copyAdj a src.ops dst.ops
  let wavelet ← copyBitIndex a src.wavelet dst.wavelet
  return node ++ predicate ++ value ++ idMap ++ subjects ++ objects ++ sp ++ spo ++ ops ++ wavelet

/-- `ChildLayerFiles::copy_from` (src/storage/copy.rs:57-108). -/
def copyChild {F' : Type} (a : Access F) (src : ChildLayerFiles F) (dst : ChildLayerFiles F') :
    Out (Writes F') := do
  let node ← copyDict a src.node dst.node
  let predicate ← copyDict a src.predicate dst.predicate
  let value ← copyTyped a src.value dst.value
  let idMap ← copyIdMap a src.idMap dst.idMap
  let posSubjects ← copyFile a src.posSubjects dst.posSubjects
  let posObjects ← copyFile a src.posObjects dst.posObjects
  let posSp ← copyAdj a src.posSp dst.posSp
  let posSpo ← copyAdj a src.posSpo dst.posSpo
  let posOps ← copyAdj a src.posOps dst.posOps
  let posWavelet ← copyBitIndex a src.posWavelet dst.posWavelet
  let negSubjects ← copyFile a src.negSubjects dst.negSubjects
  let negObjects ← copyFile a src.negObjects dst.negObjects
  let negSp ← copyAdj a src.negSp dst.negSp
  let negSpo ← copyAdj a src.negSpo dst.negSpo
  let negOps ← copyAdj a src.negOps dst.negOps
  let negWavelet ← copyBitIndex a src.negWavelet dst.negWavelet
  return node ++ predicate ++ value ++ idMap ++ posSubjects ++ posObjects ++ posSp ++ posSpo ++
    posOps ++ posWavelet ++ negSubjects ++ negObjects ++ negSp ++ negSpo ++ negOps ++ negWavelet

/-- The files of a layer are copied to the files of another layer of the same form
(src/storage/copy.rs:23-105, for base layers used in src/layer/internal/base_merge.rs:291). The
names are the same in both. -/
def copyLayer (a : Access FileName) (child : Bool) : Out (Writes FileName) :=
  if child then do
    let f ← childLayerFiles .ok
    copyChild a f f
  else do
    let f ← baseLayerFiles .ok
    copyBase a f f

end LayerFiles

end Verif
