import Verif.Lemmas.LayerGet
import Verif.Lemmas.PackNames

/-!
The names of the files that are written for a layer.
-/

set_option linter.unusedSectionVars false

namespace Verif.LayerFiles

open LayerSpec Pack

variable {K V : Type} [LinearOrder K] [LinearOrder V]

/-- Names of files. -/
def headKeys : List FileName :=
  [FileName.nodeDictionaryBlocks, FileName.nodeDictionaryOffsets,
   FileName.predicateDictionaryBlocks, FileName.predicateDictionaryOffsets,
   FileName.valueDictionaryTypesPresent, FileName.valueDictionaryTypeOffsets,
   FileName.valueDictionaryOffsets, FileName.valueDictionaryBlocks]

/-- The same with code points. -/
def headT : List Text :=
  [[110, 111, 100, 101, 95, 100, 105, 99, 116, 105, 111, 110, 97, 114, 121, 95, 98, 108, 111, 99,
     107, 115, 46, 116, 102, 99],
   [110, 111, 100, 101, 95, 100, 105, 99, 116, 105, 111, 110, 97, 114, 121, 95, 111, 102, 102,
     115, 101, 116, 115, 46, 108, 111, 103, 97, 114, 114, 97, 121],
   [112, 114, 101, 100, 105, 99, 97, 116, 101, 95, 100, 105, 99, 116, 105, 111, 110, 97, 114,
     121, 95, 98, 108, 111, 99, 107, 115, 46, 116, 102, 99],
   [112, 114, 101, 100, 105, 99, 97, 116, 101, 95, 100, 105, 99, 116, 105, 111, 110, 97, 114,
     121, 95, 111, 102, 102, 115, 101, 116, 115, 46, 108, 111, 103, 97, 114, 114, 97, 121],
   [118, 97, 108, 117, 101, 95, 100, 105, 99, 116, 105, 111, 110, 97, 114, 121, 95, 116, 121,
     112, 101, 115, 46, 108, 111, 103, 97, 114, 114, 97, 121],
   [118, 97, 108, 117, 101, 95, 100, 105, 99, 116, 105, 111, 110, 97, 114, 121, 95, 116, 121,
     112, 101, 95, 111, 102, 102, 115, 101, 116, 115, 46, 108, 111, 103, 97, 114, 114, 97, 121],
   [118, 97, 108, 117, 101, 95, 100, 105, 99, 116, 105, 111, 110, 97, 114, 121, 95, 111, 102,
     102, 115, 101, 116, 115, 46, 108, 111, 103, 97, 114, 114, 97, 121],
   [118, 97, 108, 117, 101, 95, 100, 105, 99, 116, 105, 111, 110, 97, 114, 121, 95, 98, 108, 111,
     99, 107, 115, 46, 116, 102, 99]]

theorem head_eq : headKeys = headT.map stringOf := by decide +kernel

/-- Names of files. -/
def nvKeys : List FileName :=
  [FileName.nodeValueIdmapBits, FileName.nodeValueIdmapBitIndexBlocks,
   FileName.nodeValueIdmapBitIndexSblocks]

/-- The same with code points. -/
def nvT : List Text :=
  [[110, 111, 100, 101, 95, 118, 97, 108, 117, 101, 95, 105, 100, 109, 97, 112, 95, 98, 105, 116,
     115, 46, 98, 105, 116, 97, 114, 114, 97, 121],
   [110, 111, 100, 101, 95, 118, 97, 108, 117, 101, 95, 105, 100, 109, 97, 112, 95, 98, 105, 116,
     95, 105, 110, 100, 101, 120, 95, 98, 108, 111, 99, 107, 115, 46, 98, 105, 116, 97, 114, 114,
     97, 121],
   [110, 111, 100, 101, 95, 118, 97, 108, 117, 101, 95, 105, 100, 109, 97, 112, 95, 98, 105, 116,
     95, 105, 110, 100, 101, 120, 95, 115, 98, 108, 111, 99, 107, 115, 46, 98, 105, 116, 97, 114,
     114, 97, 121]]

theorem nv_eq : nvKeys = nvT.map stringOf := by decide +kernel

/-- Names of files. -/
def pmKeys : List FileName :=
  [FileName.predicateIdmapBits, FileName.predicateIdmapBitIndexBlocks,
   FileName.predicateIdmapBitIndexSblocks]

/-- The same with code points. -/
def pmT : List Text :=
  [[112, 114, 101, 100, 105, 99, 97, 116, 101, 95, 105, 100, 109, 97, 112, 95, 98, 105, 116, 115,
     46, 98, 105, 116, 97, 114, 114, 97, 121],
   [112, 114, 101, 100, 105, 99, 97, 116, 101, 95, 105, 100, 109, 97, 112, 95, 98, 105, 116, 95,
     105, 110, 100, 101, 120, 95, 98, 108, 111, 99, 107, 115, 46, 98, 105, 116, 97, 114, 114, 97,
     121],
   [112, 114, 101, 100, 105, 99, 97, 116, 101, 95, 105, 100, 109, 97, 112, 95, 98, 105, 116, 95,
     105, 110, 100, 101, 120, 95, 115, 98, 108, 111, 99, 107, 115, 46, 98, 105, 116, 97, 114, 114,
     97, 121]]

theorem pm_eq : pmKeys = pmT.map stringOf := by decide +kernel

/-- Names of files. -/
def baseKeys : List FileName :=
  [FileName.baseSPAdjacencyListBits, FileName.baseSPAdjacencyListBitIndexBlocks,
   FileName.baseSPAdjacencyListBitIndexSblocks, FileName.baseSPAdjacencyListNums,
   FileName.baseSpOAdjacencyListBits, FileName.baseSpOAdjacencyListBitIndexBlocks,
   FileName.baseSpOAdjacencyListBitIndexSblocks, FileName.baseSpOAdjacencyListNums,
   FileName.baseOPsAdjacencyListBits, FileName.baseOPsAdjacencyListBitIndexBlocks,
   FileName.baseOPsAdjacencyListBitIndexSblocks, FileName.baseOPsAdjacencyListNums,
   FileName.basePredicateWaveletTreeBits, FileName.basePredicateWaveletTreeBitIndexBlocks,
   FileName.basePredicateWaveletTreeBitIndexSblocks]

/-- The same with code points. -/
def baseT : List Text :=
  [[98, 97, 115, 101, 95, 115, 95, 112, 95, 97, 100, 106, 97, 99, 101, 110, 99, 121, 95, 108,
     105, 115, 116, 95, 98, 105, 116, 115, 46, 98, 105, 116, 97, 114, 114, 97, 121],
   [98, 97, 115, 101, 95, 115, 95, 112, 95, 97, 100, 106, 97, 99, 101, 110, 99, 121, 95, 108,
     105, 115, 116, 95, 98, 105, 116, 95, 105, 110, 100, 101, 120, 95, 98, 108, 111, 99, 107, 115,
     46, 108, 111, 103, 97, 114, 114, 97, 121],
   [98, 97, 115, 101, 95, 115, 95, 112, 95, 97, 100, 106, 97, 99, 101, 110, 99, 121, 95, 108,
     105, 115, 116, 95, 98, 105, 116, 95, 105, 110, 100, 101, 120, 95, 115, 98, 108, 111, 99, 107,
     115, 46, 108, 111, 103, 97, 114, 114, 97, 121],
   [98, 97, 115, 101, 95, 115, 95, 112, 95, 97, 100, 106, 97, 99, 101, 110, 99, 121, 95, 108,
     105, 115, 116, 95, 110, 117, 109, 115, 46, 108, 111, 103, 97, 114, 114, 97, 121],
   [98, 97, 115, 101, 95, 115, 112, 95, 111, 95, 97, 100, 106, 97, 99, 101, 110, 99, 121, 95,
     108, 105, 115, 116, 95, 98, 105, 116, 115, 46, 98, 105, 116, 97, 114, 114, 97, 121],
   [98, 97, 115, 101, 95, 115, 112, 95, 111, 95, 97, 100, 106, 97, 99, 101, 110, 99, 121, 95,
     108, 105, 115, 116, 95, 98, 105, 116, 95, 105, 110, 100, 101, 120, 95, 98, 108, 111, 99, 107,
     115, 46, 108, 111, 103, 97, 114, 114, 97, 121],
   [98, 97, 115, 101, 95, 115, 112, 95, 111, 95, 97, 100, 106, 97, 99, 101, 110, 99, 121, 95,
     108, 105, 115, 116, 95, 98, 105, 116, 95, 105, 110, 100, 101, 120, 95, 115, 98, 108, 111, 99,
     107, 115, 46, 108, 111, 103, 97, 114, 114, 97, 121],
   [98, 97, 115, 101, 95, 115, 112, 95, 111, 95, 97, 100, 106, 97, 99, 101, 110, 99, 121, 95,
     108, 105, 115, 116, 95, 110, 117, 109, 115, 46, 108, 111, 103, 97, 114, 114, 97, 121],
   [98, 97, 115, 101, 95, 111, 95, 112, 115, 95, 97, 100, 106, 97, 99, 101, 110, 99, 121, 95,
     108, 105, 115, 116, 95, 98, 105, 116, 115, 46, 98, 105, 116, 97, 114, 114, 97, 121],
   [98, 97, 115, 101, 95, 111, 95, 112, 115, 95, 97, 100, 106, 97, 99, 101, 110, 99, 121, 95,
     108, 105, 115, 116, 95, 98, 105, 116, 95, 105, 110, 100, 101, 120, 95, 98, 108, 111, 99, 107,
     115, 46, 108, 111, 103, 97, 114, 114, 97, 121],
   [98, 97, 115, 101, 95, 111, 95, 112, 115, 95, 97, 100, 106, 97, 99, 101, 110, 99, 121, 95,
     108, 105, 115, 116, 95, 98, 105, 116, 95, 105, 110, 100, 101, 120, 95, 115, 98, 108, 111, 99,
     107, 115, 46, 108, 111, 103, 97, 114, 114, 97, 121],
   [98, 97, 115, 101, 95, 111, 95, 112, 115, 95, 97, 100, 106, 97, 99, 101, 110, 99, 121, 95,
     108, 105, 115, 116, 95, 110, 117, 109, 115, 46, 108, 111, 103, 97, 114, 114, 97, 121],
   [98, 97, 115, 101, 95, 112, 114, 101, 100, 105, 99, 97, 116, 101, 95, 119, 97, 118, 101, 108,
     101, 116, 95, 116, 114, 101, 101, 95, 98, 105, 116, 115, 46, 98, 105, 116, 97, 114, 114, 97,
     121],
   [98, 97, 115, 101, 95, 112, 114, 101, 100, 105, 99, 97, 116, 101, 95, 119, 97, 118, 101, 108,
     101, 116, 95, 116, 114, 101, 101, 95, 98, 105, 116, 95, 105, 110, 100, 101, 120, 95, 98, 108,
     111, 99, 107, 115, 46, 108, 111, 103, 97, 114, 114, 97, 121],
   [98, 97, 115, 101, 95, 112, 114, 101, 100, 105, 99, 97, 116, 101, 95, 119, 97, 118, 101, 108,
     101, 116, 95, 116, 114, 101, 101, 95, 98, 105, 116, 95, 105, 110, 100, 101, 120, 95, 115, 98,
     108, 111, 99, 107, 115, 46, 108, 111, 103, 97, 114, 114, 97, 121]]

theorem base_eq : baseKeys = baseT.map stringOf := by decide +kernel

/-- Names of files. -/
def childKeys : List FileName :=
  [FileName.posSPAdjacencyListBits, FileName.posSPAdjacencyListBitIndexBlocks,
   FileName.posSPAdjacencyListBitIndexSblocks, FileName.posSPAdjacencyListNums,
   FileName.posSpOAdjacencyListBits, FileName.posSpOAdjacencyListBitIndexBlocks,
   FileName.posSpOAdjacencyListBitIndexSblocks, FileName.posSpOAdjacencyListNums,
   FileName.posSubjects, FileName.posOPsAdjacencyListBits,
   FileName.posOPsAdjacencyListBitIndexBlocks, FileName.posOPsAdjacencyListBitIndexSblocks,
   FileName.posOPsAdjacencyListNums, FileName.posObjects, FileName.posPredicateWaveletTreeBits,
   FileName.posPredicateWaveletTreeBitIndexBlocks,
   FileName.posPredicateWaveletTreeBitIndexSblocks, FileName.negSPAdjacencyListBits,
   FileName.negSPAdjacencyListBitIndexBlocks, FileName.negSPAdjacencyListBitIndexSblocks,
   FileName.negSPAdjacencyListNums, FileName.negSpOAdjacencyListBits,
   FileName.negSpOAdjacencyListBitIndexBlocks, FileName.negSpOAdjacencyListBitIndexSblocks,
   FileName.negSpOAdjacencyListNums, FileName.negSubjects, FileName.negOPsAdjacencyListBits,
   FileName.negOPsAdjacencyListBitIndexBlocks, FileName.negOPsAdjacencyListBitIndexSblocks,
   FileName.negOPsAdjacencyListNums, FileName.negObjects, FileName.negPredicateWaveletTreeBits,
   FileName.negPredicateWaveletTreeBitIndexBlocks, FileName.negPredicateWaveletTreeBitIndexSblocks]

/-- The same with code points. -/
def childT : List Text :=
  [[112, 111, 115, 95, 115, 95, 112, 95, 97, 100, 106, 97, 99, 101, 110, 99, 121, 95, 108, 105,
     115, 116, 95, 98, 105, 116, 115, 46, 98, 105, 116, 97, 114, 114, 97, 121],
   [112, 111, 115, 95, 115, 95, 112, 95, 97, 100, 106, 97, 99, 101, 110, 99, 121, 95, 108, 105,
     115, 116, 95, 98, 105, 116, 95, 105, 110, 100, 101, 120, 95, 98, 108, 111, 99, 107, 115, 46,
     108, 111, 103, 97, 114, 114, 97, 121],
   [112, 111, 115, 95, 115, 95, 112, 95, 97, 100, 106, 97, 99, 101, 110, 99, 121, 95, 108, 105,
     115, 116, 95, 98, 105, 116, 95, 105, 110, 100, 101, 120, 95, 115, 98, 108, 111, 99, 107, 115,
     46, 108, 111, 103, 97, 114, 114, 97, 121],
   [112, 111, 115, 95, 115, 95, 112, 95, 97, 100, 106, 97, 99, 101, 110, 99, 121, 95, 108, 105,
     115, 116, 95, 110, 117, 109, 115, 46, 108, 111, 103, 97, 114, 114, 97, 121],
   [112, 111, 115, 95, 115, 112, 95, 111, 95, 97, 100, 106, 97, 99, 101, 110, 99, 121, 95, 108,
     105, 115, 116, 95, 98, 105, 116, 115, 46, 98, 105, 116, 97, 114, 114, 97, 121],
   [112, 111, 115, 95, 115, 112, 95, 111, 95, 97, 100, 106, 97, 99, 101, 110, 99, 121, 95, 108,
     105, 115, 116, 95, 98, 105, 116, 95, 105, 110, 100, 101, 120, 95, 98, 108, 111, 99, 107, 115,
     46, 108, 111, 103, 97, 114, 114, 97, 121],
   [112, 111, 115, 95, 115, 112, 95, 111, 95, 97, 100, 106, 97, 99, 101, 110, 99, 121, 95, 108,
     105, 115, 116, 95, 98, 105, 116, 95, 105, 110, 100, 101, 120, 95, 115, 98, 108, 111, 99, 107,
     115, 46, 108, 111, 103, 97, 114, 114, 97, 121],
   [112, 111, 115, 95, 115, 112, 95, 111, 95, 97, 100, 106, 97, 99, 101, 110, 99, 121, 95, 108,
     105, 115, 116, 95, 110, 117, 109, 115, 46, 108, 111, 103, 97, 114, 114, 97, 121],
   [99, 104, 105, 108, 100, 95, 112, 111, 115, 95, 115, 117, 98, 106, 101, 99, 116, 115, 46, 108,
     111, 103, 97, 114, 114, 97, 121],
   [112, 111, 115, 95, 111, 95, 112, 115, 95, 97, 100, 106, 97, 99, 101, 110, 99, 121, 95, 108,
     105, 115, 116, 95, 98, 105, 116, 115, 46, 98, 105, 116, 97, 114, 114, 97, 121],
   [112, 111, 115, 95, 111, 95, 112, 115, 95, 97, 100, 106, 97, 99, 101, 110, 99, 121, 95, 108,
     105, 115, 116, 95, 98, 105, 116, 95, 105, 110, 100, 101, 120, 95, 98, 108, 111, 99, 107, 115,
     46, 108, 111, 103, 97, 114, 114, 97, 121],
   [112, 111, 115, 95, 111, 95, 112, 115, 95, 97, 100, 106, 97, 99, 101, 110, 99, 121, 95, 108,
     105, 115, 116, 95, 98, 105, 116, 95, 105, 110, 100, 101, 120, 95, 115, 98, 108, 111, 99, 107,
     115, 46, 108, 111, 103, 97, 114, 114, 97, 121],
   [112, 111, 115, 95, 111, 95, 112, 115, 95, 97, 100, 106, 97, 99, 101, 110, 99, 121, 95, 108,
     105, 115, 116, 95, 110, 117, 109, 115, 46, 108, 111, 103, 97, 114, 114, 97, 121],
   [99, 104, 105, 108, 100, 95, 112, 111, 115, 95, 111, 98, 106, 101, 99, 116, 115, 46, 108, 111,
     103, 97, 114, 114, 97, 121],
   [112, 111, 115, 95, 112, 114, 101, 100, 105, 99, 97, 116, 101, 95, 119, 97, 118, 101, 108,
     101, 116, 95, 116, 114, 101, 101, 95, 98, 105, 116, 115, 46, 98, 105, 116, 97, 114, 114, 97,
     121],
   [112, 111, 115, 95, 112, 114, 101, 100, 105, 99, 97, 116, 101, 95, 119, 97, 118, 101, 108,
     101, 116, 95, 116, 114, 101, 101, 95, 98, 105, 116, 95, 105, 110, 100, 101, 120, 95, 98, 108,
     111, 99, 107, 115, 46, 108, 111, 103, 97, 114, 114, 97, 121],
   [112, 111, 115, 95, 112, 114, 101, 100, 105, 99, 97, 116, 101, 95, 119, 97, 118, 101, 108,
     101, 116, 95, 116, 114, 101, 101, 95, 98, 105, 116, 95, 105, 110, 100, 101, 120, 95, 115, 98,
     108, 111, 99, 107, 115, 46, 108, 111, 103, 97, 114, 114, 97, 121],
   [110, 101, 103, 95, 115, 95, 112, 95, 97, 100, 106, 97, 99, 101, 110, 99, 121, 95, 108, 105,
     115, 116, 95, 98, 105, 116, 115, 46, 98, 105, 116, 97, 114, 114, 97, 121],
   [110, 101, 103, 95, 115, 95, 112, 95, 97, 100, 106, 97, 99, 101, 110, 99, 121, 95, 108, 105,
     115, 116, 95, 98, 105, 116, 95, 105, 110, 100, 101, 120, 95, 98, 108, 111, 99, 107, 115, 46,
     108, 111, 103, 97, 114, 114, 97, 121],
   [110, 101, 103, 95, 115, 95, 112, 95, 97, 100, 106, 97, 99, 101, 110, 99, 121, 95, 108, 105,
     115, 116, 95, 98, 105, 116, 95, 105, 110, 100, 101, 120, 95, 115, 98, 108, 111, 99, 107, 115,
     46, 108, 111, 103, 97, 114, 114, 97, 121],
   [110, 101, 103, 95, 115, 95, 112, 95, 97, 100, 106, 97, 99, 101, 110, 99, 121, 95, 108, 105,
     115, 116, 95, 110, 117, 109, 115, 46, 108, 111, 103, 97, 114, 114, 97, 121],
   [110, 101, 103, 95, 115, 112, 95, 111, 95, 97, 100, 106, 97, 99, 101, 110, 99, 121, 95, 108,
     105, 115, 116, 95, 98, 105, 116, 115, 46, 98, 105, 116, 97, 114, 114, 97, 121],
   [110, 101, 103, 95, 115, 112, 95, 111, 95, 97, 100, 106, 97, 99, 101, 110, 99, 121, 95, 108,
     105, 115, 116, 95, 98, 105, 116, 95, 105, 110, 100, 101, 120, 95, 98, 108, 111, 99, 107, 115,
     46, 108, 111, 103, 97, 114, 114, 97, 121],
   [110, 101, 103, 95, 115, 112, 95, 111, 95, 97, 100, 106, 97, 99, 101, 110, 99, 121, 95, 108,
     105, 115, 116, 95, 98, 105, 116, 95, 105, 110, 100, 101, 120, 95, 115, 98, 108, 111, 99, 107,
     115, 46, 108, 111, 103, 97, 114, 114, 97, 121],
   [110, 101, 103, 95, 115, 112, 95, 111, 95, 97, 100, 106, 97, 99, 101, 110, 99, 121, 95, 108,
     105, 115, 116, 95, 110, 117, 109, 115, 46, 108, 111, 103, 97, 114, 114, 97, 121],
   [99, 104, 105, 108, 100, 95, 110, 101, 103, 95, 115, 117, 98, 106, 101, 99, 116, 115, 46, 108,
     111, 103, 97, 114, 114, 97, 121],
   [110, 101, 103, 95, 111, 95, 112, 115, 95, 97, 100, 106, 97, 99, 101, 110, 99, 121, 95, 108,
     105, 115, 116, 95, 98, 105, 116, 115, 46, 98, 105, 116, 97, 114, 114, 97, 121],
   [110, 101, 103, 95, 111, 95, 112, 115, 95, 97, 100, 106, 97, 99, 101, 110, 99, 121, 95, 108,
     105, 115, 116, 95, 98, 105, 116, 95, 105, 110, 100, 101, 120, 95, 98, 108, 111, 99, 107, 115,
     46, 108, 111, 103, 97, 114, 114, 97, 121],
   [110, 101, 103, 95, 111, 95, 112, 115, 95, 97, 100, 106, 97, 99, 101, 110, 99, 121, 95, 108,
     105, 115, 116, 95, 98, 105, 116, 95, 105, 110, 100, 101, 120, 95, 115, 98, 108, 111, 99, 107,
     115, 46, 108, 111, 103, 97, 114, 114, 97, 121],
   [110, 101, 103, 95, 111, 95, 112, 115, 95, 97, 100, 106, 97, 99, 101, 110, 99, 121, 95, 108,
     105, 115, 116, 95, 110, 117, 109, 115, 46, 108, 111, 103, 97, 114, 114, 97, 121],
   [99, 104, 105, 108, 100, 95, 110, 101, 103, 95, 111, 98, 106, 101, 99, 116, 115, 46, 108, 111,
     103, 97, 114, 114, 97, 121],
   [110, 101, 103, 95, 112, 114, 101, 100, 105, 99, 97, 116, 101, 95, 119, 97, 118, 101, 108,
     101, 116, 95, 116, 114, 101, 101, 95, 98, 105, 116, 115, 46, 98, 105, 116, 97, 114, 114, 97,
     121],
   [110, 101, 103, 95, 112, 114, 101, 100, 105, 99, 97, 116, 101, 95, 119, 97, 118, 101, 108,
     101, 116, 95, 116, 114, 101, 101, 95, 98, 105, 116, 95, 105, 110, 100, 101, 120, 95, 98, 108,
     111, 99, 107, 115, 46, 108, 111, 103, 97, 114, 114, 97, 121],
   [110, 101, 103, 95, 112, 114, 101, 100, 105, 99, 97, 116, 101, 95, 119, 97, 118, 101, 108,
     101, 116, 95, 116, 114, 101, 101, 95, 98, 105, 116, 95, 105, 110, 100, 101, 120, 95, 115, 98,
     108, 111, 99, 107, 115, 46, 108, 111, 103, 97, 114, 114, 97, 121]]

theorem child_eq : childKeys = childT.map stringOf := by decide +kernel

/-- The names of the files that are written, for layers with these id maps. -/
def keys (child nv pm : Bool) : List FileName :=
  headKeys ++ (if nv then nvKeys else []) ++ (if pm then pmKeys else []) ++
    (if child then childKeys else baseKeys)

/-- The same with code points. -/
def keysT (child nv pm : Bool) : List Text :=
  headT ++ (if nv then nvT else []) ++ (if pm then pmT else []) ++ (if child then childT else baseT)

theorem keys_eq (child nv pm : Bool) : keys child nv pm = (keysT child nv pm).map stringOf := by
  unfold keys keysT
  rw [head_eq, nv_eq, pm_eq, base_eq, child_eq]
  cases child <;> cases nv <;> cases pm <;> simp

theorem keysT_sub (child nv pm : Bool) : ∀ t ∈ keysT child nv pm, t ∈ packT child := by
  cases child <;> cases nv <;> cases pm <;> decide +kernel

theorem keysT_nodup (child nv pm : Bool) : (keysT child nv pm).Nodup := by
  cases child <;> cases nv <;> cases pm <;> decide +kernel

theorem keysT_parent (child nv pm : Bool) : parentT ∉ keysT child nv pm := by
  cases child <;> cases nv <;> cases pm <;> decide +kernel

theorem keysT_required (child nv pm : Bool) :
    ∀ t ∈ (tableT.map (·.1)).filter (nameT child), reqT t = true →
      t = parentT ∨ t ∈ keysT child nv pm := by
  cases child <;> cases nv <;> cases pm <;> decide +kernel

theorem keys_mem {child nv pm : Bool} {t : Text} (ht : ∀ c ∈ t, c < 0x80) :
    stringOf t ∈ keys child nv pm ↔ t ∈ keysT child nv pm := by
  rw [keys_eq]
  constructor
  · intro h
    obtain ⟨u, h1, h2⟩ := List.mem_map.1 h
    rw [← (stringOf_inj (packT_ascii child u (keysT_sub _ _ _ u h1)) ht).1 h2]
    exact h1
  · exact fun h => List.mem_map.2 ⟨t, h, rfl⟩

/-- Only files of layers of this form are written. -/
theorem keys_sub (child nv pm : Bool) : ∀ f ∈ keys child nv pm, f ∈ packNames child := by
  intro f hf
  rw [keys_eq] at hf
  obtain ⟨t, h1, rfl⟩ := List.mem_map.1 hf
  rw [packNames_eq]
  exact List.mem_map.2 ⟨t, keysT_sub _ _ _ t h1, rfl⟩

theorem keys_nodup (child nv pm : Bool) : (keys child nv pm).Nodup := by
  rw [keys_eq]
  refine List.pairwise_map.2 ((keysT_nodup child nv pm).imp_of_mem ?_)
  intro t u ht hu hne e
  exact hne ((stringOf_inj (packT_ascii child t (keysT_sub _ _ _ t ht))
    (packT_ascii child u (keysT_sub _ _ _ u hu))).1 e)

theorem keys_parent (child nv pm : Bool) : FileName.parent ∉ keys child nv pm := by
  rw [parent_eq, keys_mem parentT_ascii]
  exact keysT_parent child nv pm

/-- Every required file is written, apart from the parent file. -/
theorem keys_required (child nv pm : Bool) {f : FileName} (hf : f ∈ PackSpec.required child)
    (hp : f ≠ FileName.parent) : f ∈ keys child nv pm := by
  rw [required_eq] at hf
  obtain ⟨t, ht, rfl⟩ := List.mem_map.1 hf
  obtain ⟨h1, h2⟩ := List.mem_filter.1 ht
  rcases keysT_required child nv pm t h1 h2 with e | e
  · rw [parent_eq, e] at hp
    exact absurd rfl hp
  · rw [keys_eq]
    exact List.mem_map.2 ⟨t, e, rfl⟩

/-- No two files of a layer have the same kind. -/
theorem kind_inj {child : Bool} {f g : FileName} (hf : f ∈ packNames child) (hg : g ∈ packNames child)
    (h : FileName.kind f = FileName.kind g) : f = g :=
  List.inj_on_of_nodup_map (packNames_nodup child) hf hg h

theorem nvBits_eq : FileName.nodeValueIdmapBits = stringOf (nvT.headD []) := by decide +kernel
theorem pmBits_eq : FileName.predicateIdmapBits = stringOf (pmT.headD []) := by decide +kernel

/-- `base_subjects.logarray`. -/
def bsT : Text := [98, 97, 115, 101, 95, 115, 117, 98, 106, 101, 99, 116, 115, 46, 108, 111, 103, 97,
  114, 114, 97, 121]

/-- `base_objects.logarray`. -/
def boT : Text := [98, 97, 115, 101, 95, 111, 98, 106, 101, 99, 116, 115, 46, 108, 111, 103, 97, 114,
  114, 97, 121]

theorem bs_eq : FileName.baseSubjects = stringOf bsT := by decide +kernel
theorem bo_eq : FileName.baseObjects = stringOf boT := by decide +kernel

theorem nvBits_mem (child pm : Bool) : FileName.nodeValueIdmapBits ∈ packNames child ∧
    FileName.nodeValueIdmapBits ∉ keys child false pm ∧ FileName.nodeValueIdmapBits ≠ FileName.parent := by
  have ha : ∀ c ∈ nvT.headD [], c < 0x80 := by decide +kernel
  rw [nvBits_eq, keys_mem ha, packNames_eq, parent_eq, ne_eq, stringOf_inj ha parentT_ascii]
  refine ⟨List.mem_map.2 ⟨_, ?_, rfl⟩, ?_, by decide +kernel⟩
  · cases child <;> decide +kernel
  · cases child <;> cases pm <;> decide +kernel

theorem pmBits_mem (child nv : Bool) : FileName.predicateIdmapBits ∈ packNames child ∧
    FileName.predicateIdmapBits ∉ keys child nv false ∧ FileName.predicateIdmapBits ≠ FileName.parent := by
  have ha : ∀ c ∈ pmT.headD [], c < 0x80 := by decide +kernel
  rw [pmBits_eq, keys_mem ha, packNames_eq, parent_eq, ne_eq, stringOf_inj ha parentT_ascii]
  refine ⟨List.mem_map.2 ⟨_, ?_, rfl⟩, ?_, by decide +kernel⟩
  · cases child <;> decide +kernel
  · cases child <;> cases nv <;> decide +kernel

theorem bs_mem (nv pm : Bool) : FileName.baseSubjects ∈ packNames false ∧
    FileName.baseSubjects ∉ keys false nv pm ∧ FileName.baseSubjects ≠ FileName.parent := by
  have ha : ∀ c ∈ bsT, c < 0x80 := by decide +kernel
  rw [bs_eq, keys_mem ha, packNames_eq, parent_eq, ne_eq, stringOf_inj ha parentT_ascii]
  refine ⟨List.mem_map.2 ⟨_, ?_, rfl⟩, ?_, by decide +kernel⟩
  · decide +kernel
  · cases nv <;> cases pm <;> decide +kernel

theorem bo_mem (nv pm : Bool) : FileName.baseObjects ∈ packNames false ∧
    FileName.baseObjects ∉ keys false nv pm ∧ FileName.baseObjects ≠ FileName.parent := by
  have ha : ∀ c ∈ boT, c < 0x80 := by decide +kernel
  rw [bo_eq, keys_mem ha, packNames_eq, parent_eq, ne_eq, stringOf_inj ha parentT_ascii]
  refine ⟨List.mem_map.2 ⟨_, ?_, rfl⟩, ?_, by decide +kernel⟩
  · decide +kernel
  · cases nv <;> cases pm <;> decide +kernel

/-! ### What is written -/

/-- The form of a layer with and without parent. -/
def Formed (child : Bool) (d : LayerData K V) : Prop := if child then d.ChildForm else d.BaseForm

theorem optWrites_keys {F : Type} (c : Coder K V) (f : F) (x : Option (List Nat)) :
    (optWrites c f x).map (·.1) = if x.isSome then [f] else [] := by
  cases x <;> rfl

theorem writeIdMap_keys {F : Type} (c : Coder K V) (f : BitIndexFiles F) (n : Nat) (m : IdMap) :
    (writeIdMap c f n m).map (·.1) = if m.isSome then [f.bits, f.blocks, f.sblocks] else [] := by
  cases m <;> rfl

theorem dicts_keys (c : Coder K V) (d : LayerData K V) :
    (writeDicts c baseFiles.node baseFiles.predicate baseFiles.value baseFiles.idMap d).map (·.1) =
      headKeys ++ (if d.nvMap.isSome then nvKeys else []) ++
        (if d.pMap.isSome then pmKeys else []) := by
  unfold writeDicts
  rw [List.map_append, List.map_append, writeIdMap_keys, writeIdMap_keys]
  rfl

theorem sideWrites_keys {F : Type} (c : Coder K V) (f : SideFiles F) (np no : Nat) (x : TripleIndex)
    (hb : x.subjects.isSome = x.objects.isSome) :
    (sideWrites c f np no x).map (·.1) =
      [f.sp.bitindex.bits, f.sp.bitindex.blocks, f.sp.bitindex.sblocks, f.sp.nums,
        f.spo.bitindex.bits, f.spo.bitindex.blocks, f.spo.bitindex.sblocks, f.spo.nums] ++
      (if x.subjects.isSome then [f.subjects] else []) ++
      [f.ops.bitindex.bits, f.ops.bitindex.blocks, f.ops.bitindex.sblocks, f.ops.nums] ++
      (if x.subjects.isSome then [f.objects] else []) ++
      [f.wavelet.bits, f.wavelet.blocks, f.wavelet.sblocks] := by
  unfold sideWrites
  simp only [List.map_append, optWrites_keys, ← hb]
  rfl

/-- A layer is written, to the files with these names. -/
theorem writeLayer_ok (c : Coder K V) {child : Bool} {d : LayerData K V} (h : d.Fits)
    (hf : Formed child d) : ∃ ws, writeLayer c child d = .ok ws ∧
      ws.map (·.1) = keys child d.nvMap.isSome d.pMap.isSome ∧
      ∀ a, Has a ws → (∀ f ∈ packNames child, f ∉ ws.map (·.1) → f ≠ FileName.parent →
        Holds a f none) → Kept c a child d := by
  cases child with
  | false =>
    have hf' : d.BaseForm := hf
    have hk : (baseWrites c baseFiles d).map (·.1) = keys false d.nvMap.isSome d.pMap.isSome := by
      unfold baseWrites keys
      rw [List.map_append, dicts_keys, sideWrites_keys _ _ _ _ _ h.pos.both, hf'.1]
      rfl
    refine ⟨baseWrites c baseFiles d, ?_, hk, ?_⟩
    · show (baseLayerFiles .ok).bind (fun f => writeBase c f d) = _
      rw [baseLayerFiles_eq]
      exact writeBase_ok c baseFiles h
    · intro a ha hn
      rw [hk] at hn
      unfold baseWrites at ha
      rw [Has.append] at ha
      have hno : d.pos.objects = none := by
        have := h.pos.both
        rw [hf'.1] at this
        cases e : d.pos.objects with
        | none => rfl
        | some l => rw [e] at this; cases this
      refine ⟨Dicts.of c h ha.1 ?_ ?_, fun _ => ⟨hf', Side.of c h.pos ha.2 ?_ ?_⟩,
        fun e => by cases e⟩
      · intro e
        rw [e] at hn
        obtain ⟨h1, h2, h3⟩ := nvBits_mem false d.pMap.isSome
        exact hn _ h1 h2 h3
      · intro e
        rw [e] at hn
        obtain ⟨h1, h2, h3⟩ := pmBits_mem false d.nvMap.isSome
        exact hn _ h1 h2 h3
      · intro _
        obtain ⟨h1, h2, h3⟩ := bs_mem d.nvMap.isSome d.pMap.isSome
        exact hn _ h1 h2 h3
      · intro _
        obtain ⟨h1, h2, h3⟩ := bo_mem d.nvMap.isSome d.pMap.isSome
        exact hn _ h1 h2 h3
  | true =>
    have hf' : d.ChildForm := hf
    obtain ⟨h1, x, hx, h2⟩ := hf'
    have hk : (childWrites c childFiles d x).map (·.1) = keys true d.nvMap.isSome d.pMap.isSome := by
      unfold childWrites keys
      rw [List.map_append, List.map_append, sideWrites_keys _ _ _ _ _ h.pos.both,
        sideWrites_keys _ _ _ _ _ (h.neg x hx).both, h1, h2]
      show (List.map (·.1) (writeDicts c baseFiles.node baseFiles.predicate baseFiles.value
        baseFiles.idMap d) ++ _) ++ _ = _
      rw [dicts_keys, List.append_assoc]
      rfl
    refine ⟨childWrites c childFiles d x, ?_, hk, ?_⟩
    · show (childLayerFiles .ok).bind (fun f => writeChild c f d) = _
      rw [childLayerFiles_eq]
      exact writeChild_ok c childFiles h hx
    · intro a ha hn
      rw [hk] at hn
      unfold childWrites at ha
      rw [Has.append, Has.append] at ha
      have none_of : ∀ {y : TripleIndex} {np no}, y.Fits np no → y.subjects.isSome = true →
          (y.subjects = none → False) ∧ (y.objects = none → False) := by
        intro y np no hy hs
        refine ⟨fun e => (by rw [e] at hs; cases hs), fun e => ?_⟩
        have := hy.both
        rw [hs, e] at this
        cases this
      refine ⟨Dicts.of c h ha.1.1 ?_ ?_, fun e => (by cases e), fun _ => ⟨hf, Side.of c h.pos ha.1.2 ?_ ?_,
        x, hx, Side.of c (h.neg x hx) ha.2 ?_ ?_⟩⟩
      · intro e
        rw [e] at hn
        obtain ⟨h1, h2, h3⟩ := nvBits_mem true d.pMap.isSome
        exact hn _ h1 h2 h3
      · intro e
        rw [e] at hn
        obtain ⟨h1, h2, h3⟩ := pmBits_mem true d.nvMap.isSome
        exact hn _ h1 h2 h3
      · exact fun e => ((none_of h.pos h1).1 e).elim
      · exact fun e => ((none_of h.pos h1).2 e).elim
      · exact fun e => ((none_of (h.neg x hx) h2).1 e).elim
      · exact fun e => ((none_of (h.neg x hx) h2).2 e).elim

end Verif.LayerFiles
