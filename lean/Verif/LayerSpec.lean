import Verif.Model.LayerFiles
import Verif.Model.LayerChanges

/-!
Which file of a layer is for what, by name.
-/

namespace Verif.LayerSpec

/-- The files of a base layer. -/
def baseFiles : BaseLayerFiles FileName where
  node := { blocks := FileName.nodeDictionaryBlocks, offsets := FileName.nodeDictionaryOffsets }
  predicate := { blocks := FileName.predicateDictionaryBlocks, offsets := FileName.predicateDictionaryOffsets }
  value :=
    { typesPresent := FileName.valueDictionaryTypesPresent, typeOffsets := FileName.valueDictionaryTypeOffsets,
      offsets := FileName.valueDictionaryOffsets, blocks := FileName.valueDictionaryBlocks }
  idMap :=
    { nodeValue :=
        { bits := FileName.nodeValueIdmapBits, blocks := FileName.nodeValueIdmapBitIndexBlocks,
          sblocks := FileName.nodeValueIdmapBitIndexSblocks },
      predicate :=
        { bits := FileName.predicateIdmapBits, blocks := FileName.predicateIdmapBitIndexBlocks,
          sblocks := FileName.predicateIdmapBitIndexSblocks } }
  subjects := FileName.baseSubjects
  objects := FileName.baseObjects
  sp :=
    { bitindex :=
        { bits := FileName.baseSPAdjacencyListBits, blocks := FileName.baseSPAdjacencyListBitIndexBlocks,
          sblocks := FileName.baseSPAdjacencyListBitIndexSblocks },
      nums := FileName.baseSPAdjacencyListNums }
  spo :=
    { bitindex :=
        { bits := FileName.baseSpOAdjacencyListBits, blocks := FileName.baseSpOAdjacencyListBitIndexBlocks,
          sblocks := FileName.baseSpOAdjacencyListBitIndexSblocks },
      nums := FileName.baseSpOAdjacencyListNums }
  ops :=
    { bitindex :=
        { bits := FileName.baseOPsAdjacencyListBits, blocks := FileName.baseOPsAdjacencyListBitIndexBlocks,
          sblocks := FileName.baseOPsAdjacencyListBitIndexSblocks },
      nums := FileName.baseOPsAdjacencyListNums }
  wavelet :=
    { bits := FileName.basePredicateWaveletTreeBits, blocks := FileName.basePredicateWaveletTreeBitIndexBlocks,
      sblocks := FileName.basePredicateWaveletTreeBitIndexSblocks }

/-- The files of a child layer. -/
def childFiles : ChildLayerFiles FileName where
  node := { blocks := FileName.nodeDictionaryBlocks, offsets := FileName.nodeDictionaryOffsets }
  predicate := { blocks := FileName.predicateDictionaryBlocks, offsets := FileName.predicateDictionaryOffsets }
  value :=
    { typesPresent := FileName.valueDictionaryTypesPresent, typeOffsets := FileName.valueDictionaryTypeOffsets,
      offsets := FileName.valueDictionaryOffsets, blocks := FileName.valueDictionaryBlocks }
  idMap :=
    { nodeValue :=
        { bits := FileName.nodeValueIdmapBits, blocks := FileName.nodeValueIdmapBitIndexBlocks,
          sblocks := FileName.nodeValueIdmapBitIndexSblocks },
      predicate :=
        { bits := FileName.predicateIdmapBits, blocks := FileName.predicateIdmapBitIndexBlocks,
          sblocks := FileName.predicateIdmapBitIndexSblocks } }
  posSubjects := FileName.posSubjects
  posObjects := FileName.posObjects
  negSubjects := FileName.negSubjects
  negObjects := FileName.negObjects
  posSp :=
    { bitindex :=
        { bits := FileName.posSPAdjacencyListBits, blocks := FileName.posSPAdjacencyListBitIndexBlocks,
          sblocks := FileName.posSPAdjacencyListBitIndexSblocks },
      nums := FileName.posSPAdjacencyListNums }
  posSpo :=
    { bitindex :=
        { bits := FileName.posSpOAdjacencyListBits, blocks := FileName.posSpOAdjacencyListBitIndexBlocks,
          sblocks := FileName.posSpOAdjacencyListBitIndexSblocks },
      nums := FileName.posSpOAdjacencyListNums }
  posOps :=
    { bitindex :=
        { bits := FileName.posOPsAdjacencyListBits, blocks := FileName.posOPsAdjacencyListBitIndexBlocks,
          sblocks := FileName.posOPsAdjacencyListBitIndexSblocks },
      nums := FileName.posOPsAdjacencyListNums }
  negSp :=
    { bitindex :=
        { bits := FileName.negSPAdjacencyListBits, blocks := FileName.negSPAdjacencyListBitIndexBlocks,
          sblocks := FileName.negSPAdjacencyListBitIndexSblocks },
      nums := FileName.negSPAdjacencyListNums }
  negSpo :=
    { bitindex :=
        { bits := FileName.negSpOAdjacencyListBits, blocks := FileName.negSpOAdjacencyListBitIndexBlocks,
          sblocks := FileName.negSpOAdjacencyListBitIndexSblocks },
      nums := FileName.negSpOAdjacencyListNums }
  negOps :=
    { bitindex :=
        { bits := FileName.negOPsAdjacencyListBits, blocks := FileName.negOPsAdjacencyListBitIndexBlocks,
          sblocks := FileName.negOPsAdjacencyListBitIndexSblocks },
      nums := FileName.negOPsAdjacencyListNums }
  posWavelet :=
    { bits := FileName.posPredicateWaveletTreeBits, blocks := FileName.posPredicateWaveletTreeBitIndexBlocks,
      sblocks := FileName.posPredicateWaveletTreeBitIndexSblocks }
  negWavelet :=
    { bits := FileName.negPredicateWaveletTreeBits, blocks := FileName.negPredicateWaveletTreeBitIndexBlocks,
      sblocks := FileName.negPredicateWaveletTreeBitIndexSblocks }

end Verif.LayerSpec

/-! ### What the files of a layer answer -/

namespace Verif.LayerSpec

open LayerFiles

variable {K V : Type} [LinearOrder K] [LinearOrder V]

/-- Questions about one side of the changes of a layer are answered from the list `P`. -/
structure Tells (P : List Triple) (all : Out (List Triple)) (mem : Triple → Out Bool)
    (bys : Nat → Out (List Triple)) (bysp : Nat → Nat → Out (List Triple))
    (byp byo : Nat → Out (List Triple)) (count : Out Nat) : Prop where
  sorted : SortedLt P
  all : all = .ok P
  mem : ∀ t, mem t = .ok (decide (t ∈ P))
  bys : ∀ s, bys s = .ok (P.filter (fun t => t.s == s))
  bysp : ∀ s p, bysp s p = .ok (P.filter (fun t => t.s == s && t.p == p))
  byp : ∀ p, p ≠ 0 → byp p = .ok (P.filter (fun t => t.p == p))
  byo : ∀ o, byo o = .ok (P.filter (fun t => t.o == o))
  count : count = .ok P.length

/-- A layer that is read from files is the layer `d`, and all questions that are answered from
single files are answered as this layer would: by what the loaded layer has as additions and
removals. -/
structure ReadsAs (c : Coder K V) (a : Access FileName) (child : Bool) (d : LayerData K V) :
    Prop where
  load : ∀ S : List (LayerData K V), (child = true ∨ S = []) →
    loadLayer c a child S = .ok (d.onTop S)
  nodes : nodeDictionary c a true = .ok (some d.nodes)
  preds : predicateDictionary c a true = .ok (some d.preds)
  values : valueDictionary c a true = .ok (some d.values)
  nodeCount : nodeCount c a true = .ok (some d.nodes.length)
  predicateCount : predicateCount c a true = .ok (some d.preds.length)
  valueCount : valueCount c a true = .ok (some d.values.length)
  nodeValueIdMap : nodeValueIdMap c a true = .ok (some d.nvMap)
  predicateIdMap : predicateIdMap c a true = .ok (some d.pMap)
  additions : ∃ P, d.pos.triples = some P ∧
    Tells P (additions c a true child) (additionExists c a true child)
      (additionsS c a true child) (additionsSP c a true child) (additionsP c a true child)
      (additionsO c a true child) (additionCount c a true child)
  removals : ∃ N, Stack.removals d = some N ∧
    Tells N (removals c a true child) (removalExists c a true child)
      (removalsS c a true child) (removalsSP c a true child) (removalsP c a true child)
      (removalsO c a true child) (removalCount c a true child)

/-- The files of a layer in a store. -/
def access (B : Backend) (s : B.State) (n : LayerName) : Access FileName :=
  { ex := B.fileExists s n, map := B.map s n }

/-- What is put into a store for a layer: what is written, and the parent file. -/
def putsOf (n : LayerName) (ws : Writes FileName) (parent : Option LayerName) :
    List (LayerName × FileName × Bytes) :=
  ws.map (fun q => (n, q.1, q.2)) ++
    (match parent with
     | none => []
     | some p => [(n, FileName.parent, parentFile p)])

end Verif.LayerSpec
