import Verif.Lemmas.LayerFiles
import Verif.LayerSpec
import Verif.Model.LayerChanges

/-!
What the files of a layer answer to single questions.
-/

set_option linter.unusedSectionVars false

namespace Verif.LayerFiles

open LayerSpec

variable {K V : Type} [LinearOrder K] [LinearOrder V]

theorem baseLayerFiles_eq : baseLayerFiles .ok = .ok baseFiles := rfl

theorem childLayerFiles_eq : childLayerFiles .ok = .ok childFiles := rfl

/-- All files of a layer as they are when they were written. -/
structure Kept (c : Coder K V) (a : Access FileName) (child : Bool) (d : LayerData K V) : Prop where
  dicts : Dicts c a baseFiles.node baseFiles.predicate baseFiles.value baseFiles.idMap d
  base : child = false → d.BaseForm ∧ Side c a baseFiles.side (totalP d) (totalNV d) d.pos
  child : child = true → d.ChildForm ∧ Side c a childFiles.pos (totalP d) (totalNV d) d.pos ∧
    ∃ x, d.neg = some x ∧ Side c a childFiles.neg (totalP d) (totalNV d) x

section
variable {c : Coder K V} {a : Access FileName} {child : Bool} {d : LayerData K V}

theorem Kept.nodeDictionary (h : Kept c a child d) :
    LayerFiles.nodeDictionary c a true = .ok (some d.nodes) := by
  show (mapDict a baseFiles.node).bind _ = _
  rw [h.dicts.node]
  show (parseDict c _).bind _ = _
  rw [parseDict_ok c h.dicts.fits.nodes]
  rfl

theorem Kept.predicateDictionary (h : Kept c a child d) :
    LayerFiles.predicateDictionary c a true = .ok (some d.preds) := by
  show (mapDict a baseFiles.predicate).bind _ = _
  rw [h.dicts.predicate]
  show (parseDict c _).bind _ = _
  rw [parseDict_ok c h.dicts.fits.preds]
  rfl

theorem Kept.valueDictionary (h : Kept c a child d) :
    LayerFiles.valueDictionary c a true = .ok (some d.values) := by
  show (mapTyped a baseFiles.value).bind _ = _
  rw [h.dicts.value]
  show (parseTyped c _).bind _ = _
  rw [parseTyped_ok c h.dicts.fits.values]
  rfl

theorem Kept.nodeCount (h : Kept c a child d) :
    LayerFiles.nodeCount c a true = .ok (some d.nodes.length) := by
  show (a.map baseFiles.node.blocks).bind _ = _
  rw [h.dicts.nodeBlocks]
  show (c.count _).bind _ = _
  rw [c.count_dict _ h.dicts.fits.nodes]
  rfl

theorem Kept.predicateCount (h : Kept c a child d) :
    LayerFiles.predicateCount c a true = .ok (some d.preds.length) := by
  show (a.map baseFiles.predicate.blocks).bind _ = _
  rw [h.dicts.predicateBlocks]
  show (c.count _).bind _ = _
  rw [c.count_dict _ h.dicts.fits.preds]
  rfl

theorem Kept.valueCount (h : Kept c a child d) :
    LayerFiles.valueCount c a true = .ok (some d.values.length) := by
  show (a.map baseFiles.value.blocks).bind _ = _
  rw [h.dicts.valueBlocks]
  show (c.count _).bind _ = _
  rw [c.count_typed _ h.dicts.fits.values]
  rfl

theorem Kept.nodeValueIdMap (h : Kept c a child d) :
    LayerFiles.nodeValueIdMap c a true = .ok (some d.nvMap) := by
  show (LayerFiles.nodeCount c a true).bind _ = _
  rw [h.nodeCount]
  show (LayerFiles.valueCount c a true).bind _ = _
  rw [h.valueCount]
  show (mapBitIndexIfExists a baseFiles.idMap.nodeValue).bind _ = _
  rw [h.dicts.nodeValue]
  show (parseIdMap c _ _).bind _ = _
  rw [parseIdMap_ok c h.dicts.fits.nv]
  rfl

theorem Kept.predicateIdMap (h : Kept c a child d) :
    LayerFiles.predicateIdMap c a true = .ok (some d.pMap) := by
  show (LayerFiles.predicateCount c a true).bind _ = _
  rw [h.predicateCount]
  show (mapBitIndexIfExists a baseFiles.idMap.predicate).bind _ = _
  rw [h.dicts.predicateMap]
  show (parseIdMap c _ _).bind _ = _
  rw [parseIdMap_ok c h.dicts.fits.pm]
  rfl

/-- Loading the layer. -/
theorem Kept.loadBase (h : Kept c a false d) :
    LayerFiles.loadBase c a baseFiles = .ok (d.onTop []) :=
  loadBase_ok c h.dicts (h.base rfl).2 (h.base rfl).1

theorem Kept.loadChild (h : Kept c a true d) (S : List (LayerData K V)) :
    LayerFiles.loadChild c a childFiles S = .ok (d.onTop S) := by
  obtain ⟨h1, h2, x, h3, h4⟩ := h.child rfl
  exact loadChild_ok c h.dicts h2 h4 h3 h1 S

/-! ### One side -/

/-- The files of a side that are read by subject. -/
def SideFiles.bySubject (f : SideFiles FileName) : SubjectFiles FileName :=
  { subjects := f.subjects, sp := f.sp, spo := f.spo }

/-- The files of a side that are read by object. -/
def SideFiles.byObject (f : SideFiles FileName) : ObjectFiles FileName :=
  { subjects := f.subjects, objects := f.objects, ops := f.ops, sp := f.sp }

/-- The files of a side that are read for the number of triples. -/
def SideFiles.forCount (f : SideFiles FileName) : CountFiles FileName :=
  { spNums := f.sp.nums, spoBits := f.spo.bitindex.bits, wavelet := f.wavelet }

variable {f : SideFiles FileName} {np no : Nat} {x : TripleIndex}

theorem Side.readSubject (h : Side c a f np no x) :
    LayerFiles.readSubject c a f.bySubject = .ok (x.subjects, x.sp, x.spo) := by
  show (mapAdj a f.sp).bind _ = _
  rw [h.sp]
  show (mapAdj a f.spo).bind _ = _
  rw [h.spo]
  show (mapIfExists a f.subjects).bind _ = _
  rw [h.subjects]
  show (parseOpt c _).bind _ = _
  rw [parseOpt_ok c h.fits.subjects]
  show (parseAdj c _).bind _ = _
  rw [parseAdj_ok c h.fits.sp]
  show (parseAdj c _).bind _ = _
  rw [parseAdj_ok c h.fits.spo]
  rfl

theorem Side.exists (h : Side c a f np no x) (t : Triple) :
    fileTripleExists c a f.bySubject t = Out.ofOption (x.contains t) := by
  show (LayerFiles.readSubject c a f.bySubject).bind _ = _
  rw [h.readSubject]
  rfl

theorem Side.iter (h : Side c a f np no x) :
    fileTripleIterator c a f.bySubject = .ok x.iter := by
  show (LayerFiles.readSubject c a f.bySubject).bind _ = _
  rw [h.readSubject]
  rfl

theorem Side.pred (h : Side c a f np no x) (p : Nat) :
    fileTripleIteratorByPredicate c a f.bySubject f.wavelet p = .ok (x.predIter p) := by
  show (mapAdj a f.sp).bind _ = _
  rw [h.sp]
  show (mapAdj a f.spo).bind _ = _
  rw [h.spo]
  show (mapBitIndex a f.wavelet).bind _ = _
  rw [h.wavelet]
  show (mapIfExists a f.subjects).bind _ = _
  rw [h.subjects]
  show (parseOpt c _).bind _ = _
  rw [parseOpt_ok c h.fits.subjects]
  show (parseAdj c _).bind _ = _
  rw [parseAdj_ok c h.fits.sp]
  show (parseAdj c _).bind _ = _
  rw [parseAdj_ok c h.fits.spo]
  show (c.parseWavelet _ _ _ _).bind _ = _
  rw [c.wavelet_ok _ _ (fun y hy => lt_calcWidth (h.fits.sp y hy))]
  show Out.ok _ = Out.ok _
  unfold TripleIndex.predIter
  rw [h.fits.wavelet]

theorem Side.byObj (h : Side c a f np no x) (o : Nat) :
    fileTripleIteratorByObject c a f.byObject o =
      Out.ofOption ((ObjIter.new x.subjects x.objects x.ops x.sp true).seekObject o) := by
  show (mapIfExists a f.subjects).bind _ = _
  rw [h.subjects]
  show (parseOpt c _).bind _ = _
  rw [parseOpt_ok c h.fits.subjects]
  show (mapIfExists a f.objects).bind _ = _
  rw [h.objects]
  show (parseOpt c _).bind _ = _
  rw [parseOpt_ok c h.fits.objects]
  show (mapAdj a f.ops).bind _ = _
  rw [h.ops]
  show (mapAdj a f.sp).bind _ = _
  rw [h.sp]
  show (parseAdj c _).bind _ = _
  rw [parseAdj_ok c h.fits.ops]
  show (parseAdj c _).bind _ = _
  rw [parseAdj_ok c h.fits.sp]
  rfl

theorem Side.count (h : Side c a f np no x) (hr : x.spo.bits.length = x.spo.rightCount) :
    fileTripleLayerCount c a f.forCount = Out.ofOption x.count := by
  show (a.map f.sp.nums).bind _ = _
  rw [h.spNums]
  show (c.logHeader _).bind _ = _
  rw [c.header_ok _ _ (fun y hy => lt_calcWidth (h.fits.sp y hy))]
  show (a.map f.spo.bitindex.bits).bind _ = _
  rw [h.spoBits]
  show (c.bitsLen _).bind _ = _
  rw [c.len_ok]
  show (mapBitIndex a f.wavelet).bind _ = _
  rw [h.wavelet]
  show (c.parseWavelet _ _ _ _).bind _ = _
  rw [c.wavelet_ok _ _ (fun y hy => lt_calcWidth (h.fits.sp y hy))]
  unfold TripleIndex.count
  rw [h.fits.wavelet, ← hr]
  show (if _ then _ else _) = _
  dsimp only
  split <;> rfl

/-! ### The answers -/

/-- What one side answers through the files. -/
structure Told (x : TripleIndex) (all : Out (List Triple)) (mem : Triple → Out Bool)
    (bys : Nat → Out (List Triple)) (bysp : Nat → Nat → Out (List Triple))
    (byp byo : Nat → Out (List Triple)) (count : Out Nat) : Prop where
  all : all = Out.ofOption x.triples
  mem : ∀ t, mem t = Out.ofOption (x.contains t)
  bys : ∀ s, bys s = Out.ofOption (x.triplesS s)
  bysp : ∀ s p, bysp s p = Out.ofOption (x.triplesSP s p)
  byp : ∀ p, byp p = Out.ofOption (x.triplesP p)
  byo : ∀ o, byo o = Out.ofOption (x.storedTriplesO o)
  count : x.spo.bits.length = x.spo.rightCount → count = Out.ofOption x.count

theorem ofOption_bind {α β : Type} (x : Option α) (g : α → Option β) :
    Out.ofOption (x >>= g) = (Out.ofOption x).bind (fun y => Out.ofOption (g y)) := by
  cases x <;> rfl

theorem runS_eq (it : SubjIter) (s : Nat) : runS it s =
    Out.ofOption (do
      let it ← it.seekSubject s
      let l ← it.collect
      return l.takeWhile (fun t => t.s == s)) := by
  unfold runS
  cases it.seekSubject s with
  | none => rfl
  | some it =>
    show (Out.ofOption it.collect).bind _ = Out.ofOption (it.collect >>= _)
    cases it.collect <;> rfl

theorem runSP_eq (it : SubjIter) (s p : Nat) : runSP it s p =
    Out.ofOption (do
      let it ← it.seekSubjectPredicate s p
      let l ← it.collect
      return l.takeWhile (fun t => t.p == p && t.s == s)) := by
  unfold runSP
  cases it.seekSubjectPredicate s p with
  | none => rfl
  | some it =>
    show (Out.ofOption it.collect).bind _ = Out.ofOption (it.collect >>= _)
    cases it.collect <;> rfl

theorem runO_eq (x : TripleIndex) (o : Nat) :
    (Out.ofOption ((ObjIter.new x.subjects x.objects x.ops x.sp true).seekObject o)).bind
      (fun it => runO it o) = Out.ofOption (x.storedTriplesO o) := by
  unfold TripleIndex.storedTriplesO
  cases (ObjIter.new x.subjects x.objects x.ops x.sp true).seekObject o with
  | none => rfl
  | some it =>
    show (Out.ofOption it.collect).bind _ = Out.ofOption (it.collect >>= _)
    cases it.collect <;> rfl

theorem runP_eq (x : TripleIndex) (p : Nat) : runP (x.predIter p) = Out.ofOption (x.triplesP p) := by
  unfold TripleIndex.triplesP
  cases x.predIter p <;> rfl

theorem Side.told (h : Side c a f np no x) :
    Told x ((fileTripleIterator c a f.bySubject).bind run) (fileTripleExists c a f.bySubject)
      (fun s => (fileTripleIterator c a f.bySubject).bind (runS · s))
      (fun s p => (fileTripleIterator c a f.bySubject).bind (runSP · s p))
      (fun p => (fileTripleIteratorByPredicate c a f.bySubject f.wavelet p).bind runP)
      (fun o => (fileTripleIteratorByObject c a f.byObject o).bind (runO · o))
      (fileTripleLayerCount c a f.forCount) := by
  refine ⟨?_, h.exists, ?_, ?_, ?_, ?_, h.count⟩
  · rw [h.iter]; rfl
  · intro s; rw [h.iter]; exact runS_eq _ _
  · intro s p; rw [h.iter]; exact runSP_eq _ _ _
  · intro p; rw [h.pred]; exact runP_eq _ _
  · intro o; rw [h.byObj]; exact runO_eq _ _

/-- The additions, read from the files. -/
theorem Kept.additions (h : Kept c a child d) :
    Told d.pos (LayerFiles.additions c a true child) (additionExists c a true child)
      (additionsS c a true child) (additionsSP c a true child) (additionsP c a true child)
      (additionsO c a true child) (additionCount c a true child) := by
  cases child with
  | false => exact (h.base rfl).2.told
  | true => exact (h.child rfl).2.1.told

/-- The removals of a child layer, read from the files. -/
theorem Kept.removals (h : Kept c a true d) : ∃ x, d.neg = some x ∧
    Told x (LayerFiles.removals c a true true) (removalExists c a true true)
      (removalsS c a true true) (removalsSP c a true true) (removalsP c a true true)
      (removalsO c a true true) (removalCount c a true true) := by
  obtain ⟨_, _, x, h1, h2⟩ := h.child rfl
  exact ⟨x, h1, h2.told⟩

end

end Verif.LayerFiles
