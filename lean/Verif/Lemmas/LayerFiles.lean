import Verif.Lemmas.LayerFit
import Verif.Lemmas.Forms
import Verif.Lemmas.Alike

/-!
What is written to the files of a layer is read from them.
-/

set_option linter.unusedSectionVars false

namespace Verif

variable {K V : Type} [LinearOrder K] [LinearOrder V]

/-- What has to fit in the files of a layer. -/
structure LayerData.Fits (d : LayerData K V) : Prop where
  nodes : SortedLt d.nodes
  preds : SortedLt d.preds
  values : SortedLt d.values
  nv : ∀ l, d.nvMap = some l → ∀ y ∈ l, y ≤ d.nodes.length + d.values.length
  pm : ∀ l, d.pMap = some l → ∀ y ∈ l, y ≤ d.preds.length
  pos : d.pos.Fits (LayerFiles.totalP d) (LayerFiles.totalNV d)
  neg : ∀ x, d.neg = some x → x.Fits (LayerFiles.totalP d) (LayerFiles.totalNV d)

theorem StackOk.fits {d : LayerData K V} {S : List (LayerData K V)} {Ps Ns : List (List Triple)}
    (h : StackOk (d :: S) Ps Ns) : d.Fits := by
  obtain ⟨P, N, Ps, Ns, rfl, rfl, hok⟩ := h.tail
  obtain ⟨h1, h2, h3⟩ := h.sorted d List.mem_cons_self
  have hnv : Stack.nvCount (d :: S) = LayerFiles.totalNV d := Nat.add_assoc _ _ _
  have hp : Stack.pCount (d :: S) = LayerFiles.totalP d := rfl
  have h4 := h.nv
  have h5 := h.pr
  simp only [nvLevels, pLevels, List.map_cons, LvOk] at h4 h5
  have hlen : d.objs.length = d.nodes.length + d.values.length := by
    simp [LayerData.objs]
  have hst : Stored d.pos P ∧ NegStored d.neg N := by
    cases h.rep with
    | cons g1 g2 _ => exact ⟨g1, g2⟩
  refine ⟨h1, h2, h3, ?_, ?_, ?_, ?_⟩
  · intro l hl y hy
    have := (h4.2.2.1 l hl).mem_iff.1 hy
    rw [List.mem_range, hlen] at this
    omega
  · intro l hl y hy
    have := (h5.2.2.1 l hl).mem_iff.1 hy
    rw [List.mem_range] at this
    omega
  · refine hst.1.fits (fun t ht => ?_)
    obtain ⟨_, g2, g3⟩ := h.range.1 t ht
    exact ⟨hp ▸ g2, hnv ▸ g3⟩
  · intro x hx
    have hn := hst.2
    rw [hx] at hn
    refine Stored.fits hn (fun t ht => ?_)
    have hw := h.wf t
    simp only [wellFormed] at hw
    obtain ⟨_, g2, g3⟩ := hok.present_range (hw.2.1 ht)
    have e1 := h.counts.1
    have e2 := h.counts.2.1
    unfold LayerFiles.totalP LayerFiles.totalNV
    omega

theorem Reachable.fits {d : LayerData K V} {S : List (LayerData K V)} (h : Reachable (d :: S)) :
    d.Fits := by
  obtain ⟨Ps, Ns, hok⟩ := h.good
  exact hok.fits

namespace LayerFiles

variable {F : Type}

/-- What a file with contents, or none, answers. -/
structure Holds (a : Access F) (f : F) (x : Option Bytes) : Prop where
  ex : a.ex f = .ok x.isSome
  map : ∀ b, x = some b → a.map f = .ok b

/-- Everything that was written is there. -/
def Has (a : Access F) (ws : Writes F) : Prop := ∀ q ∈ ws, Holds a q.1 (some q.2)

theorem Has.append {a : Access F} {v w : Writes F} : Has a (v ++ w) ↔ Has a v ∧ Has a w := by
  unfold Has
  constructor
  · intro h
    exact ⟨fun q hq => h q (List.mem_append_left _ hq), fun q hq => h q (List.mem_append_right _ hq)⟩
  · rintro ⟨h1, h2⟩ q hq
    rcases List.mem_append.1 hq with g | g
    · exact h1 q g
    · exact h2 q g

/-! ### Writing works -/

theorem writeLog_ok (c : Coder K V) (f : F) {n : Nat} {l : List Nat} (h : ∀ x ∈ l, x ≤ n) :
    writeLog c f (calcWidth n) l = .ok [(f, c.log (calcWidth n) l)] :=
  if_pos (fun x hx => lt_calcWidth (h x hx))

/-- What an adjacency list writes. -/
def adjWrites (c : Coder K V) (f : AdjFiles F) (n : Nat) (a : AdjList) : Writes F :=
  writeBitIndex f.bitindex (c.bits a.bits) ++ [(f.nums, c.log (calcWidth n) a.nums)]

theorem writeAdj_ok (c : Coder K V) (f : AdjFiles F) {n : Nat} {a : AdjList}
    (h : ∀ x ∈ a.nums, x ≤ n) : writeAdj c f (calcWidth n) a = .ok (adjWrites c f n a) := by
  unfold writeAdj
  rw [writeLog_ok c f.nums h]
  rfl

/-- What a list of subjects or objects writes. -/
def optWrites (c : Coder K V) (f : F) : Option (List Nat) → Writes F
  | none => []
  | some l => [(f, c.log (calcWidth (l.getLastD 0)) l)]

theorem writeOpt_ok (c : Coder K V) (f : F) {x : Option (List Nat)}
    (h : ∀ l, x = some l → ∀ y ∈ l, y ≤ l.getLastD 0) : writeOpt c f x = .ok (optWrites c f x) := by
  cases x with
  | none => rfl
  | some l => exact writeLog_ok c f (h l rfl)

/-- What a side writes. -/
def sideWrites (c : Coder K V) (f : SideFiles F) (np no : Nat) (x : TripleIndex) : Writes F :=
  adjWrites c f.sp np x.sp ++ adjWrites c f.spo no x.spo ++ optWrites c f.subjects x.subjects ++
    adjWrites c f.ops (greatestSp x.spo) x.ops ++ optWrites c f.objects x.objects ++
    writeBitIndex f.wavelet (c.wavelet (calcWidth np) x.sp.nums)

theorem writeSide_ok (c : Coder K V) (f : SideFiles F) {np no : Nat} {x : TripleIndex}
    (h : x.Fits np no) : writeSide c f np no x = .ok (sideWrites c f np no x) := by
  unfold writeSide
  rw [writeAdj_ok c _ h.sp, writeAdj_ok c _ h.spo, writeAdj_ok c _ h.ops, writeOpt_ok c _ h.subjects,
    writeOpt_ok c _ h.objects]
  rfl

/-- What a base layer writes. -/
def baseWrites (c : Coder K V) (f : BaseLayerFiles F) (d : LayerData K V) : Writes F :=
  writeDicts c f.node f.predicate f.value f.idMap d ++
    sideWrites c f.side (totalP d) (totalNV d) d.pos

/-- What a child layer with these removals writes. -/
def childWrites (c : Coder K V) (f : ChildLayerFiles F) (d : LayerData K V) (x : TripleIndex) :
    Writes F :=
  writeDicts c f.node f.predicate f.value f.idMap d ++
    sideWrites c f.pos (totalP d) (totalNV d) d.pos ++ sideWrites c f.neg (totalP d) (totalNV d) x

theorem writeBase_ok (c : Coder K V) (f : BaseLayerFiles F) {d : LayerData K V} (h : d.Fits) :
    writeBase c f d = .ok (baseWrites c f d) := by
  unfold writeBase
  rw [writeSide_ok c _ h.pos]
  rfl

theorem writeChild_ok (c : Coder K V) (f : ChildLayerFiles F) {d : LayerData K V} (h : d.Fits)
    {x : TripleIndex} (hx : d.neg = some x) : writeChild c f d = .ok (childWrites c f d x) := by
  unfold writeChild
  rw [writeSide_ok c _ h.pos, hx]
  show (writeSide c f.neg (totalP d) (totalNV d) x).bind _ = _
  rw [writeSide_ok c _ (h.neg x hx)]
  rfl

/-! ### Reading -/

section
variable {a : Access F} (c : Coder K V)

theorem Has.cons {f : F} {b : Bytes} {ws : Writes F} :
    Has a ((f, b) :: ws) ↔ Holds a f (some b) ∧ Has a ws := by
  unfold Has
  simp

theorem mapDict_ok {f : DictFiles F} {l : List K} (h : Has a (writeDict c f l)) :
    mapDict a f = .ok (c.dict l) := by
  unfold writeDict at h
  rw [Has.cons, Has.cons] at h
  unfold mapDict
  rw [h.1.map _ rfl, h.2.1.map _ rfl]
  rfl

theorem mapTyped_ok {f : TypedDictFiles F} {l : List V} (h : Has a (writeTyped c f l)) :
    mapTyped a f = .ok (c.typed l) := by
  unfold writeTyped at h
  simp only [Has.cons] at h
  unfold mapTyped
  rw [h.1.map _ rfl, h.2.1.map _ rfl, h.2.2.1.map _ rfl, h.2.2.2.1.map _ rfl]
  rfl

theorem mapBitIndex_ok {f : BitIndexFiles F} {b : BitIndexFiles Bytes}
    (h : Has a (writeBitIndex f b)) : mapBitIndex a f = .ok b := by
  unfold writeBitIndex at h
  simp only [Has.cons] at h
  unfold mapBitIndex
  rw [h.1.map _ rfl, h.2.1.map _ rfl, h.2.2.1.map _ rfl]
  rfl

/-- The bytes of an adjacency list. -/
def adjBytes (n : Nat) (x : AdjList) : AdjFiles Bytes :=
  { bitindex := c.bits x.bits, nums := c.log (calcWidth n) x.nums }

theorem mapAdj_ok {f : AdjFiles F} {n : Nat} {x : AdjList} (h : Has a (adjWrites c f n x)) :
    mapAdj a f = .ok (adjBytes c n x) := by
  unfold adjWrites at h
  rw [Has.append, Has.cons] at h
  unfold mapAdj
  rw [mapBitIndex_ok h.1]
  show (a.map f.nums).bind _ = _
  rw [h.2.1.map _ rfl]
  rfl

theorem parseAdj_ok {n : Nat} {x : AdjList} (h : ∀ y ∈ x.nums, y ≤ n) :
    parseAdj c (adjBytes c n x) = .ok (x, calcWidth n) := by
  unfold parseAdj adjBytes
  dsimp only
  rw [c.log_ok _ _ (fun y hy => lt_calcWidth (h y hy))]
  show (c.parseBits _ _ _).bind _ = _
  rw [c.bits_ok]
  rfl

theorem readIdMap_ok {f : BitIndexFiles F} {n : Nat} {m : IdMap} (h : Has a (writeIdMap c f n m))
    (hn : m = none → Holds a f.bits none) (hl : ∀ l, m = some l → ∀ y ∈ l, y ≤ n) :
    (mapBitIndexIfExists a f).bind (parseIdMap c (calcWidth n)) = .ok m := by
  unfold mapBitIndexIfExists
  cases m with
  | none =>
    rw [(hn rfl).ex]
    rfl
  | some l =>
    have h' : Has a (writeBitIndex f (c.wavelet (calcWidth n) l)) := h
    have h2 := h'
    unfold writeBitIndex at h2
    rw [Has.cons] at h2
    rw [h2.1.ex]
    show ((mapBitIndex a f).bind _).bind _ = _
    rw [mapBitIndex_ok h']
    show (c.parseWavelet _ _ _ _).bind _ = _
    rw [c.wavelet_ok _ _ (fun y hy => lt_calcWidth (hl l rfl y hy))]
    rfl

/-- The bytes of an id map. -/
def idMapBytes (n : Nat) : IdMap → Option (BitIndexFiles Bytes)
  | none => none
  | some l => some (c.wavelet (calcWidth n) l)

theorem mapIdMap_ok {f : BitIndexFiles F} {n : Nat} {m : IdMap} (h : Has a (writeIdMap c f n m))
    (hn : m = none → Holds a f.bits none) : mapBitIndexIfExists a f = .ok (idMapBytes c n m) := by
  unfold mapBitIndexIfExists
  cases m with
  | none =>
    rw [(hn rfl).ex]
    rfl
  | some l =>
    have h' : Has a (writeBitIndex f (c.wavelet (calcWidth n) l)) := h
    have h2 := h'
    unfold writeBitIndex at h2
    rw [Has.cons] at h2
    rw [h2.1.ex]
    show (mapBitIndex a f).bind _ = _
    rw [mapBitIndex_ok h']
    rfl

theorem parseIdMap_ok {n : Nat} {m : IdMap} (hl : ∀ l, m = some l → ∀ y ∈ l, y ≤ n) :
    parseIdMap c (calcWidth n) (idMapBytes c n m) = .ok m := by
  cases m with
  | none => rfl
  | some l =>
    show (c.parseWavelet _ _ _ _).bind _ = _
    rw [c.wavelet_ok _ _ (fun y hy => lt_calcWidth (hl l rfl y hy))]
    rfl

/-- The bytes of a list of subjects or objects. -/
def optBytes : Option (List Nat) → Option Bytes
  | none => none
  | some l => some (c.log (calcWidth (l.getLastD 0)) l)

theorem mapOpt_ok {f : F} {x : Option (List Nat)} (h : Has a (optWrites c f x))
    (hn : x = none → Holds a f none) : mapIfExists a f = .ok (optBytes c x) := by
  unfold mapIfExists
  cases x with
  | none => rw [(hn rfl).ex]; rfl
  | some l =>
    unfold optWrites at h
    rw [Has.cons] at h
    rw [h.1.ex]
    show (a.map f).bind _ = _
    rw [h.1.map _ rfl]
    rfl

theorem parseOpt_ok {x : Option (List Nat)} (h : ∀ l, x = some l → ∀ y ∈ l, y ≤ l.getLastD 0) :
    parseOpt c (optBytes c x) = .ok x := by
  cases x with
  | none => rfl
  | some l =>
    show (c.parseLog _).bind _ = _
    rw [c.log_ok _ _ (fun y hy => lt_calcWidth (h l rfl y hy))]
    rfl

theorem parseSide_ok {np no : Nat} {x : TripleIndex} (h : x.Fits np no) :
    parseSide c (optBytes c x.subjects) (optBytes c x.objects) (adjBytes c np x.sp)
      (adjBytes c no x.spo) (adjBytes c (greatestSp x.spo) x.ops)
      (c.wavelet (calcWidth np) x.sp.nums) = .ok x := by
  unfold parseSide
  rw [parseOpt_ok c h.subjects, parseOpt_ok c h.objects, parseAdj_ok c h.sp, parseAdj_ok c h.spo,
    parseAdj_ok c h.ops]
  show (c.parseWavelet _ _ _ _).bind _ = _
  rw [c.wavelet_ok _ _ (fun y hy => lt_calcWidth (h.sp y hy)), ← h.wavelet]
  rfl

/-- The files of a side as they are when they were written. -/
structure Side (a : Access F) (f : SideFiles F) (np no : Nat) (x : TripleIndex) : Prop where
  fits : x.Fits np no
  sp : mapAdj a f.sp = .ok (adjBytes c np x.sp)
  spo : mapAdj a f.spo = .ok (adjBytes c no x.spo)
  ops : mapAdj a f.ops = .ok (adjBytes c (greatestSp x.spo) x.ops)
  subjects : mapIfExists a f.subjects = .ok (optBytes c x.subjects)
  objects : mapIfExists a f.objects = .ok (optBytes c x.objects)
  wavelet : mapBitIndex a f.wavelet = .ok (c.wavelet (calcWidth np) x.sp.nums)
  spNums : a.map f.sp.nums = .ok (c.log (calcWidth np) x.sp.nums)
  spoBits : a.map f.spo.bitindex.bits = .ok (c.bits x.spo.bits).bits
  subj : ∀ l, x.subjects = some l → a.map f.subjects = .ok (c.log (calcWidth (l.getLastD 0)) l)
  obj : ∀ l, x.objects = some l → a.map f.objects = .ok (c.log (calcWidth (l.getLastD 0)) l)

theorem Side.of {f : SideFiles F} {np no : Nat} {x : TripleIndex} (hx : x.Fits np no)
    (h : Has a (sideWrites c f np no x)) (hs : x.subjects = none → Holds a f.subjects none)
    (ho : x.objects = none → Holds a f.objects none) : Side c a f np no x := by
  unfold sideWrites at h
  simp only [Has.append] at h
  obtain ⟨⟨⟨⟨⟨h1, h2⟩, h3⟩, h4⟩, h5⟩, h6⟩ := h
  refine ⟨hx, mapAdj_ok c h1, mapAdj_ok c h2, mapAdj_ok c h4, mapOpt_ok c h3 hs, mapOpt_ok c h5 ho,
    mapBitIndex_ok h6, ?_, ?_, ?_, ?_⟩
  · unfold adjWrites at h1
    rw [Has.append, Has.cons] at h1
    exact h1.2.1.map _ rfl
  · unfold adjWrites writeBitIndex at h2
    rw [Has.append, Has.cons] at h2
    exact h2.1.1.map _ rfl
  · intro l hl
    rw [hl] at h3
    unfold optWrites at h3
    rw [Has.cons] at h3
    exact h3.1.map _ rfl
  · intro l hl
    rw [hl] at h5
    unfold optWrites at h5
    rw [Has.cons] at h5
    exact h5.1.map _ rfl

/-- The dictionaries and id maps as they are when they were written. -/
structure Dicts (a : Access F) (fn fp : DictFiles F) (fv : TypedDictFiles F) (fm : IdMapFiles F)
    (d : LayerData K V) : Prop where
  fits : d.Fits
  node : mapDict a fn = .ok (c.dict d.nodes)
  predicate : mapDict a fp = .ok (c.dict d.preds)
  value : mapTyped a fv = .ok (c.typed d.values)
  nodeBlocks : a.map fn.blocks = .ok (c.dict d.nodes).blocks
  predicateBlocks : a.map fp.blocks = .ok (c.dict d.preds).blocks
  valueBlocks : a.map fv.blocks = .ok (c.typed d.values).blocks
  nodeValue : mapBitIndexIfExists a fm.nodeValue =
    .ok (idMapBytes c (d.nodes.length + d.values.length) d.nvMap)
  predicateMap : mapBitIndexIfExists a fm.predicate = .ok (idMapBytes c d.preds.length d.pMap)

theorem Dicts.of {node predicate : DictFiles F} {value : TypedDictFiles F} {idMap : IdMapFiles F}
    {d : LayerData K V} (hd : d.Fits) (h : Has a (writeDicts c node predicate value idMap d))
    (hn : d.nvMap = none → Holds a idMap.nodeValue.bits none)
    (hp : d.pMap = none → Holds a idMap.predicate.bits none) :
    Dicts c a node predicate value idMap d := by
  unfold writeDicts at h
  simp only [Has.append] at h
  obtain ⟨⟨⟨⟨h1, h2⟩, h3⟩, h4⟩, h5⟩ := h
  refine ⟨hd, mapDict_ok c h1, mapDict_ok c h2, mapTyped_ok c h3, ?_, ?_, ?_, mapIdMap_ok c h4 hn,
    mapIdMap_ok c h5 hp⟩
  · unfold writeDict at h1
    rw [Has.cons] at h1
    exact h1.1.map _ rfl
  · unfold writeDict at h2
    rw [Has.cons] at h2
    exact h2.1.map _ rfl
  · unfold writeTyped at h3
    simp only [Has.cons] at h3
    exact h3.2.2.2.1.map _ rfl

theorem parseDict_ok {l : List K} (h : SortedLt l) : parseDict c (c.dict l) = .ok l := c.dict_ok l h

theorem parseTyped_ok {l : List V} (h : SortedLt l) : parseTyped c (c.typed l) = .ok l :=
  c.typed_ok l h

/-- A base layer is read back. -/
theorem loadBase_ok {f : BaseLayerFiles F} {d : LayerData K V}
    (hd : Dicts c a f.node f.predicate f.value f.idMap d)
    (hs : Side c a f.side (totalP d) (totalNV d) d.pos) (hf : d.BaseForm) :
    loadBase c a f = .ok (d.onTop []) := by
  unfold loadBase mapBase
  have e1 : mapIfExists a f.subjects = _ := hs.subjects
  have e2 : mapIfExists a f.objects = _ := hs.objects
  have e3 : mapAdj a f.sp = _ := hs.sp
  have e4 : mapAdj a f.spo = _ := hs.spo
  have e5 : mapAdj a f.ops = _ := hs.ops
  have e6 : mapBitIndex a f.wavelet = _ := hs.wavelet
  rw [hd.node, hd.predicate, hd.value, hd.nodeValue, hd.predicateMap, e1, e2, e3, e4, e5, e6]
  show parseBase c _ = _
  unfold parseBase
  dsimp only
  rw [parseDict_ok c hd.fits.nodes, parseDict_ok c hd.fits.preds, parseTyped_ok c hd.fits.values]
  show (parseIdMap c _ _).bind _ = _
  rw [parseIdMap_ok c hd.fits.nv]
  show (parseIdMap c _ _).bind _ = _
  rw [parseIdMap_ok c hd.fits.pm]
  show (parseSide c _ _ _ _ _ _).bind _ = _
  rw [parseSide_ok c hs.fits]
  show Out.ok _ = Out.ok _
  congr 1
  have := hf.2
  cases d
  cases this
  rfl

/-- A child layer is read back. -/
theorem loadChild_ok {f : ChildLayerFiles F} {d : LayerData K V} {x : TripleIndex}
    (hd : Dicts c a f.node f.predicate f.value f.idMap d)
    (hs : Side c a f.pos (totalP d) (totalNV d) d.pos)
    (hn : Side c a f.neg (totalP d) (totalNV d) x) (hx : d.neg = some x) (hf : d.ChildForm)
    (S : List (LayerData K V)) :
    loadChild c a f S = .ok (d.onTop S) := by
  have hps : ∃ l, d.pos.subjects = some l := Option.isSome_iff_exists.1 hf.1
  have hpo : ∃ l, d.pos.objects = some l :=
    Option.isSome_iff_exists.1 (by rw [← hs.fits.both]; exact hf.1)
  obtain ⟨y, hy, hy'⟩ := hf.2
  rw [hx] at hy
  cases hy
  have hns : ∃ l, x.subjects = some l := Option.isSome_iff_exists.1 hy'
  have hno : ∃ l, x.objects = some l :=
    Option.isSome_iff_exists.1 (by rw [← hn.fits.both]; exact hy')
  obtain ⟨l1, hl1⟩ := hps
  obtain ⟨l2, hl2⟩ := hpo
  obtain ⟨l3, hl3⟩ := hns
  obtain ⟨l4, hl4⟩ := hno
  unfold loadChild mapChild
  have e1 : a.map f.posSubjects = _ := hs.subj _ hl1
  have e2 : a.map f.posObjects = _ := hs.obj _ hl2
  have e3 : mapAdj a f.posSp = _ := hs.sp
  have e4 : mapAdj a f.posSpo = _ := hs.spo
  have e5 : mapAdj a f.posOps = _ := hs.ops
  have e6 : mapBitIndex a f.posWavelet = _ := hs.wavelet
  have n1 : a.map f.negSubjects = _ := hn.subj _ hl3
  have n2 : a.map f.negObjects = _ := hn.obj _ hl4
  have n3 : mapAdj a f.negSp = _ := hn.sp
  have n4 : mapAdj a f.negSpo = _ := hn.spo
  have n5 : mapAdj a f.negOps = _ := hn.ops
  have n6 : mapBitIndex a f.negWavelet = _ := hn.wavelet
  rw [hd.node, hd.predicate, hd.value, hd.nodeValue, hd.predicateMap, e1, e2, e3, e4, e5, e6, n1, n2,
    n3, n4, n5, n6]
  show parseChild c S _ = _
  unfold parseChild
  dsimp only
  have p1 := parseSide_ok c hs.fits
  have p2 := parseSide_ok c hn.fits
  rw [hl1, hl2] at p1
  rw [hl3, hl4] at p2
  unfold optBytes at p1 p2
  rw [parseDict_ok c hd.fits.nodes, parseDict_ok c hd.fits.preds, parseTyped_ok c hd.fits.values]
  show (parseIdMap c _ _).bind _ = _
  rw [parseIdMap_ok c hd.fits.nv]
  show (parseIdMap c _ _).bind _ = _
  rw [parseIdMap_ok c hd.fits.pm]
  show (parseSide c _ _ _ _ _ _).bind _ = _
  rw [p1]
  show (parseSide c _ _ _ _ _ _).bind _ = _
  rw [p2]
  show Out.ok _ = Out.ok _
  congr 1
  cases d
  cases hx
  rfl

end

end LayerFiles

end Verif
