import Verif.Lemmas.LayerStore

/-!
Copies of layers.
-/

set_option linter.unusedSectionVars false

namespace Verif.LayerFiles

open LayerSpec Pack

variable {K V : Type} [LinearOrder K] [LinearOrder V]

/-- The copy of a list of files. -/
def copyAll (a : Access FileName) : List FileName → Out (Writes FileName)
  | [] => .ok []
  | f :: l => do
    let x ← copyFile a f f
    let y ← copyAll a l
    return x ++ y

/-- What is in some files. -/
def contents (v : FileName → Option Bytes) (l : List FileName) : Writes FileName :=
  l.filterMap (fun f => (v f).map (fun b => (f, b)))

theorem contents_append {v : FileName → Option Bytes} {l l' : List FileName} :
    contents v (l ++ l') = contents v l ++ contents v l' := List.filterMap_append

theorem copyFile_ok {a : Access FileName} {f : FileName} {x : Option Bytes} (h : Holds a f x) :
    copyFile a f f = .ok (x.map (fun b => (f, b))).toList := by
  unfold copyFile mapIfExists
  rw [h.ex]
  cases x with
  | none => rfl
  | some b =>
    show ((a.map f).bind _ : Out _).bind _ = _
    rw [h.map b rfl]
    rfl

def adjNames (f : AdjFiles FileName) : List FileName :=
  [f.bitindex.bits, f.bitindex.blocks, f.bitindex.sblocks, f.nums]

def bitNames (f : BitIndexFiles FileName) : List FileName := [f.bits, f.blocks, f.sblocks]

def dictNames (f : DictFiles FileName) : List FileName := [f.blocks, f.offsets]

def typedNames (f : TypedDictFiles FileName) : List FileName :=
  [f.typesPresent, f.typeOffsets, f.offsets, f.blocks]

section
variable {a : Access FileName} {v : FileName → Option Bytes}

theorem copyFile_v {f : FileName} (h : ∀ g ∈ [f], Holds a g (v g)) :
    copyFile a f f = .ok (contents v [f]) := by
  rw [copyFile_ok (h f (by simp))]
  unfold contents
  rw [List.filterMap_cons]
  cases v f <;> rfl

theorem copyBitIndex_v {f : BitIndexFiles FileName} (h : ∀ g ∈ bitNames f, Holds a g (v g)) :
    copyBitIndex a f f = .ok (contents v (bitNames f)) := by
  unfold copyBitIndex
  rw [copyFile_v (fun g hg => h g (by simp [bitNames] at hg ⊢; simp [hg])),
    copyFile_v (fun g hg => h g (by simp [bitNames] at hg ⊢; simp [hg])),
    copyFile_v (fun g hg => h g (by simp [bitNames] at hg ⊢; simp [hg]))]
  show Out.ok _ = Out.ok _
  rw [← contents_append, ← contents_append]
  rfl

theorem copyAdj_v {f : AdjFiles FileName} (h : ∀ g ∈ adjNames f, Holds a g (v g)) :
    copyAdj a f f = .ok (contents v (adjNames f)) := by
  unfold copyAdj
  rw [copyBitIndex_v (fun g hg => h g (by
      simp only [bitNames, adjNames, List.mem_cons, List.not_mem_nil, or_false] at hg ⊢
      rcases hg with e | e | e <;> simp [e])),
    copyFile_v (fun g hg => h g (by simp [adjNames] at hg ⊢; simp [hg]))]
  show Out.ok _ = Out.ok _
  rw [← contents_append]
  rfl

theorem copyDict_v {f : DictFiles FileName} (h : ∀ g ∈ dictNames f, Holds a g (v g)) :
    copyDict a f f = .ok (contents v (dictNames f)) := by
  unfold copyDict
  rw [copyFile_v (fun g hg => h g (by simp [dictNames] at hg ⊢; simp [hg])),
    copyFile_v (fun g hg => h g (by simp [dictNames] at hg ⊢; simp [hg]))]
  show Out.ok _ = Out.ok _
  rw [← contents_append]
  rfl

theorem copyTyped_v {f : TypedDictFiles FileName} (h : ∀ g ∈ typedNames f, Holds a g (v g)) :
    copyTyped a f f = .ok (contents v (typedNames f)) := by
  unfold copyTyped
  rw [copyFile_v (fun g hg => h g (by simp [typedNames] at hg ⊢; simp [hg])),
    copyFile_v (fun g hg => h g (by simp [typedNames] at hg ⊢; simp [hg])),
    copyFile_v (fun g hg => h g (by simp [typedNames] at hg ⊢; simp [hg])),
    copyFile_v (fun g hg => h g (by simp [typedNames] at hg ⊢; simp [hg]))]
  show Out.ok _ = Out.ok _
  rw [← contents_append, ← contents_append, ← contents_append]
  rfl

/-- The files that a base layer may have, in the order in which they are copied. -/
def baseAll (f : BaseLayerFiles FileName) : List FileName :=
  dictNames f.node ++ dictNames f.predicate ++ typedNames f.value ++
    (bitNames f.idMap.nodeValue ++ bitNames f.idMap.predicate) ++ [f.subjects] ++ [f.objects] ++
    adjNames f.sp ++ adjNames f.spo ++ adjNames f.ops ++ bitNames f.wavelet

/-- The files that a child layer may have, in the order in which they are copied. -/
def childAll (f : ChildLayerFiles FileName) : List FileName :=
  dictNames f.node ++ dictNames f.predicate ++ typedNames f.value ++
    (bitNames f.idMap.nodeValue ++ bitNames f.idMap.predicate) ++ [f.posSubjects] ++
    [f.posObjects] ++ adjNames f.posSp ++ adjNames f.posSpo ++ adjNames f.posOps ++
    bitNames f.posWavelet ++ [f.negSubjects] ++ [f.negObjects] ++ adjNames f.negSp ++
    adjNames f.negSpo ++ adjNames f.negOps ++ bitNames f.negWavelet

theorem copyIdMap_v {f : IdMapFiles FileName}
    (h : ∀ g ∈ bitNames f.nodeValue ++ bitNames f.predicate, Holds a g (v g)) :
    copyIdMap a f f = .ok (contents v (bitNames f.nodeValue ++ bitNames f.predicate)) := by
  unfold copyIdMap
  rw [copyBitIndex_v (fun g hg => h g (List.mem_append_left _ hg)),
    copyBitIndex_v (fun g hg => h g (List.mem_append_right _ hg))]
  show Out.ok _ = Out.ok _
  rw [contents_append]

theorem copyBase_v {f : BaseLayerFiles FileName} (h : ∀ g ∈ baseAll f, Holds a g (v g)) :
    copyBase a f f = .ok (contents v (baseAll f)) := by
  unfold copyBase
  rw [copyDict_v (f := f.node) (fun g hg => h g (by simp [baseAll, hg])),
    copyDict_v (f := f.predicate) (fun g hg => h g (by simp [baseAll, hg])),
    copyTyped_v (fun g hg => h g (by simp [baseAll, hg])),
    copyIdMap_v (fun g hg => h g (by
      rcases List.mem_append.1 hg with e | e <;> simp [baseAll, e])),
    copyFile_v (f := f.subjects) (fun g hg => h g (by
      simp only [List.mem_singleton] at hg; simp [baseAll, hg])),
    copyFile_v (f := f.objects) (fun g hg => h g (by
      simp only [List.mem_singleton] at hg; simp [baseAll, hg])),
    copyAdj_v (f := f.sp) (fun g hg => h g (by simp [baseAll, hg])),
    copyAdj_v (f := f.spo) (fun g hg => h g (by simp [baseAll, hg])),
    copyAdj_v (f := f.ops) (fun g hg => h g (by simp [baseAll, hg])),
    copyBitIndex_v (fun g hg => h g (by simp [baseAll, hg]))]
  show Out.ok _ = Out.ok _
  unfold baseAll
  simp only [contents_append]

theorem copyChild_v {f : ChildLayerFiles FileName} (h : ∀ g ∈ childAll f, Holds a g (v g)) :
    copyChild a f f = .ok (contents v (childAll f)) := by
  unfold copyChild
  rw [copyDict_v (f := f.node) (fun g hg => h g (by simp [childAll, hg])),
    copyDict_v (f := f.predicate) (fun g hg => h g (by simp [childAll, hg])),
    copyTyped_v (fun g hg => h g (by simp [childAll, hg])),
    copyIdMap_v (fun g hg => h g (by
      rcases List.mem_append.1 hg with e | e <;> simp [childAll, e])),
    copyFile_v (f := f.posSubjects) (fun g hg => h g (by
      simp only [List.mem_singleton] at hg; simp [childAll, hg])),
    copyFile_v (f := f.posObjects) (fun g hg => h g (by
      simp only [List.mem_singleton] at hg; simp [childAll, hg])),
    copyAdj_v (f := f.posSp) (fun g hg => h g (by simp [childAll, hg])),
    copyAdj_v (f := f.posSpo) (fun g hg => h g (by simp [childAll, hg])),
    copyAdj_v (f := f.posOps) (fun g hg => h g (by simp [childAll, hg])),
    copyBitIndex_v (f := f.posWavelet) (fun g hg => h g (by simp [childAll, hg])),
    copyFile_v (f := f.negSubjects) (fun g hg => h g (by
      simp only [List.mem_singleton] at hg; simp [childAll, hg])),
    copyFile_v (f := f.negObjects) (fun g hg => h g (by
      simp only [List.mem_singleton] at hg; simp [childAll, hg])),
    copyAdj_v (f := f.negSp) (fun g hg => h g (by simp [childAll, hg])),
    copyAdj_v (f := f.negSpo) (fun g hg => h g (by simp [childAll, hg])),
    copyAdj_v (f := f.negOps) (fun g hg => h g (by simp [childAll, hg])),
    copyBitIndex_v (f := f.negWavelet) (fun g hg => h g (by simp [childAll, hg]))]
  show Out.ok _ = Out.ok _
  unfold childAll
  simp only [contents_append]

end

/-- The files that a layer may have. -/
def allNames : Bool → List FileName
  | false => baseAll baseFiles
  | true => childAll childFiles

theorem side_perm {A B C D : List FileName} {s o : FileName} :
    ([s] ++ [o] ++ A ++ B ++ C ++ D).Perm (A ++ B ++ [s] ++ C ++ [o] ++ D) := by
  refine List.perm_iff_count.2 (fun x => ?_)
  simp only [List.count_append]
  omega

theorem allNames_base :
    (allNames false).Perm ([FileName.baseSubjects, FileName.baseObjects] ++ keys false true true) := by
  have e : allNames false = headKeys ++ nvKeys ++ pmKeys ++
      [FileName.baseSubjects, FileName.baseObjects] ++ baseKeys := rfl
  rw [e]
  have k : keys false true true = (headKeys ++ nvKeys ++ pmKeys) ++ baseKeys := rfl
  rw [k, ← List.append_assoc]
  exact List.Perm.append_right _ List.perm_append_comm

theorem allNames_child : (allNames true).Perm (keys true true true) := by
  have k : keys true true true = (headKeys ++ nvKeys ++ pmKeys) ++
      ((adjNames childFiles.posSp ++ adjNames childFiles.posSpo ++ [childFiles.posSubjects] ++
        adjNames childFiles.posOps ++ [childFiles.posObjects] ++ bitNames childFiles.posWavelet) ++
      (adjNames childFiles.negSp ++ adjNames childFiles.negSpo ++ [childFiles.negSubjects] ++
        adjNames childFiles.negOps ++ [childFiles.negObjects] ++ bitNames childFiles.negWavelet)) := rfl
  have e : allNames true = (headKeys ++ nvKeys ++ pmKeys) ++
      (([childFiles.posSubjects] ++ [childFiles.posObjects] ++ adjNames childFiles.posSp ++
        adjNames childFiles.posSpo ++ adjNames childFiles.posOps ++ bitNames childFiles.posWavelet) ++
      ([childFiles.negSubjects] ++ [childFiles.negObjects] ++ adjNames childFiles.negSp ++
        adjNames childFiles.negSpo ++ adjNames childFiles.negOps ++
        bitNames childFiles.negWavelet)) := rfl
  rw [e, k]
  exact List.Perm.append_left _ (side_perm.append side_perm)

theorem allNames_mem (child nv pm : Bool) : ∀ f ∈ keys child nv pm, f ∈ allNames child := by
  have key : ∀ f ∈ keys child nv pm, f ∈ keys child true true := by
    intro f hf
    unfold keys at hf ⊢
    cases nv <;> cases pm <;> simp only [List.mem_append] at hf ⊢ <;> simp at hf ⊢ <;> tauto
  intro f hf
  have h := key f hf
  cases child with
  | false => exact allNames_base.mem_iff.2 (List.mem_append_right _ h)
  | true => exact allNames_child.mem_iff.2 h

theorem allNames_pack {child : Bool} {f : FileName} (hf : f ∈ allNames child) :
    f ∈ packNames child ∧ f ≠ FileName.parent := by
  have par : ∀ {f : FileName}, f ∈ keys child true true → f ∈ packNames child ∧ f ≠ FileName.parent :=
    fun h => ⟨keys_sub _ _ _ _ h, fun e => keys_parent _ _ _ (e ▸ h)⟩
  cases child with
  | true => exact par (allNames_child.mem_iff.1 hf)
  | false =>
    rcases List.mem_append.1 (allNames_base.mem_iff.1 hf) with h | h
    · simp only [List.mem_cons, List.not_mem_nil, or_false] at h
      rcases h with rfl | rfl
      · exact ⟨(bs_mem true true).1, (bs_mem true true).2.2⟩
      · exact ⟨(bo_mem true true).1, (bo_mem true true).2.2⟩
    · exact par h

theorem allNames_nodup (child : Bool) : (allNames child).Nodup := by
  cases child with
  | true => exact allNames_child.nodup_iff.2 (keys_nodup _ _ _)
  | false =>
    refine allNames_base.nodup_iff.2 (List.nodup_append.2 ⟨?_, keys_nodup _ _ _, ?_⟩)
    · refine List.nodup_cons.2 ⟨?_, List.nodup_cons.2 ⟨by simp, List.nodup_nil⟩⟩
      decide +kernel
    · intro f hf g hg e
      subst e
      simp only [List.mem_cons, List.not_mem_nil, or_false] at hf
      rcases hf with rfl | rfl
      · exact (bs_mem true true).2.1 hg
      · exact (bo_mem true true).2.1 hg

theorem copyLayer_ok {a : Access FileName} {child nv pm : Bool} {ws : Writes FileName}
    (hk : ws.map (·.1) = keys child nv pm) (h : There a child ws) :
    ∃ ws', copyLayer a child = .ok ws' ∧ ws'.Perm ws := by
  have hnd : (ws.map (·.1)).Nodup := hk ▸ keys_nodup _ _ _
  have hv : ∀ f ∈ allNames child, Holds a f (ws.lookup f) := by
    intro f hf
    obtain ⟨h1, h2⟩ := allNames_pack hf
    cases hl : ws.lookup f with
    | some b => exact h.has (f, b) (List.lookup_eq_some_iff.1 hl |> fun ⟨l, r, e, _⟩ => by rw [e]; simp)
    | none =>
      refine h.absent f h1 ?_ h2
      intro hm
      obtain ⟨⟨g, b⟩, g1, g2⟩ := List.mem_map.1 hm
      have := List.lookup_eq_none_iff.1 hl _ g1
      dsimp only at g2
      simp [g2] at this
  refine ⟨contents (fun f => ws.lookup f) (allNames child), ?_, ?_⟩
  · cases child with
    | false =>
      show (baseLayerFiles .ok).bind (fun f => copyBase a f f) = _
      rw [baseLayerFiles_eq]
      exact copyBase_v hv
    | true =>
      show (childLayerFiles .ok).bind (fun f => copyChild a f f) = _
      rw [childLayerFiles_eq]
      exact copyChild_v hv
  · refine (List.perm_ext_iff_of_nodup ?_ (List.Nodup.of_map _ hnd)).2 ?_
    · unfold contents
      refine List.Nodup.filterMap ?_ (allNames_nodup child)
      intro f g q hf hg
      simp only [Option.mem_def, Option.map_eq_some_iff] at hf hg
      obtain ⟨b, _, rfl⟩ := hf
      obtain ⟨b', _, e⟩ := hg
      exact (congrArg Prod.fst e).symm
    · rintro ⟨f, b⟩
      unfold contents
      rw [List.mem_filterMap]
      constructor
      · rintro ⟨g, g1, g2⟩
        simp only [Option.map_eq_some_iff] at g2
        obtain ⟨b', h1, h2⟩ := g2
        cases h2
        obtain ⟨l, r, e, _⟩ := List.lookup_eq_some_iff.1 h1
        rw [e]
        simp
      · intro hm
        have hfk : f ∈ keys child nv pm := hk ▸ List.mem_map.2 ⟨_, hm, rfl⟩
        refine ⟨f, allNames_mem _ _ _ f hfk, ?_⟩
        cases hl : ws.lookup f with
        | none =>
          have := List.lookup_eq_none_iff.1 hl _ hm
          simp at this
        | some b' =>
          obtain ⟨l, r, e, _⟩ := List.lookup_eq_some_iff.1 hl
          have hm' : (f, b') ∈ ws := by rw [e]; simp
          have := List.inj_on_of_nodup_map hnd hm hm' rfl
          cases this
          dsimp only
          rw [hl]
          rfl

end Verif.LayerFiles
