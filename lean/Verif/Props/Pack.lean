import Verif.Lemmas.PackParents

/-!
Packs: C45, C46.
-/

namespace Verif

open PackSpec

/-- C45: layers of a store of any kind that are complete can be exported, and any of them can be
imported into a store of any kind that does not have them. Then all their files there are as in
the first store, apart from the reference to a rollup, which is not taken along; they have the
same parents; and all other layers of the second store answer as before. -/
theorem C45_pack_round_trip {K₁ K₂ : StoreKind} {s₁ : K₁.backend.State} {s₂ : K₂.backend.State}
    (h₁ : K₁.Reached s₁) (h₂ : K₂.Reached s₂) {ids sel order : List LayerName}
    (hids : ids.Nodup) (hsel : sel.Nodup) (hsub : ∀ n ∈ sel, n ∈ ids) (hord : order.Perm sel)
    (hpres : ∀ n ∈ ids, K₁.Present s₁ n)
    (hreq : ∀ n ∈ ids, ∀ f ∈ required (IsChild K₁.backend s₁ n),
      K₁.backend.fileExists s₁ n f = .ok true)
    (hnew : ∀ n ∈ sel, K₂.backend.directoryExists s₂ n = false)
    (hsmall : ∀ n ∈ sel, bytes K₁.backend s₁ n < 2 ^ 64) :
    ∃ pack s₃, Pack.exportLayers K₁.backend s₁ ids = .ok pack ∧
      Pack.importLayers K₂.backend s₂ pack sel order = .ok s₃ ∧
      (∀ n ∈ sel, K₂.backend.directoryExists s₃ n = true ∧
        (∀ f ∈ names (IsChild K₁.backend s₁ n), SameFile K₁.backend s₁ K₂.backend s₃ n f) ∧
        SameFile K₁.backend s₁ K₂.backend s₃ n FileName.parent ∧
        K₂.backend.fileExists s₃ n FileName.rollup = .ok false ∧
        ∀ q, K₁.backend.layerParent s₁ n = .ok q → K₂.backend.layerParent s₃ n = .ok q) ∧
      ∀ n, n ∉ sel → Unchanged K₂.backend s₂ s₃ n := by
  have hv : ∀ n, ∃ v, n ∈ ids → Pack.Shows K₁.backend s₁ n v := fun n => by
    by_cases hn : n ∈ ids
    · obtain ⟨v, hv⟩ := Pack.present_shows h₁ (hpres n hn)
      exact ⟨v, fun _ => hv⟩
    · exact ⟨fun _ => none, fun h => absurd h hn⟩
  have ⟨v, hv⟩ := Classical.axiomOfChoice hv
  replace hv : ∀ n ∈ ids, Pack.Shows K₁.backend s₁ n (v n) := hv
  obtain ⟨t1, t2, t3, e1, e2, e3, fill, rest⟩ := h₂.takes sel order (Pack.putsOf sel ids v) hsel
    hord hnew (Pack.putsOf_allowed hids hv hsub hsmall)
  refine ⟨_, t3, Pack.exportLayers_eq ids hv hreq, ?_, fun n hn => ?_, rest⟩
  · unfold Pack.importLayers
    rw [e1]
    show (Out.forEach (Pack.importEntry K₂.backend (sel.map nameString)) t1 _).bind _ = _
    rw [Pack.import_layers_eq]
    unfold Pack.writeAll
    rw [e2]
    exact e3
  · have hsh := hv n (hsub n hn)
    obtain ⟨f1, f2, f3, f4, f5, f6⟩ := fill n hn
    have hc := hsh.isChild
    have put : ∀ f b, f ∈ Pack.packNames (v n FileName.parent).isSome → v n f = some b →
        (n, f, b) ∈ Pack.putsOf sel ids v := fun f b hf hb =>
      Pack.putsOf_mem.mpr ⟨hsub n hn, hn, hf, hb⟩
    have same : ∀ f x, K₁.backend.Answers s₁ n f x → K₂.backend.Answers t3 n f x →
        SameFile K₁.backend s₁ K₂.backend t3 n f := fun f x a b =>
      ⟨a.ex.trans b.ex.symm, a.map_eq.trans b.map_eq.symm, a.size_eq.trans b.size_eq.symm⟩
    have hpar : v n FileName.parent = none → ∀ b, (n, FileName.parent, b) ∉ Pack.putsOf sel ids v :=
      fun hnone b hb => by
        have := (Pack.putsOf_mem.mp hb).2.2.2
        rw [hnone] at this
        cases this
    refine ⟨f1, fun f hf => ?_, ?_, f4, fun q hq => ?_⟩
    · rw [hc] at hf
      have hf' := (Pack.packNames_perm _).mem_iff.mpr hf
      have ha := hsh.pack hf'
      cases hb : v n f with
      | some b =>
        rw [hb] at ha
        exact same f _ ha (f2 f b (put f b hf' hb))
      | none =>
        rw [hb] at ha
        obtain ⟨k, hk, hk'⟩ := Pack.packNames_kinds _ f hf'
        refine same f _ ha (f3 f k hk hk' (fun f' b hf'' he => ?_))
        obtain ⟨-, -, g1, g2⟩ := Pack.putsOf_mem.mp hf''
        have : f' = f := List.inj_on_of_nodup_map (Pack.packNames_nodup _) g1 hf' (by rw [he, hk])
        rw [this, hb] at g2
        cases g2
    · have ha := hsh.ans _ _ Pack.kind_parent (by decide)
      cases hb : v n FileName.parent with
      | some b =>
        rw [hb] at ha
        exact same _ _ ha (f2 _ b (put _ b ((Pack.parent_packNames _).mpr (by rw [hb]; rfl)) hb))
      | none =>
        rw [hb] at ha
        refine same _ _ ha (f3 _ _ Pack.kind_parent (by decide) (fun f' b hf'' he => ?_))
        have g := (Pack.putsOf_mem.mp hf'').2.2
        have : f' = FileName.parent := Pack.packNames_parent _ f' g.1 he
        subst this
        exact hpar hb b hf''
    · cases hb : v n FileName.parent with
      | some b =>
        obtain ⟨p, rfl, hp⟩ := hsh.parent b q hb hq
        exact f6 b p (put _ b ((Pack.parent_packNames _).mpr (by rw [hb]; rfl)) hb) hp
      | none =>
        rw [hsh.noParent hb] at hq
        cases hq
        exact f5 (hpar hb)

/-- C46: if the parents in a pack can be told, then each layer with an entry in the pack is
there once, and no other; with a parent that the pack records for it, or without one if there is
no parent file for it. They can be told if and only if all entries can be understood. -/
theorem C46_pack_parents {pack : List PackEntry} :
    ((∃ m, Pack.packLayerParents pack = .ok m) ↔ ∀ e ∈ pack, Readable e) ∧
    ∀ m, Pack.packLayerParents pack = .ok m →
      (m.map (·.1)).Nodup ∧
      (∀ n, (∃ q, (n, q) ∈ m) ↔ ∃ e ∈ pack, Belongs e n) ∧
      (∀ n p, (n, some p) ∈ m → ∃ e ∈ pack, Records e n p) ∧
      (∀ n, (n, none) ∈ m ↔ (∃ e ∈ pack, Belongs e n) ∧ ∀ e ∈ pack, Belongs e n → ¬ IsParent e) := by
  refine ⟨Pack.packLayerParents_some, fun m hm => ?_⟩
  have h := Pack.packLayerParents_good hm
  refine ⟨h.nodup, fun n => ⟨fun ⟨q, hq⟩ => h.key n q hq, h.all n⟩, h.parent, fun n =>
    ⟨fun hn => ⟨h.key n none hn, h.none_of n hn⟩, fun ⟨h1, h2⟩ => ?_⟩⟩
  obtain ⟨q, hq⟩ := h.all n h1
  cases q with
  | none => exact hq
  | some p =>
    obtain ⟨e, he, hr⟩ := h.parent n p hq
    exact absurd hr.2.1 (h2 e he hr.1)

/-- C46: the order of the entries does not matter, if the pack does not contradict itself about
a parent. -/
theorem C46_entry_order {pack pack' : List PackEntry} (hp : pack'.Perm pack)
    (hs : ∀ e ∈ pack, ∀ e' ∈ pack, ∀ n p p', Records e n p → Records e' n p' → p = p')
    {m : Pack.Parents} (h : Pack.packLayerParents pack = .ok m) :
    ∃ m', Pack.packLayerParents pack' = .ok m' ∧ m'.Perm m := by
  have hread : ∀ e ∈ pack', Readable e := fun e he =>
    Pack.packLayerParents_some.mp ⟨m, h⟩ e (hp.mem_iff.mp he)
  obtain ⟨m', h'⟩ := Pack.packLayerParents_some.mpr hread
  obtain ⟨n1, k1, p1, z1⟩ := C46_pack_parents.2 m h
  obtain ⟨n2, k2, p2, z2⟩ := C46_pack_parents.2 m' h'
  have nd : ∀ {l : Pack.Parents}, (l.map (·.1)).Nodup → l.Nodup := fun hl =>
    List.Pairwise.of_map _ (fun _ _ hne e => hne (by rw [e])) hl
  refine ⟨m', h', (List.perm_ext_iff_of_nodup (nd n2) (nd n1)).mpr ?_⟩
  rintro ⟨n, q⟩
  have key : (∃ q, (n, q) ∈ m) ↔ ∃ q, (n, q) ∈ m' := by
    rw [k1, k2]
    constructor
    · rintro ⟨e, he, hb⟩; exact ⟨e, hp.mem_iff.mpr he, hb⟩
    · rintro ⟨e, he, hb⟩; exact ⟨e, hp.mem_iff.mp he, hb⟩
  have zero : (n, none) ∈ m' ↔ (n, none) ∈ m := by
    rw [z1, z2]
    simp only [hp.mem_iff]
  have uniq : ∀ {l : Pack.Parents} {a b}, (l.map (·.1)).Nodup → (n, a) ∈ l → (n, b) ∈ l → a = b :=
    fun hl ha hb => congrArg Prod.snd (List.inj_on_of_nodup_map hl ha hb rfl)
  cases q with
  | none => exact zero
  | some p =>
    constructor
    · intro hm
      obtain ⟨q, hq⟩ := key.mpr ⟨_, hm⟩
      cases q with
      | none => exact absurd (uniq n2 hm (zero.mpr hq)) (by simp)
      | some p' =>
        obtain ⟨e, he, hr⟩ := p2 n p hm
        obtain ⟨e', he', hr'⟩ := p1 n p' hq
        rw [hs e (hp.mem_iff.mp he) e' he' n p p' hr hr']
        exact hq
    · intro hm
      obtain ⟨q, hq⟩ := key.mp ⟨_, hm⟩
      cases q with
      | none => exact absurd (uniq n1 hm (zero.mp hq)) (by simp)
      | some p' =>
        obtain ⟨e, he, hr⟩ := p1 n p hm
        obtain ⟨e', he', hr'⟩ := p2 n p' hq
        rw [hs e he e' (hp.mem_iff.mp he') n p p' hr hr']
        exact hq

/-- C46: a pack that a store exports has exactly the exported layers, with their parents in the
store. -/
theorem C46_exported_parents {K : StoreKind} {s : K.backend.State} (h : K.Reached s)
    {ids : List LayerName} (hpres : ∀ n ∈ ids, K.Present s n)
    (hreq : ∀ n ∈ ids, ∀ f ∈ required (IsChild K.backend s n), K.backend.fileExists s n f = .ok true)
    (hpar : ∀ n ∈ ids, ∃ q, K.backend.layerParent s n = .ok q) :
    ∃ pack m, Pack.exportLayers K.backend s ids = .ok pack ∧ Pack.packLayerParents pack = .ok m ∧
      (m.map (·.1)).Nodup ∧
      ∀ n q, (n, q) ∈ m ↔ n ∈ ids ∧ K.backend.layerParent s n = .ok q := by
  have hv : ∀ n, ∃ v, n ∈ ids → Pack.Shows K.backend s n v := fun n => by
    by_cases hn : n ∈ ids
    · obtain ⟨v, hv⟩ := Pack.present_shows h (hpres n hn)
      exact ⟨v, fun _ => hv⟩
    · exact ⟨fun _ => none, fun h => absurd h hn⟩
  have ⟨v, hv⟩ := Classical.axiomOfChoice hv
  replace hv : ∀ n ∈ ids, Pack.Shows K.backend s n (v n) := hv
  have hex := Pack.exportLayers_eq ids hv hreq
  have hmem : ∀ e, e ∈ ids.flatMap (fun n => Pack.layerEntries n (v n)) ↔ ∃ n ∈ ids,
      e = ⟨[nameString n], false, []⟩ ∨ ∃ f b, f ∈ Pack.packNames (v n FileName.parent).isSome ∧
        v n f = some b ∧ e = Pack.entryOf n f b := fun e => by
    rw [List.mem_flatMap]
    refine exists_congr (fun n => and_congr_right (fun _ => ?_))
    unfold Pack.layerEntries Pack.entriesOf
    rw [List.mem_cons, List.mem_filterMap]
    refine or_congr Iff.rfl ⟨fun ⟨f, h1, h2⟩ => ?_, fun ⟨f, b, h1, h2, h3⟩ => ⟨f, h1, ?_⟩⟩
    · cases hb : v n f with
      | none => rw [hb] at h2; cases h2
      | some b => rw [hb] at h2; cases h2; exact ⟨f, b, h1, hb, rfl⟩
    · rw [h2, h3]; rfl
  have dirB : ∀ n, Belongs ⟨[nameString n], false, []⟩ n := fun n =>
    ⟨_, rfl, stringToName_nameString n⟩
  have fileB : ∀ n f b, Belongs (Pack.entryOf n f b) n := fun n f b =>
    ⟨_, rfl, stringToName_nameString n⟩
  have dirP : ∀ n, ¬ IsParent ⟨[nameString n], false, []⟩ := fun n hp => by
    replace hp : some (nameString n) = some "parent.hex" := hp
    have hl := nameToString_length n
    rw [← textOf_nameString, Option.some.inj hp] at hl
    exact absurd hl (by decide)
  have fileP : ∀ n f b, IsParent (Pack.entryOf n f b) ↔ f = FileName.parent := fun n f b =>
    ⟨fun hp => Option.some.inj hp, fun hf => by rw [hf]; rfl⟩
  have read : ∀ n ∈ ids, ∀ b, v n FileName.parent = some b →
      ∃ p, readParentFile b = .ok p ∧ K.backend.layerParent s n = .ok (some p) :=
    fun n hn b hb => by
      obtain ⟨q, hq⟩ := hpar n hn
      obtain ⟨p, rfl, hp⟩ := (hv n hn).parent b q hb hq
      exact ⟨p, hp, hq⟩
  obtain ⟨m, hm⟩ := Pack.packLayerParents_some.mpr (fun e he => by
    obtain ⟨n, hn, rfl | ⟨f, b, h1, h2, rfl⟩⟩ := (hmem e).mp he
    · exact ⟨n, dirB n, ⟨_, rfl, nameString_normal n⟩, fun hp => absurd hp (dirP n)⟩
    · refine ⟨n, fileB n f b, ⟨f, rfl, Pack.packNames_normal _ f h1⟩, fun hp => ?_⟩
      have hf := (fileP n f b).mp hp
      obtain ⟨p, h3, -⟩ := read n hn b (by rw [← hf]; exact h2)
      exact ⟨p, fileB n f b, hp, h3⟩)
  have hg := Pack.packLayerParents_good hm
  refine ⟨_, m, hex, hm, hg.nodup, ?_⟩
  have one : ∀ n q, (n, q) ∈ m → n ∈ ids ∧ K.backend.layerParent s n = .ok q := fun n q hq => by
    obtain ⟨e, he, hb⟩ := hg.key n q hq
    have hn : n ∈ ids := by
      obtain ⟨n', hn', rfl | ⟨f, b, h1, h2, rfl⟩⟩ := (hmem e).mp he
      · rw [Pack.belongs_inj hb (dirB n')]; exact hn'
      · rw [Pack.belongs_inj hb (fileB n' f b)]; exact hn'
    refine ⟨hn, ?_⟩
    cases q with
    | none =>
      refine (hv n hn).noParent ?_
      cases hb : v n FileName.parent with
      | none => rfl
      | some b =>
        refine absurd ((fileP n FileName.parent b).mpr rfl) (hg.none_of n hq _ ((hmem _).mpr ⟨n, hn,
          Or.inr ⟨_, b, (Pack.parent_packNames _).mpr (by rw [hb]; rfl), hb, rfl⟩⟩) (fileB _ _ _))
    | some p =>
      obtain ⟨e, he, hr⟩ := hg.parent n p hq
      obtain ⟨n', hn', rfl | ⟨f, b, h1, h2, rfl⟩⟩ := (hmem e).mp he
      · exact absurd hr.2.1 (dirP n')
      · have := Pack.belongs_inj hr.1 (fileB n' f b)
        subst this
        have hf := (fileP n f b).mp hr.2.1
        obtain ⟨p', h3, h4⟩ := read n hn b (by rw [← hf]; exact h2)
        have := hr.2.2
        replace this : readParentFile b = .ok p := this
        rw [h3] at this
        cases this
        exact h4
  refine fun n q => ⟨one n q, fun ⟨hn, hq⟩ => ?_⟩
  obtain ⟨q', hq'⟩ := hg.all n ⟨_, (hmem _).mpr ⟨n, hn, Or.inl rfl⟩, dirB n⟩
  have := (one n q' hq').2
  rw [hq] at this
  cases this
  exact hq'

/-! ### A case -/

namespace PackExample

/-- The name of a base layer. -/
def n1 : LayerName := ⟨1, 2, 3, 4, 5⟩
/-- The name of its child. -/
def n2 : LayerName := ⟨6, 7, 8, 9, 10⟩

/-- The contents of a file. -/
def file (f : FileName) : Bytes := if f = FileName.parent then parentFile n1 else textOf f

/-- A store in memory with two layers. -/
def source : MemLayers :=
  ⟨[(n2, (required true).map (fun f => (f, some (file f)))),
    (n1, (required false).map (fun f => (f, some (file f))))]⟩

theorem lookup_map {g : FileName → Option Bytes} (l : List FileName) (f : FileName) :
    (l.map (fun f => (f, g f))).lookup f = if f ∈ l then some (g f) else none := by
  induction l with
  | nil => rfl
  | cons a l ih =>
    rw [List.map_cons, List.lookup_cons, ih]
    by_cases h : f = a
    · simp [h]
    · rw [beq_eq_false_iff_ne.mpr h]
      simp [h]

theorem content_eq (child : Bool) (f : FileName) :
    source.content (if child then n2 else n1) f =
      if f ∈ required child then some (file f) else none := by
  have h : source.files (if child then n2 else n1) =
      some ((required child).map (fun f => (f, some (file f)))) := by
    cases child
    · show List.lookup n1 (_ :: _) = _
      rw [List.lookup_cons, show (n1 == n2) = false by decide, List.lookup_cons,
        show (n1 == n1) = true by decide]
    · show List.lookup n2 (_ :: _) = _
      rw [List.lookup_cons, show (n2 == n2) = true by decide]
  unfold MemLayers.content
  rw [h]
  show ((List.map _ _).lookup f).bind _ = _
  rw [lookup_map]
  split <;> rfl

theorem parent_required (child : Bool) : FileName.parent ∈ required child ↔ child = true := by
  cases child with
  | true =>
    simp only [iff_true]
    rw [Pack.parent_eq]
    exact Pack.required_mem true (by decide +kernel)
  | false =>
    simp only [Bool.false_eq_true, iff_false]
    intro h
    have := (List.mem_filter.mp h).1
    rw [← (Pack.packNames_perm false).mem_iff, Pack.parent_packNames] at this
    cases this

theorem fileExists_eq (child : Bool) (f : FileName) :
    Backend.memory.fileExists source (if child then n2 else n1) f =
      .ok (decide (f ∈ required child)) := by
  have := (Backend.plainMemory.ans source (if child then n2 else n1) f).ex
  rw [this]
  show Out.ok (source.content (if child then n2 else n1) f).isSome = _
  rw [content_eq]
  by_cases h : f ∈ required child <;> simp [h]

theorem isChild_eq (child : Bool) :
    IsChild Backend.memory source (if child then n2 else n1) = child := by
  unfold IsChild
  rw [fileExists_eq]
  have := parent_required child
  cases child <;> simpa using this

theorem present (child : Bool) :
    StoreKind.memory.Present source (if child then n2 else n1) := by
  cases child
  · show (List.lookup n1 (_ :: _)).isSome = true
    rw [List.lookup_cons, show (n1 == n2) = false by decide, List.lookup_cons,
      show (n1 == n1) = true by decide]
    rfl
  · show (List.lookup n2 (_ :: _)).isSome = true
    rw [List.lookup_cons, show (n2 == n2) = true by decide]
    rfl

theorem cases_of {P : LayerName → Prop} (h : ∀ child : Bool, P (if child then n2 else n1)) :
    ∀ n ∈ [n1, n2], P n := by
  intro n hn
  rcases List.mem_cons.mp hn with rfl | hn
  · exact h false
  · rw [List.mem_singleton] at hn
    subst hn
    exact h true

theorem bytes_small (child : Bool) :
    bytes Backend.memory source (if child then n2 else n1) < 2 ^ 64 := by
  unfold bytes
  rw [isChild_eq]
  have hle : ∀ l : List FileName, (∀ f ∈ l, (textOf f).length ≤ 60) →
      (l.map (fun f => match Backend.memory.map source (if child then n2 else n1) f with
        | .ok b => b.length
        | _ => 0)).sum ≤ 60 * l.length := by
    intro l
    induction l with
    | nil => intro _; exact Nat.le_refl _
    | cons f l ih =>
      intro h
      rw [List.map_cons, List.sum_cons, List.length_cons]
      have h1 := ih (fun f hf => h f (List.mem_cons_of_mem _ hf))
      have h2 : (match Backend.memory.map source (if child then n2 else n1) f with
        | .ok b => b.length
        | _ => 0) ≤ 60 := by
        show (match MemLayers.map source (if child then n2 else n1) f with
          | .ok b => b.length
          | _ => 0) ≤ 60
        unfold MemLayers.map
        rw [content_eq]
        by_cases hf : f ∈ required child
        · rw [if_pos hf]
          show (file f).length ≤ 60
          unfold file
          split
          · unfold parentFile; rw [nameToString_length]; omega
          · exact h f List.mem_cons_self
        · rw [if_neg hf]
          exact Nat.zero_le _
      omega
  have hlen : ∀ f ∈ names child, (textOf f).length ≤ 60 := fun f hf => by
    rw [Pack.names_eq] at hf
    obtain ⟨t, h1, rfl⟩ := List.mem_map.mp hf
    obtain ⟨q, h2, rfl⟩ := List.mem_map.mp (List.mem_filter.mp h1).1
    rw [textOf_stringOf (Pack.table_ascii q h2)]
    have : ∀ q ∈ Pack.tableT, q.1.length ≤ 60 := by decide +kernel
    exact this q h2
  have hcount : (names child).length ≤ 100 := by
    rw [Pack.names_eq, List.length_map]
    exact Nat.le_trans (List.length_filter_le _ _) (by decide +kernel)
  exact Nat.lt_of_le_of_lt (hle _ hlen) (by omega)

theorem content_mem : Backend.plainMemory.content = MemLayers.content := rfl

theorem dirs_mem : Backend.plainMemory.dirs = MemLayers.directoryExists := rfl

theorem layerParent_eq : StoreKind.memory.backend.layerParent source n2 = .ok (some n1) := by
  refine (Backend.plainMemory.parent_eq source n2).trans ?_
  have h1 : Backend.plainMemory.dirs source n2 = true := present true
  have h2 : Backend.plainMemory.content source n2 FileName.parent = some (parentFile n1) := by
    rw [content_mem]
    have := content_eq true FileName.parent
    rw [if_pos ((parent_required true).mpr rfl),
      show file FileName.parent = parentFile n1 from if_pos rfl] at this
    exact this
  rw [h1, h2]
  decide

theorem map_eq {f : FileName} (h : f ∈ required false) :
    StoreKind.memory.backend.map source n1 f = .ok (file f) := by
  have e := content_eq false f
  rw [if_pos h] at e
  have e' := (Backend.plainMemory.ans source n1 f).map_eq
  refine e'.trans ?_
  rw [content_mem]
  replace e : source.content n1 f = some (file f) := e
  rw [e]
  rfl

/-- The hypotheses of C45 are met by a store in memory and a new archive store. -/
example (c : OffsetCodec) : ∃ pack s₃,
    Pack.exportLayers Backend.memory source [n1, n2] = .ok pack ∧
    Pack.importLayers (Backend.archive c) {} pack [n2, n1] [n1, n2] = .ok s₃ ∧
    (Backend.archive c).layerParent s₃ n2 = .ok (some n1) ∧
    (Backend.archive c).map s₃ n1 "base_sp_o_adjacency_list_nums.logarray" =
      .ok (textOf "base_sp_o_adjacency_list_nums.logarray") := by
  have hmem : "base_sp_o_adjacency_list_nums.logarray" ∈ required false :=
    Pack.required_base _ (by decide +kernel)
  obtain ⟨pack, s₃, h1, h2, h3, -⟩ := C45_pack_round_trip (K₁ := .memory) (K₂ := .archive c)
    (s₁ := source) (s₂ := ({} : ArchStore)) (show [n2, n1].Nodup by decide) ⟨[], .start⟩ (ids := [n1, n2])
    (sel := [n2, n1]) (order := [n1, n2]) (by decide) (by decide)
    (by decide) (by decide) (cases_of present)
    (cases_of (P := fun n => ∀ f ∈ required (IsChild Backend.memory source n),
      Backend.memory.fileExists source n f = .ok true) (fun child f hf => by
        rw [isChild_eq] at hf
        rw [fileExists_eq, decide_eq_true hf]))
    (fun n _ => rfl)
    (fun n hn => cases_of (P := fun n => bytes Backend.memory source n < 2 ^ 64) bytes_small n
      (by revert hn; revert n; decide))
  refine ⟨pack, s₃, h1, h2, ?_, ?_⟩
  · exact (h3 n2 (by decide)).2.2.2.2 (some n1) layerParent_eq
  · have h4 := ((h3 n1 (by decide)).2.1 "base_sp_o_adjacency_list_nums.logarray" (by
      have := isChild_eq false
      replace this : IsChild StoreKind.memory.backend source n1 = false := this
      rw [this]
      exact (List.mem_filter.mp hmem).1)).2.1
    exact h4.symm.trans ((map_eq hmem).trans (by decide))

/-- The hypotheses of `C46_exported_parents` are met too. -/
example : ∃ pack m, Pack.exportLayers Backend.memory source [n1, n2] = .ok pack ∧
    Pack.packLayerParents pack = .ok m ∧ (n2, some n1) ∈ m ∧ ∀ n q, (n, q) ∈ m → n ∈ [n1, n2] := by
  have hp1 : StoreKind.memory.backend.layerParent source n1 = .ok none := by
    refine (Backend.plainMemory.parent_eq source n1).trans ?_
    have h1 : Backend.plainMemory.dirs source n1 = true := present false
    have h2 : Backend.plainMemory.content source n1 FileName.parent = none := by
      rw [content_mem]
      have := content_eq false FileName.parent
      rw [if_neg (show ¬ FileName.parent ∈ required false from
        fun h => by cases (parent_required false).mp h)] at this
      exact this
    rw [h1, h2]
    decide
  obtain ⟨pack, m, h1, h2, -, h3⟩ := C46_exported_parents (K := .memory) (s := source)
    (show [n2, n1].Nodup by decide) (ids := [n1, n2]) (cases_of present)
    (cases_of (P := fun n => ∀ f ∈ required (IsChild Backend.memory source n),
      Backend.memory.fileExists source n f = .ok true) (fun child f hf => by
        rw [isChild_eq] at hf
        rw [fileExists_eq, decide_eq_true hf]))
    (fun n hn => by
      rcases List.mem_cons.mp hn with rfl | hn
      · exact ⟨_, hp1⟩
      · rw [List.mem_singleton.mp hn]; exact ⟨_, layerParent_eq⟩)
  exact ⟨pack, m, h1, h2, (h3 n2 (some n1)).mpr ⟨by decide, layerParent_eq⟩,
    fun n q hq => ((h3 n q).mp hq).1⟩

end PackExample

end Verif
