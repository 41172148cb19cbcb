import Verif.Lemmas.BackendArchive
import Verif.Lemmas.PackNames

/-!
Exporting and importing layers.
-/

namespace Verif

open PackSpec

/-! ### Names as strings -/

theorem textOf_nameString (n : LayerName) : textOf (nameString n) = nameToString n :=
  textOf_stringOf nameToString_ascii

theorem stringToName_nameString (n : LayerName) : stringToName (textOf (nameString n)) = .ok n := by
  rw [textOf_nameString, stringToName_nameToString]

theorem nameString_inj {n m : LayerName} (h : nameString n = nameString m) : n = m := by
  have h1 := stringToName_nameString n
  rw [h, stringToName_nameString] at h1
  cases h1; rfl

theorem nameString_mem {n : LayerName} {sel : List LayerName} :
    nameString n ∈ sel.map nameString ↔ n ∈ sel := by
  constructor
  · intro h
    obtain ⟨m, h1, h2⟩ := List.mem_map.mp h
    rw [← nameString_inj h2]; exact h1
  · exact fun h => List.mem_map.mpr ⟨n, h, rfl⟩

theorem nameString_normal (n : LayerName) :
    nameString n ≠ ".." ∧ nameString n ≠ "." ∧ nameString n ≠ "/" := by
  have hl := nameToString_length n
  have : ∀ x : String, x.toList.length ≠ 40 → nameString n ≠ x := fun x hx e => by
    have h := textOf_nameString n
    rw [e] at h
    rw [← h] at hl
    exact hx (by unfold textOf at hl; simpa using hl)
  exact ⟨this _ (by decide), this _ (by decide), this _ (by decide)⟩

namespace Pack

/-! ### Export -/

/-- The entry of a file. -/
def entryOf (n : LayerName) (f : FileName) (b : Bytes) : PackEntry := ⟨[nameString n, f], true, b⟩

/-- The entries of some files. -/
def entriesOf (n : LayerName) (v : FileName → Option Bytes) (fs : List FileName) :
    List PackEntry :=
  fs.filterMap (fun f => (v f).map (entryOf n f))

theorem fileEntry_eq {B : Backend} {s : B.State} {n : LayerName} {f : FileName} {b : Bytes}
    (h : B.Answers s n f (some b)) : fileEntry B s n f = .ok [entryOf n f b] := by
  unfold fileEntry
  rw [(h.present b rfl).1, (h.present b rfl).2]
  show (if b.length = b.length then _ else _) = _
  rw [if_pos rfl]
  rfl

theorem appendAll_ifExists {B : Backend} {s : B.State} {n : LayerName}
    {v : FileName → Option Bytes} (fs : List FileName) (h : ∀ f ∈ fs, B.Answers s n f (v f)) :
    appendAll (appendFileIfExists B s n) fs = .ok (entriesOf n v fs) := by
  unfold appendAll
  have : ∃ es, Out.collect (appendFileIfExists B s n) fs = .ok es ∧ es.flatten = entriesOf n v fs := by
    induction fs with
    | nil => exact ⟨[], rfl, rfl⟩
    | cons f fs ih =>
      obtain ⟨es, h1, h2⟩ := ih (fun f hf => h f (List.mem_cons_of_mem _ hf))
      have hf := h f List.mem_cons_self
      have : appendFileIfExists B s n f = .ok (((v f).map (entryOf n f)).toList) := by
        unfold appendFileIfExists
        rw [hf.ex]
        cases hv : v f with
        | none => rfl
        | some b =>
          rw [hv] at hf
          exact fileEntry_eq hf
      refine ⟨((v f).map (entryOf n f)).toList :: es, ?_, ?_⟩
      · show (appendFileIfExists B s n f).bind _ = _
        rw [this]
        show (Out.collect (appendFileIfExists B s n) fs).bind _ = _
        rw [h1]
        rfl
      · rw [List.flatten_cons, h2]
        unfold entriesOf
        rw [List.filterMap_cons]
        cases v f <;> rfl
  obtain ⟨es, h1, h2⟩ := this
  rw [h1]
  show Out.ok es.flatten = _
  rw [h2]

theorem appendAll_required {B : Backend} {s : B.State} {n : LayerName}
    {v : FileName → Option Bytes} (fs : List FileName) (h : ∀ f ∈ fs, B.Answers s n f (v f))
    (hr : ∀ f ∈ fs, (v f).isSome) :
    appendAll (appendFile B s n) fs = .ok (entriesOf n v fs) := by
  rw [← appendAll_ifExists fs h]
  unfold appendAll
  congr 1
  induction fs with
  | nil => rfl
  | cons f fs ih =>
    have e : appendFile B s n f = appendFileIfExists B s n f := by
      unfold appendFile appendFileIfExists
      rw [(h f List.mem_cons_self).ex, hr f List.mem_cons_self]
      rfl
    show (appendFile B s n f).bind _ = (appendFileIfExists B s n f).bind _
    rw [e, ih (fun f hf => h f (List.mem_cons_of_mem _ hf))
      (fun f hf => hr f (List.mem_cons_of_mem _ hf))]

/-- What a layer of which all is known answers. -/
structure Shows (B : Backend) (s : B.State) (n : LayerName) (v : FileName → Option Bytes) :
    Prop where
  ans : ∀ f k, FileName.kind f = .ok k → k ≠ FileKind.rollup → B.Answers s n f (v f)
  noParent : v FileName.parent = none → B.layerParent s n = .ok none
  parent : ∀ b q, v FileName.parent = some b → B.layerParent s n = .ok q →
    ∃ p, q = some p ∧ readParentFile b = .ok p

theorem kind_parent : FileName.kind FileName.parent = .ok FileKind.parent := by decide

theorem Shows.isChild {B : Backend} {s : B.State} {n : LayerName} {v : FileName → Option Bytes}
    (h : Shows B s n v) : IsChild B s n = (v FileName.parent).isSome := by
  unfold IsChild
  rw [(h.ans _ _ kind_parent (by decide)).ex]

theorem Shows.pack {B : Backend} {s : B.State} {n : LayerName} {v : FileName → Option Bytes}
    (h : Shows B s n v) {child : Bool} {f : FileName} (hf : f ∈ packNames child) :
    B.Answers s n f (v f) := by
  obtain ⟨k, h1, h2⟩ := packNames_kinds child f hf
  exact h.ans f k h1 h2

/-- The entries of a layer. -/
def layerEntries (n : LayerName) (v : FileName → Option Bytes) : List PackEntry :=
  ⟨[nameString n], false, []⟩ :: entriesOf n v (packNames (v FileName.parent).isSome)

theorem appendLayer_eq {B : Backend} {s : B.State} {n : LayerName} {v : FileName → Option Bytes}
    (h : Shows B s n v)
    (hr : ∀ f ∈ required (IsChild B s n), B.fileExists s n f = .ok true) :
    appendLayer B s n = .ok (layerEntries n v) := by
  have hsome : ∀ f k, FileName.kind f = .ok k → k ≠ FileKind.rollup →
      f ∈ required (IsChild B s n) → (v f).isSome := fun f k hk hk' hf => by
    have := hr f hf
    rw [(h.ans f k hk hk').ex] at this
    cases this' : (v f).isSome with
    | true => rfl
    | false => rw [this'] at this; cases this
  rw [h.isChild] at hsome
  have hshared : ∀ f ∈ FileName.sharedRequired, f ∈ packNames (v FileName.parent).isSome := by
    intro f hf
    unfold packNames
    exact List.mem_append_left _ (List.mem_append_left _ hf)
  have hopt : ∀ f ∈ FileName.sharedOptional.filter (fun f => f ≠ FileName.rollup),
      f ∈ packNames (v FileName.parent).isSome := by
    intro f hf
    unfold packNames
    exact List.mem_append_left _ (List.mem_append_right _ hf)
  have hp := (h.ans _ _ kind_parent (by decide)).ex
  unfold appendLayer
  rw [appendAll_required _ (fun f hf => h.pack (hshared f hf)) (fun f hf => by
    obtain ⟨k, h1, h2⟩ := packNames_kinds _ f (hshared f hf)
    exact hsome f k h1 h2 (required_shared _ f hf))]
  show Out.bind (appendAll _ _) _ = _
  rw [appendAll_ifExists _ (fun f hf => h.pack (hopt f hf))]
  show Out.bind (B.fileExists s n FileName.parent) _ = _
  rw [hp]
  cases hc : (v FileName.parent).isSome with
  | true =>
    rw [hc] at hsome
    have h3 : ∀ f ∈ FileName.childRequired, f ∈ packNames true := fun f hf =>
      List.mem_append_right _ (List.mem_append_left _ hf)
    have h4 : ∀ f ∈ FileName.childOptional, f ∈ packNames true := fun f hf =>
      List.mem_append_right _ (List.mem_append_right _ hf)
    show (appendAll _ _).bind _ = _
    rw [appendAll_required _ (fun f hf => h.pack (h3 f hf)) (fun f hf => by
      obtain ⟨k, q1, q2⟩ := packNames_kinds _ f (h3 f hf)
      exact hsome f k q1 q2 (required_child f hf))]
    show (appendAll _ _).bind _ = _
    rw [appendAll_ifExists _ (fun f hf => h.pack (h4 f hf))]
    show Out.ok _ = Out.ok _
    unfold layerEntries packNames entriesOf
    rw [hc]
    simp only [List.filterMap_append, if_true, List.append_assoc]
  | false =>
    rw [hc] at hsome
    have h3 : ∀ f ∈ FileName.baseRequired, f ∈ packNames false := fun f hf =>
      List.mem_append_right _ (List.mem_append_left _ hf)
    have h4 : ∀ f ∈ FileName.baseOptional, f ∈ packNames false := fun f hf =>
      List.mem_append_right _ (List.mem_append_right _ hf)
    show (appendAll _ _).bind _ = _
    rw [appendAll_required _ (fun f hf => h.pack (h3 f hf)) (fun f hf => by
      obtain ⟨k, q1, q2⟩ := packNames_kinds _ f (h3 f hf)
      exact hsome f k q1 q2 (required_base f hf))]
    show (appendAll _ _).bind _ = _
    rw [appendAll_ifExists _ (fun f hf => h.pack (h4 f hf))]
    show Out.ok _ = Out.ok _
    unfold layerEntries packNames entriesOf
    rw [hc]
    simp only [List.filterMap_append, Bool.false_eq_true, if_false, List.append_assoc]

theorem exportLayers_eq {B : Backend} {s : B.State} (ids : List LayerName)
    {v : LayerName → FileName → Option Bytes} (h : ∀ n ∈ ids, Shows B s n (v n))
    (hr : ∀ n ∈ ids, ∀ f ∈ required (IsChild B s n), B.fileExists s n f = .ok true) :
    exportLayers B s ids = .ok (ids.flatMap (fun n => layerEntries n (v n))) := by
  unfold exportLayers
  have : Out.collect (appendLayer B s) ids = .ok (ids.map (fun n => layerEntries n (v n))) := by
    induction ids with
    | nil => rfl
    | cons n ids ih =>
      show (appendLayer B s n).bind _ = _
      rw [appendLayer_eq (h n List.mem_cons_self) (hr n List.mem_cons_self)]
      show (Out.collect (appendLayer B s) ids).bind _ = _
      rw [ih (fun n hn => h n (List.mem_cons_of_mem _ hn))
        (fun n hn => hr n (List.mem_cons_of_mem _ hn))]
      rfl
  rw [this]
  show Out.ok _ = _
  rw [← List.flatMap_def]

/-! ### Import -/

/-- The files of a layer that are put. -/
def layerPuts (n : LayerName) (v : FileName → Option Bytes) : List Put :=
  (packNames (v FileName.parent).isSome).filterMap (fun f => (v f).map (fun b => (n, f, b)))

/-- The files that are put. -/
def putsOf (sel ids : List LayerName) (v : LayerName → FileName → Option Bytes) : List Put :=
  ids.flatMap (fun n => if n ∈ sel then layerPuts n (v n) else [])

theorem layerPuts_mem {n m : LayerName} {v : FileName → Option Bytes} {f : FileName} {b : Bytes} :
    (m, f, b) ∈ layerPuts n v ↔
      m = n ∧ f ∈ packNames (v FileName.parent).isSome ∧ v f = some b := by
  unfold layerPuts
  rw [List.mem_filterMap]
  constructor
  · rintro ⟨g, h1, h2⟩
    cases hv : v g with
    | none => rw [hv] at h2; cases h2
    | some b' =>
      rw [hv] at h2
      cases h2
      exact ⟨rfl, h1, hv⟩
  · rintro ⟨rfl, h1, h2⟩
    exact ⟨f, h1, by rw [h2]; rfl⟩

theorem putsOf_mem {sel ids : List LayerName} {v : LayerName → FileName → Option Bytes}
    {n : LayerName} {f : FileName} {b : Bytes} :
    (n, f, b) ∈ putsOf sel ids v ↔ n ∈ ids ∧ n ∈ sel ∧
      f ∈ packNames (v n FileName.parent).isSome ∧ v n f = some b := by
  unfold putsOf
  rw [List.mem_flatMap]
  constructor
  · rintro ⟨m, h1, h2⟩
    split at h2
    · rename_i hs
      obtain ⟨rfl, h3, h4⟩ := layerPuts_mem.mp h2
      exact ⟨h1, hs, h3, h4⟩
    · cases h2
  · rintro ⟨h1, h2, h3, h4⟩
    exact ⟨n, h1, by rw [if_pos h2]; exact layerPuts_mem.mpr ⟨rfl, h3, h4⟩⟩

theorem importEntry_file {B : Backend} (sel : List LayerName) (s : B.State) (n : LayerName)
    (f : FileName) (b : Bytes) (hf : f ≠ ".." ∧ f ≠ "." ∧ f ≠ "/") :
    importEntry B (sel.map nameString) s (entryOf n f b) =
      if n ∈ sel then B.write s n f b else .ok s := by
  have h1 : fileName (entryOf n f b).path = some f := by
    show (if f = ".." ∨ f = "." ∨ f = "/" then none else some f) = _
    rw [if_neg (by simp [hf])]
  unfold importEntry
  rw [h1]
  show (if nameString n ∈ sel.map nameString then
    (ArchDir.unwrap (stringToName (textOf (nameString n)))).bind _ else _) = _
  by_cases h : n ∈ sel
  · rw [if_pos (nameString_mem.mpr h), if_pos h, stringToName_nameString]
    rfl
  · rw [if_neg (fun h' => h (nameString_mem.mp h')), if_neg h]

theorem importEntry_dir {B : Backend} (sel : List LayerName) (s : B.State) (n : LayerName) :
    importEntry B (sel.map nameString) s ⟨[nameString n], false, []⟩ = .ok s := by
  obtain ⟨a1, a2, a3⟩ := nameString_normal n
  have h1 : fileName [nameString n] = some (nameString n) := by
    show (if nameString n = ".." ∨ nameString n = "." ∨ nameString n = "/" then none
      else some (nameString n)) = _
    rw [if_neg (by simp [a1, a2, a3])]
  unfold importEntry
  dsimp only
  rw [h1]
  show (if nameString n ∈ sel.map nameString then
    (ArchDir.unwrap (stringToName (textOf (nameString n)))).bind _ else _) = _
  by_cases h : n ∈ sel
  · rw [if_pos (nameString_mem.mpr h), stringToName_nameString]
    rfl
  · rw [if_neg (fun h' => h (nameString_mem.mp h'))]

/-- Writing some files. -/
def writeAll (B : Backend) (s : B.State) (puts : List Put) : Out B.State :=
  Out.forEach (fun s p => B.write s p.1 p.2.1 p.2.2) s puts

theorem import_files {B : Backend} (sel : List LayerName) (n : LayerName)
    (v : FileName → Option Bytes) (fs : List FileName)
    (hf : ∀ f ∈ fs, f ≠ ".." ∧ f ≠ "." ∧ f ≠ "/") (s : B.State) :
    Out.forEach (importEntry B (sel.map nameString)) s (entriesOf n v fs) =
      writeAll B s (if n ∈ sel then fs.filterMap (fun f => (v f).map (fun b => (n, f, b))) else []) := by
  induction fs generalizing s with
  | nil => by_cases h : n ∈ sel <;> simp [h, entriesOf, writeAll, Out.forEach]
  | cons f fs ih =>
    have ih' := ih (fun f h => hf f (List.mem_cons_of_mem _ h))
    unfold entriesOf at ih' ⊢
    rw [List.filterMap_cons]
    cases hv : v f with
    | none =>
      rw [Option.map_none]
      dsimp only
      rw [ih' s, List.filterMap_cons, hv]
      rfl
    | some b =>
      show (importEntry B (sel.map nameString) s (entryOf n f b)).bind _ = _
      rw [importEntry_file sel s n f b (hf f List.mem_cons_self), List.filterMap_cons, hv]
      by_cases h : n ∈ sel
      · simp only [if_pos h] at ih' ⊢
        show _ = (B.write s n f b).bind _
        congr 1
        funext s'
        exact ih' s'
      · simp only [if_neg h] at ih' ⊢
        exact ih' s

theorem import_layers_eq {B : Backend} (sel ids : List LayerName)
    (v : LayerName → FileName → Option Bytes) (s : B.State) :
    Out.forEach (importEntry B (sel.map nameString)) s
      (ids.flatMap (fun n => layerEntries n (v n))) = writeAll B s (putsOf sel ids v) := by
  induction ids generalizing s with
  | nil => rfl
  | cons n ids ih =>
    rw [List.flatMap_cons, Out.forEach_append]
    have h1 : Out.forEach (importEntry B (sel.map nameString)) s (layerEntries n (v n)) =
        writeAll B s (if n ∈ sel then layerPuts n (v n) else []) := by
      unfold layerEntries
      rw [Out.forEach_cons, importEntry_dir]
      exact import_files sel n (v n) _ (packNames_normal _) s
    rw [h1]
    unfold putsOf
    rw [List.flatMap_cons]
    show _ = Out.forEach _ s _
    rw [Out.forEach_append]
    have e : (fun s' => Out.forEach (importEntry B (sel.map nameString)) s'
        (ids.flatMap (fun n => layerEntries n (v n)))) = fun s' => writeAll B s' (putsOf sel ids v) :=
      funext ih
    rw [e]
    rfl

/-! ### The files that are put can be put -/

theorem layerPuts_nodup (n : LayerName) (v : FileName → Option Bytes) :
    ((layerPuts n v).map (fun p => (p.1, FileName.kind p.2.1))).Nodup := by
  unfold layerPuts
  have h := packNames_nodup (v FileName.parent).isSome
  generalize packNames (v FileName.parent).isSome = fs at h
  induction fs with
  | nil => exact List.nodup_nil
  | cons f fs ih =>
    rw [List.map_cons, List.nodup_cons] at h
    rw [List.filterMap_cons]
    cases hv : v f with
    | none => exact ih h.2
    | some b =>
      show (((n, f, b) :: _).map _).Nodup
      rw [List.map_cons, List.nodup_cons]
      refine ⟨fun hm => ?_, ih h.2⟩
      obtain ⟨p, hp, he⟩ := List.mem_map.mp hm
      obtain ⟨g, h1, h2⟩ := List.mem_filterMap.mp hp
      cases hg : v g with
      | none => rw [hg] at h2; cases h2
      | some b' =>
        rw [hg] at h2
        cases h2
        refine h.1 (List.mem_map.mpr ⟨g, h1, ?_⟩)
        exact congrArg Prod.snd he

theorem putsOf_nodup (sel : List LayerName) (v : LayerName → FileName → Option Bytes)
    {ids : List LayerName} (h : ids.Nodup) :
    ((putsOf sel ids v).map (fun p => (p.1, FileName.kind p.2.1))).Nodup := by
  induction ids with
  | nil => exact List.nodup_nil
  | cons n ids ih =>
    rw [List.nodup_cons] at h
    unfold putsOf
    rw [List.flatMap_cons, List.map_append, List.nodup_append]
    refine ⟨?_, ih h.2, ?_⟩
    · by_cases hs : n ∈ sel
      · rw [if_pos hs]; exact layerPuts_nodup n (v n)
      · rw [if_neg hs]; exact List.nodup_nil
    · intro a ha b hb e
      subst e
      obtain ⟨⟨m, f, x⟩, h1, h2⟩ := List.mem_map.mp ha
      obtain ⟨⟨m', f', x'⟩, h3, h4⟩ := List.mem_map.mp hb
      have hm : m = n := by
        split at h1
        · exact (layerPuts_mem.mp h1).1
        · cases h1
      have hm' : m' ∈ ids := (putsOf_mem.mp h3).1
      have : m' = m := by
        rw [← h2] at h4
        exact congrArg Prod.fst h4
      exact h.1 (hm ▸ this ▸ hm')

theorem sum_le_of_perm {l l' : List Nat} (h : l.Perm l') : l.sum = l'.sum := h.sum_nat

theorem layerPuts_size {B : Backend} {s : B.State} {n : LayerName} {v : FileName → Option Bytes}
    (h : Shows B s n v) : ((layerPuts n v).map (fun p => p.2.2.length)).sum = bytes B s n := by
  unfold bytes
  rw [h.isChild]
  rw [← sum_le_of_perm ((packNames_perm (v FileName.parent).isSome).map _)]
  unfold layerPuts
  have hp := fun f hf => h.pack (child := (v FileName.parent).isSome) (f := f) hf
  generalize packNames (v FileName.parent).isSome = fs at hp
  induction fs with
  | nil => rfl
  | cons f fs ih =>
    have ih' := ih (fun f hf => hp f (List.mem_cons_of_mem _ hf))
    have hf := hp f List.mem_cons_self
    rw [List.filterMap_cons, List.map_cons, List.sum_cons, ← ih']
    cases hv : v f with
    | none =>
      rw [hv] at hf
      rw [(hf.absent rfl).1]
      dsimp only [Option.map_none]
      rw [Nat.zero_add]
    | some b =>
      rw [hv] at hf
      rw [(hf.present b rfl).1]
      show (((n, f, b) :: _).map _).sum = _
      rw [List.map_cons, List.sum_cons]

theorem putsOf_size {sel ids : List LayerName} (v : LayerName → FileName → Option Bytes)
    (h : ids.Nodup) (n : LayerName) :
    (((putsOf sel ids v).filter (fun p => p.1 = n)).map (fun p => p.2.2.length)).sum ≤
      ((layerPuts n (v n)).map (fun p => p.2.2.length)).sum := by
  have none_of : ∀ ids : List LayerName, n ∉ ids →
      (putsOf sel ids v).filter (fun p => p.1 = n) = [] := by
    intro ids hn
    rw [List.filter_eq_nil_iff]
    rintro ⟨m, f, b⟩ hp e
    have e' : m = n := by simpa using e
    exact hn (e' ▸ (putsOf_mem.mp hp).1)
  induction ids with
  | nil => exact Nat.zero_le _
  | cons m ids ih =>
    rw [List.nodup_cons] at h
    have e : putsOf sel (m :: ids) v =
      (if m ∈ sel then layerPuts m (v m) else []) ++ putsOf sel ids v := by
      unfold putsOf; rw [List.flatMap_cons]
    rw [e, List.filter_append, List.map_append, List.sum_append_nat]
    by_cases hm : m = n
    · subst hm
      rw [none_of ids h.1]
      split
      · rw [List.filter_eq_self.mpr]
        · simp
        · rintro ⟨m', f, b⟩ hp
          simpa using (layerPuts_mem.mp hp).1
      · simp
    · have : (if m ∈ sel then layerPuts m (v m) else []).filter (fun p => p.1 = n) = [] := by
        rw [List.filter_eq_nil_iff]
        rintro ⟨m', f, b⟩ hp e
        have e' : m' = n := by simpa using e
        split at hp
        · exact hm ((layerPuts_mem.mp hp).1 ▸ e')
        · cases hp
      rw [this]
      simpa using ih h.2

theorem putsOf_allowed {B : Backend} {s : B.State} {sel ids : List LayerName}
    {v : LayerName → FileName → Option Bytes} (hi : ids.Nodup)
    (h : ∀ n ∈ ids, Shows B s n (v n)) (hsub : ∀ n ∈ sel, n ∈ ids)
    (hsmall : ∀ n ∈ sel, bytes B s n < 2 ^ 64) : Backend.Allowed sel (putsOf sel ids v) := by
  refine ⟨fun ⟨n, f, b⟩ hp => (putsOf_mem.mp hp).2.1, fun ⟨n, f, b⟩ hp => ?_,
    putsOf_nodup sel v hi, fun n hn => ?_, fun ⟨n, f, b⟩ hp hk => ?_⟩
  · exact packNames_kinds _ f (putsOf_mem.mp hp).2.2.1
  · refine Nat.lt_of_le_of_lt (putsOf_size v hi n) ?_
    rw [layerPuts_size (h n (hsub n hn))]
    exact hsmall n hn
  · exact packNames_parent _ f (putsOf_mem.mp hp).2.2.1 hk

/-! ### Layers that are there -/

theorem plain_shows {B : Backend} (P : B.Plain) (s : B.State) (n : LayerName)
    (h : P.dirs s n = true) : Shows B s n (P.content s n) := by
  refine ⟨fun f k _ _ => P.ans s n f, fun hv => ?_, fun b q hv hq => ?_⟩
  · rw [P.parent_eq, hv, h]
    rfl
  · rw [P.parent_eq, hv, h] at hq
    replace hq : (readParentFile b).bind (fun p => Out.ok (some p)) = .ok q := hq
    cases hp : readParentFile b with
    | ok p => rw [hp] at hq; cases hq; exact ⟨p, rfl, rfl⟩
    | err => rw [hp] at hq; cases hq
    | panic => rw [hp] at hq; cases hq

theorem archive_shows {c : OffsetCodec} {s : ArchStore} {L : List ArchEvent}
    (hrun : ArchStore.Run c s L) {n : LayerName} (h : s.disk.layerExists n = true) :
    ∃ v, Shows (.archive c) s n v := by
  unfold ArchDir.layerExists at h
  cases hf : s.disk.file n with
  | none => rw [hf] at h; cases h
  | some b =>
    obtain ⟨hb, -, files, rfl, hw, -⟩ := hrun.inv.stored n b hf
    let v : FileName → Option Bytes := fun f =>
      match FileName.kind f with
      | .ok k => files.lookup k
      | _ => none
    have hv : ∀ f k, FileName.kind f = .ok k → v f = files.lookup k := fun f k hk => by
      show (match FileName.kind f with
        | .ok k => files.lookup k
        | _ => none) = _
      rw [hk]
    have hx : ∀ k b, (k, b) ∈ files ↔ files.lookup k = some b := fun k b =>
      ⟨lookup_of_mem hw.1, lookup_mem⟩
    refine ⟨v, fun f k hk hkr => ?_, fun hv' => ?_, fun b q hv' hq => ?_⟩
    · rw [hv f k hk]
      exact ArchStore.stored_answers hb hf hw hk hkr (hx k)
    · rw [hv _ _ kind_parent] at hv'
      exact (ArchStore.stored_parent hf hw).1 (fun b hb' => by
        rw [(hx _ _).mp hb'] at hv'; cases hv')
    · rw [hv _ _ kind_parent] at hv'
      have e := (ArchStore.stored_parent hf hw).2 b ((hx _ _).mpr hv')
      replace hq : s.layerParent c n = .ok q := hq
      rw [e] at hq
      cases hp : ArchDir.parentName b with
      | ok p => rw [hp] at hq; cases hq; exact ⟨p, rfl, ArchStore.of_parentName hp⟩
      | err => rw [hp] at hq; cases hq
      | panic => rw [hp] at hq; cases hq

theorem present_shows {K : StoreKind} {s : K.backend.State} (hr : K.Reached s) {n : LayerName}
    (h : K.Present s n) : ∃ v, Shows K.backend s n v := by
  cases K with
  | directory trunc => exact ⟨_, plain_shows (Backend.plainDirectory trunc) s n h⟩
  | memory => exact ⟨_, plain_shows Backend.plainMemory s n h⟩
  | archive c =>
    obtain ⟨L, hrun⟩ := hr
    exact archive_shows hrun h

end Pack

end Verif
