import Verif.Lemmas.LayerCopy
import Verif.Lemmas.LayerCodec
import Verif.Props.Pack
import Verif.Props.Crash

/-!
Layers and their files: C55.
-/

set_option linter.unusedSectionVars false

namespace Verif

open LayerSpec LayerFiles PackSpec Store World

variable {K V : Type} [LinearOrder K] [LinearOrder V]

namespace LayerSpec

/-- The layer `d` is in a store under a name: it has this parent, and its files hold what is
written for it. -/
structure InStore (c : Coder K V) (B : Backend) (s : B.State) (n : LayerName)
    (p : Option LayerName) (d : LayerData K V) : Prop where
  dir : B.directoryExists s n = true
  parentFile : B.fileExists s n FileName.parent = .ok p.isSome
  parent : B.layerParent s n = .ok p
  files : ∃ ws, writeLayer c p.isSome d = .ok ws ∧ ∀ f ∈ names p.isSome,
    (∀ b, (n, f, b) ∈ putsOf n ws p → B.fileExists s n f = .ok true ∧ B.map s n f = .ok b) ∧
    ((∀ b, (n, f, b) ∉ putsOf n ws p) → B.fileExists s n f = .ok false ∧ B.map s n f = .err)

end LayerSpec

/-- Stored layers have the form that goes with having a parent, and are part of a stack. -/
theorem World.Run.formed {w : World K V} (h : World.Run true w) {m : Name}
    {e : Entry K V} (he : w.store.get? m = some e) :
    Formed e.parent.isSome e.data ∧ ∃ S, Reachable (e.data :: S) := by
  constructor
  · have hf := h.forms.store m e he
    unfold Entry.Form at hf
    unfold Formed
    cases hp : e.parent with
    | none => rw [hp] at hf; exact hf
    | some q => rw [hp] at hf; exact hf
  · obtain ⟨S, hS, hr, _⟩ := h.inv.ok.raw he
    have hown := h.inv.ok.own he hS
    cases S with
    | nil => cases hown
    | cons d S' =>
      simp only [List.head?_cons, Option.some.injEq] at hown
      subst hown
      exact ⟨S', hr⟩

theorem LayerSpec.InStore.there {c : Coder K V} {B : Backend} {s : B.State} {n : LayerName}
    {parent : Option LayerName} {d : LayerData K V} {ws : Writes FileName} {nv pm : Bool}
    (h : InStore c B s n parent d) (hw : writeLayer c parent.isSome d = .ok ws)
    (hk : ws.map (·.1) = keys parent.isSome nv pm) :
    There (access B s n) parent.isSome ws := by
  obtain ⟨ws', h1, h2⟩ := h.files
  rw [hw] at h1
  cases h1
  refine ⟨fun q hq => ?_, fun f hf g1 g2 => ?_⟩
  · have hq' : q.1 ∈ keys parent.isSome nv pm := hk ▸ List.mem_map.2 ⟨q, hq, rfl⟩
    obtain ⟨g1, g2⟩ := (h2 q.1 ((Pack.packNames_perm _).mem_iff.1 (keys_sub _ _ _ _ hq'))).1 q.2
      (mem_putsOf.2 ⟨rfl, Or.inl hq⟩)
    exact ⟨g1, fun b hb => by cases hb; exact g2⟩
  · refine ⟨((h2 f ((Pack.packNames_perm _).mem_iff.1 hf)).2 (fun b hb => ?_)).1,
      fun b hb => by cases hb⟩
    exact g1 (List.mem_map.2 ⟨_, (mem_putsOf_ws g2).1 hb, rfl⟩)

/-- C55: writing the files of a layer never fails because a number does not fit. When the files are
put into a new layer of a store of any kind, in any order, the store has the layer then, and
nothing else has changed. -/
theorem C55_written (c : Coder K V) {w : World K V} (h : World.Run true w) {m : Name}
    {e : Entry K V} (he : w.store.get? m = some e) {B : StoreKind} {s : B.backend.State}
    (hs : B.Reached s) {n : LayerName} (hn : B.backend.directoryExists s n = false)
    {parent : Option LayerName} (hp : parent.isSome = e.parent.isSome) :
    ∃ ws, writeLayer c e.parent.isSome e.data = .ok ws ∧
      ∀ puts : List (LayerName × FileName × Bytes), puts.Perm (putsOf n ws parent) →
        (puts.map (fun q => q.2.2.length)).sum < 2 ^ 64 →
        ∃ s1 s2 s3, B.backend.create s n = .ok s1 ∧
          Out.forEach (fun s q => B.backend.write s q.1 q.2.1 q.2.2) s1 puts = .ok s2 ∧
          B.backend.finalize s2 n = .ok s3 ∧
          InStore c B.backend s3 n parent e.data ∧
          ∀ n', n' ≠ n → Unchanged B.backend s s3 n' := by
  obtain ⟨hf, S, hr⟩ := h.formed he
  obtain ⟨ws, h1, h2, _⟩ := writeLayer_ok c hr.fits hf
  refine ⟨ws, h1, fun puts hperm hsum => ?_⟩
  rw [← hp] at h1 h2
  obtain ⟨s1, s2, s3, e1, e2, e3, fill, rest⟩ := hs.takes [n] [n] puts (by simp) (List.Perm.refl _)
    (fun n' hn' => by rw [List.mem_singleton.1 hn']; exact hn) (putsOf_allowed h2 hperm hsum)
  have one : ∀ (f : B.backend.State → LayerName → Out B.backend.State) {s s' : B.backend.State},
      Out.forEach f s [n] = .ok s' → f s n = .ok s' := by
    intro f s s' hx
    replace hx : (f s n).bind (fun s => .ok s) = .ok s' := hx
    cases hy : f s n with
    | ok y => rw [hy] at hx; exact hx
    | err => rw [hy] at hx; cases hx
    | panic => rw [hy] at hx; cases hx
  have hfill := fill n (by simp)
  obtain ⟨g1, g2, g3⟩ := filled_answers h2 hperm hfill
  refine ⟨s1, s2, s3, one _ e1, e2, one _ e3, ⟨hfill.1, g3, g2, ws, h1, fun f hf => ?_⟩,
    fun n' hn' => rest n' (by simpa using hn')⟩
  obtain ⟨k1, k2⟩ := g1 f ((Pack.packNames_perm _).mem_iff.2 hf)
  exact ⟨fun b hb => ⟨(k1 b hb).ex, ((k1 b hb).present b rfl).1⟩,
    fun hb => ⟨(k2 hb).ex, ((k2 hb).absent rfl).1⟩⟩

/-- C55: a layer that is in a store is read as it was written, and all questions that are answered
from single files get the answers of this layer. -/
theorem C55_read_back {c : Coder K V} {w : World K V} (h : World.Run true w) {m : Name}
    {e : Entry K V} (he : w.store.get? m = some e) {B : Backend} {s : B.State} {n : LayerName}
    {parent : Option LayerName} (hp : parent.isSome = e.parent.isSome)
    (hin : InStore c B s n parent e.data) : ReadsAs c (access B s n) parent.isSome e.data := by
  obtain ⟨hf, S, hr⟩ := h.formed he
  rw [← hp] at hf
  obtain ⟨ws, h1, h2, h3⟩ := writeLayer_ok c hr.fits hf
  have g := hin.there h1 h2
  exact (h3 _ g.has g.absent).reads hr

/-- C55: layers that are exported from a store of any kind and imported into another are in it with
the same contents. -/
theorem C55_imported {c : Coder K V} {w : World K V} (h : World.Run true w)
    {K₁ K₂ : StoreKind} {s₁ : K₁.backend.State} {s₂ : K₂.backend.State}
    (h₁ : K₁.Reached s₁) (h₂ : K₂.Reached s₂) {ids sel order : List LayerName}
    (hids : ids.Nodup) (hsel : sel.Nodup) (hsub : ∀ n ∈ sel, n ∈ ids) (hord : order.Perm sel)
    (hpres : ∀ n ∈ ids, K₁.Present s₁ n) {layer : LayerName → Entry K V}
    {parent : LayerName → Option LayerName}
    (hlayer : ∀ n ∈ ids, (∃ m, w.store.get? m = some (layer n)) ∧
      (parent n).isSome = (layer n).parent.isSome ∧
      InStore c K₁.backend s₁ n (parent n) (layer n).data)
    (hnew : ∀ n ∈ sel, K₂.backend.directoryExists s₂ n = false)
    (hsmall : ∀ n ∈ sel, bytes K₁.backend s₁ n < 2 ^ 64) :
    ∃ pack s₃, Pack.exportLayers K₁.backend s₁ ids = .ok pack ∧
      Pack.importLayers K₂.backend s₂ pack sel order = .ok s₃ ∧
      ∀ n ∈ sel, InStore c K₂.backend s₃ n (parent n) (layer n).data := by
  have hchild : ∀ n ∈ ids, IsChild K₁.backend s₁ n = (parent n).isSome := by
    intro n hn
    unfold IsChild
    rw [(hlayer n hn).2.2.parentFile]
  have hreq : ∀ n ∈ ids, ∀ f ∈ required (IsChild K₁.backend s₁ n),
      K₁.backend.fileExists s₁ n f = .ok true := by
    intro n hn f hf
    rw [hchild n hn] at hf
    obtain ⟨⟨m, hm⟩, hp, hin⟩ := hlayer n hn
    by_cases hfp : f = FileName.parent
    · rw [hfp, hin.parentFile]
      have : (parent n).isSome = true := by
        rw [hfp] at hf
        exact (PackExample.parent_required _).1 hf
      rw [this]
    · obtain ⟨hform, S, hr⟩ := h.formed hm
      rw [← hp] at hform
      obtain ⟨ws, k1, k2, _⟩ := writeLayer_ok c hr.fits hform
      have g := hin.there k1 k2
      have hk := keys_required (parent n).isSome (layer n).data.nvMap.isSome
        (layer n).data.pMap.isSome hf hfp
      rw [← k2] at hk
      obtain ⟨q, q1, rfl⟩ := List.mem_map.1 hk
      exact (g.has q q1).ex
  obtain ⟨pack, s₃, e1, e2, e3, _⟩ := C45_pack_round_trip h₁ h₂ hids hsel hsub hord hpres hreq hnew
    hsmall
  refine ⟨pack, s₃, e1, e2, fun n hn => ?_⟩
  obtain ⟨g1, g2, g3, _, g5⟩ := e3 n hn
  have hni := hsub n hn
  rw [hchild n hni] at g2
  have hin := (hlayer n hni).2.2
  obtain ⟨ws, i1, i2⟩ := hin.files
  refine ⟨g1, ?_, g5 _ hin.parent, ws, i1, fun f hf => ?_⟩
  · rw [← g3.1]
    exact hin.parentFile
  · obtain ⟨j1, j2, _⟩ := g2 f hf
    rw [← j1, ← j2]
    exact i2 f hf

/-- C55: copying the files of a layer gives what was written for it. -/
theorem C55_copied {c : Coder K V} {w : World K V} (h : World.Run true w) {m : Name}
    {e : Entry K V} (he : w.store.get? m = some e) {B : Backend} {s : B.State} {n : LayerName}
    {parent : Option LayerName} (hp : parent.isSome = e.parent.isSome)
    (hin : InStore c B s n parent e.data) :
    ∃ ws ws', writeLayer c parent.isSome e.data = .ok ws ∧
      copyLayer (access B s n) parent.isSome = .ok ws' ∧ ws'.Perm ws := by
  obtain ⟨hf, S, hr⟩ := h.formed he
  rw [← hp] at hf
  obtain ⟨ws, h1, h2, _⟩ := writeLayer_ok c hr.fits hf
  obtain ⟨ws', k1, k2⟩ := copyLayer_ok h2 (hin.there h1 h2)
  exact ⟨ws, ws', h1, k1, k2⟩

/-- C55: of a layer that is not there, nothing is told: dictionaries, counts and id maps are absent,
and additions and removals are errors. -/
theorem C55_missing (c : Coder K V) (a : Access FileName) (child : Bool) :
    (nodeDictionary c a false = .ok none ∧ predicateDictionary c a false = .ok none ∧
      valueDictionary c a false = .ok none) ∧
    (nodeCount c a false = .ok none ∧ predicateCount c a false = .ok none ∧
      valueCount c a false = .ok none) ∧
    (nodeValueIdMap c a false = .ok none ∧ predicateIdMap c a false = .ok none) ∧
    (additions c a false child = .err ∧ removals c a false child = .err) ∧
    (∀ t, additionExists c a false child t = .err ∧ removalExists c a false child t = .err) ∧
    (∀ x, additionsS c a false child x = .err ∧ removalsS c a false child x = .err ∧
      additionsP c a false child x = .err ∧ removalsP c a false child x = .err ∧
      additionsO c a false child x = .err ∧ removalsO c a false child x = .err) ∧
    (∀ x y, additionsSP c a false child x y = .err ∧ removalsSP c a false child x y = .err) ∧
    additionCount c a false child = .err ∧ removalCount c a false child = .err :=
  ⟨⟨rfl, rfl, rfl⟩, ⟨rfl, rfl, rfl⟩, ⟨rfl, rfl⟩, ⟨rfl, rfl⟩, fun _ => ⟨rfl, rfl⟩,
    fun _ => ⟨rfl, rfl, rfl, rfl, rfl, rfl⟩, fun _ _ => ⟨rfl, rfl⟩, rfl, rfl⟩

theorem le_sum : ∀ {l : List Nat} {x : Nat}, x ∈ l → x ≤ l.sum
  | y :: l, x, h => by
    rw [List.sum_cons]
    rcases List.mem_cons.1 h with rfl | h
    · omega
    · have := le_sum h
      omega

/-- The size of a layer that is in a store. -/
theorem LayerSpec.InStore.bytes_le {c : Coder K V} {B : Backend} {s : B.State} {n : LayerName}
    {parent : Option LayerName} {d : LayerData K V} (h : InStore c B s n parent d)
    {ws : Writes FileName} (hw : writeLayer c parent.isSome d = .ok ws) :
    bytes B s n ≤ (names parent.isSome).length *
      ((putsOf n ws parent).map (fun q => q.2.2.length)).sum := by
  obtain ⟨ws', h1, h2⟩ := h.files
  rw [hw] at h1
  cases h1
  have hc : IsChild B s n = parent.isSome := by unfold IsChild; rw [h.parentFile]
  unfold bytes
  rw [hc]
  have key : ∀ l : List FileName, (∀ f ∈ l, f ∈ names parent.isSome) →
      (l.map (fun f => match B.map s n f with
        | .ok b => b.length
        | _ => 0)).sum ≤ l.length * ((putsOf n ws parent).map (fun q => q.2.2.length)).sum := by
    intro l
    induction l with
    | nil => intro _; simp
    | cons f l ih =>
      intro hl
      have i := ih (fun g hg => hl g (List.mem_cons_of_mem _ hg))
      rw [List.map_cons, List.sum_cons, List.length_cons, Nat.add_mul, Nat.one_mul]
      have : (match B.map s n f with
        | .ok b => b.length
        | _ => 0) ≤ ((putsOf n ws parent).map (fun q => q.2.2.length)).sum := by
        obtain ⟨k1, k2⟩ := h2 f (hl f (by simp))
        by_cases hb : ∃ b, (n, f, b) ∈ putsOf n ws parent
        · obtain ⟨b, hb⟩ := hb
          rw [(k1 b hb).2]
          exact le_sum (List.mem_map.2 ⟨_, hb, rfl⟩)
        · rw [(k2 (fun b hb' => hb ⟨b, hb'⟩)).2]
          exact Nat.zero_le _
      omega
  exact key _ (fun f hf => hf)

/-! ### A case that meets the hypotheses -/

namespace Witness

/-- Files that hold the numbers as they are. -/
def coder : Coder Nat Nat where
  dict l := { blocks := l, offsets := [l.length] }
  parseDict _ b := .ok b
  typed l := { typesPresent := [1], typeOffsets := [], offsets := [l.length], blocks := l }
  parseTyped _ _ _ b := .ok b
  count b := .ok b.length
  log w l := w :: l
  parseLog
    | [] => .err
    | w :: l => .ok (w, l)
  logHeader
    | [] => .err
    | w :: l => .ok (l.length, w)
  bits l := { bits := l.map Bool.toNat, blocks := [], sblocks := [] }
  parseBits b _ _ := .ok (b.map (· == 1))
  bitsLen b := .ok b.length
  wavelet _ l := { bits := l, blocks := [], sblocks := [] }
  parseWavelet b _ _ _ := .ok b
  dict_ok _ _ := rfl
  typed_ok _ _ := rfl
  count_dict _ _ := rfl
  count_typed _ _ := rfl
  log_ok _ _ _ := rfl
  header_ok _ _ _ := rfl
  bits_ok l := by
    show Out.ok _ = Out.ok _
    rw [List.map_map]
    congr 1
    refine (List.map_congr_left (fun b _ => ?_)).trans (List.map_id l)
    cases b <;> rfl
  len_ok l := by simp
  wavelet_ok _ _ _ := rfl

/-- What is written for a layer, checked. -/
def writes (w : World Nat Nat) (P : Entry Nat Nat → Writes FileName → Bool) : Bool :=
  match w.store.get? 102 with
  | some e =>
    match writeLayer coder true e.data with
    | .ok ws => P e ws
    | _ => false
  | none => false

end Witness

/-- A layer with a parent is written to a directory and read back. It has one addition and one
removal; then it is exported, and imported into an archive store. -/
example (trunc : Bool) (oc : OffsetCodec) : ∃ (w : World Nat Nat) (e : Entry Nat Nat)
    (s3 : DirLayers) (pack : List PackEntry) (s4 : ArchStore), World.Run true w ∧
    w.store.get? 102 = some e ∧ e.data.pos.triples = some [⟨7, 4, 1⟩] ∧
    InStore Witness.coder (Backend.directory trunc) s3 ⟨0, 0, 0, 0, 7⟩ (some ⟨0, 0, 0, 0, 5⟩)
      e.data ∧
    additions Witness.coder (access (Backend.directory trunc) s3 ⟨0, 0, 0, 0, 7⟩) true true =
      .ok [⟨7, 4, 1⟩] ∧
    Pack.exportLayers (Backend.directory trunc) s3 [⟨0, 0, 0, 0, 7⟩] = .ok pack ∧
    Pack.importLayers (Backend.archive oc) {} pack [⟨0, 0, 0, 0, 7⟩] [⟨0, 0, 0, 0, 7⟩] = .ok s4 ∧
    InStore Witness.coder (Backend.archive oc) s4 ⟨0, 0, 0, 0, 7⟩ (some ⟨0, 0, 0, 0, 5⟩) e.data := by
  obtain ⟨w, hw, hP⟩ := Witness.reaches_run (safe := true) (cs := Witness.commits)
    (P := fun w => Witness.writes w (fun e ws => e.parent.isSome &&
      decide (1000 * ((putsOf ⟨0, 0, 0, 0, 7⟩ ws (some ⟨0, 0, 0, 0, 5⟩)).map
        (fun q => q.2.2.length)).sum < 2 ^ 64) &&
      decide (e.data.pos.triples = some [⟨7, 4, 1⟩])) = true) (by decide +kernel)
  unfold Witness.writes at hP
  cases he : w.store.get? 102 with
  | none => rw [he] at hP; cases hP
  | some e =>
    rw [he] at hP
    dsimp only at hP
    cases hws : writeLayer Witness.coder true e.data with
    | err => rw [hws] at hP; cases hP
    | panic => rw [hws] at hP; cases hP
    | ok ws =>
      rw [hws] at hP
      simp only [Bool.and_eq_true, decide_eq_true_eq] at hP
      obtain ⟨⟨h1, h2⟩, h3⟩ := hP
      have hp : (some (⟨0, 0, 0, 0, 5⟩ : LayerName)).isSome = e.parent.isSome := h1.symm
      obtain ⟨ws', g1, g2⟩ := C55_written Witness.coder hw he (B := .directory trunc)
        (s := ({} : DirLayers)) trivial (n := ⟨0, 0, 0, 0, 7⟩) rfl hp
      rw [h1, hws] at g1
      cases g1
      obtain ⟨s1, s2, s3, _, _, _, g3, _⟩ := g2 _ (List.Perm.refl _) (by omega)
      have hb := g3.bytes_le hws
      have hlen : (names true).length ≤ 1000 := by
        rw [← (Pack.packNames_perm true).length_eq, Pack.packNames_eq, List.length_map]
        decide +kernel
      obtain ⟨pack, s4, k1, k2, k3⟩ := C55_imported (c := Witness.coder) hw
        (K₁ := .directory trunc) (K₂ := .archive oc) (s₁ := s3) (s₂ := ({} : ArchStore)) trivial
        ⟨[], .start⟩ (ids := [⟨0, 0, 0, 0, 7⟩]) (sel := [⟨0, 0, 0, 0, 7⟩])
        (order := [⟨0, 0, 0, 0, 7⟩]) (by decide) (by decide) (fun _ h => h) (List.Perm.refl _)
        (fun n hn => by rw [List.mem_singleton.1 hn]; exact g3.dir) (layer := fun _ => e)
        (parent := fun _ => some ⟨0, 0, 0, 0, 5⟩)
        (fun n hn => by rw [List.mem_singleton.1 hn]; exact ⟨⟨102, he⟩, hp, g3⟩)
        (fun n _ => rfl)
        (fun n hn => by
          rw [List.mem_singleton.1 hn]
          refine Nat.lt_of_le_of_lt (hb.trans (Nat.mul_le_mul_right _ hlen)) h2)
      refine ⟨w, e, s3, pack, s4, hw, he, h3, g3, ?_, k1, k2, k3 _ (by simp)⟩
      obtain ⟨P, p1, p2⟩ := (C55_read_back hw he hp g3).additions
      rw [h3] at p1
      cases p1
      exact p2.all

end Verif
