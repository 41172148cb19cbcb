import Verif.Lemmas.LayerNames
import Verif.Lemmas.BackendArchive
import Verif.Lemmas.Getters

/-!
Layers whose files are in a store.
-/

set_option linter.unusedSectionVars false

namespace Verif.LayerFiles

open LayerSpec Pack

variable {K V : Type} [LinearOrder K] [LinearOrder V]

section
variable {c : Coder K V} {a : Access FileName} {child : Bool} {d : LayerData K V}

theorem Told.tells {x : TripleIndex} {P : List Triple} (hx : Stored x P) {all : Out (List Triple)}
    {mem : Triple → Out Bool} {bys : Nat → Out (List Triple)} {bysp : Nat → Nat → Out (List Triple)}
    {byp byo : Nat → Out (List Triple)} {count : Out Nat} (h : Told x all mem bys bysp byp byo count) :
    Tells P all mem bys bysp byp byo count := by
  refine ⟨hx.sorted, ?_, fun t => ?_, fun s => ?_, fun s p => ?_, fun p hp => ?_, fun o => ?_, ?_⟩
  · rw [h.all, hx.triples]; rfl
  · rw [h.mem, hx.contains]; rfl
  · rw [h.bys, hx.triplesS]; rfl
  · rw [h.bysp, hx.triplesSP]; rfl
  · rw [h.byp, hx.triplesP hp]; rfl
  · rw [h.byo, hx.storedTriplesO]; rfl
  · rw [h.count rfl, hx.count]; rfl

theorem Tells.nothing : Tells [] (.ok []) (fun _ => .ok false) (fun _ => .ok [])
    (fun _ _ => .ok []) (fun _ => .ok []) (fun _ => .ok []) (.ok 0) :=
  ⟨List.Pairwise.nil, rfl, fun _ => rfl, fun _ => rfl, fun _ _ => rfl, fun _ _ => rfl, fun _ => rfl,
    rfl⟩

theorem Kept.reads (h : Kept c a child d) {S : List (LayerData K V)} (hr : Reachable (d :: S)) :
    ReadsAs c a child d := by
  obtain ⟨Ps, Ns, hok⟩ := hr.good
  obtain ⟨P, N, Ps, Ns, rfl, rfl, _⟩ := hok.tail
  have hst : Stored d.pos P ∧ NegStored d.neg N := by
    cases hok.rep with
    | cons g1 g2 _ => exact ⟨g1, g2⟩
  refine ⟨?_, h.nodeDictionary, h.predicateDictionary, h.valueDictionary, h.nodeCount,
    h.predicateCount, h.valueCount, h.nodeValueIdMap, h.predicateIdMap,
    ⟨P, hst.1.triples, h.additions.tells hst.1⟩, ?_⟩
  · intro T hT
    cases child with
    | false =>
      have e : T = [] := hT.resolve_left (fun e => by cases e)
      subst e
      show (baseLayerFiles .ok).bind (fun f => LayerFiles.loadBase c a f) = _
      rw [baseLayerFiles_eq]
      exact h.loadBase
    | true =>
      show (childLayerFiles .ok).bind (fun f => LayerFiles.loadChild c a f T) = _
      rw [childLayerFiles_eq]
      exact h.loadChild T
  · cases child with
    | false =>
      have hn := (h.base rfl).1.2
      have hN : N = [] := by
        have := hst.2
        rw [hn] at this
        exact this
      subst hN
      refine ⟨[], ?_, Tells.nothing⟩
      unfold Stack.removals Stack.onRemovals
      rw [hn]
    | true =>
      obtain ⟨x, hx, ht⟩ := h.removals
      have hs := hst.2
      rw [hx] at hs
      have hs' : Stored x N := hs
      refine ⟨N, ?_, ht.tells hs'⟩
      unfold Stack.removals Stack.onRemovals
      rw [hx]
      exact hs'.triples

end

/-! ### Files with the same answers -/

theorem readParentFile_parentFile (p : LayerName) : readParentFile (parentFile p) = .ok p := by
  unfold readParentFile parentFile bytesToName
  have hl := nameToString_length p
  rw [if_neg (by omega), List.take_of_length_le (by omega), if_neg (by omega),
    utf8Lossy_ascii _ nameToString_ascii, stringToName_nameToString]

/-- The files that were written are there, and no other files of the layer. -/
structure There (a : Access FileName) (child : Bool) (ws : Writes FileName) : Prop where
  has : Has a ws
  absent : ∀ f ∈ packNames child, f ∉ ws.map (·.1) → f ≠ FileName.parent → Holds a f none

theorem Holds.congr {a a' : Access FileName} {f : FileName} {x : Option Bytes}
    (he : a'.ex f = a.ex f) (hm : a'.map f = a.map f) (h : Holds a f x) : Holds a' f x :=
  ⟨he.trans h.ex, fun b hb => hm.trans (h.map b hb)⟩

theorem There.congr {a a' : Access FileName} {child : Bool} {ws : Writes FileName}
    (h : There a child ws) (hk : ∀ q ∈ ws, q.1 ∈ packNames child)
    (hs : ∀ f ∈ packNames child, a'.ex f = a.ex f ∧ a'.map f = a.map f) : There a' child ws :=
  ⟨fun q hq => (h.has q hq).congr (hs _ (hk q hq)).1 (hs _ (hk q hq)).2,
    fun f hf h1 h2 => (h.absent f hf h1 h2).congr (hs f hf).1 (hs f hf).2⟩

theorem _root_.Verif.Backend.Answers.holds {B : Backend} {s : B.State} {n : LayerName}
    {f : FileName} {x : Option Bytes} (h : B.Answers s n f x) : Holds (access B s n) f x :=
  ⟨h.ex, fun b hb => (h.present b hb).1⟩

theorem mem_putsOf {n : LayerName} {ws : Writes FileName} {parent : Option LayerName} {q : Put} :
    q ∈ putsOf n ws parent ↔ q.1 = n ∧ ((q.2.1, q.2.2) ∈ ws ∨
      ∃ p, parent = some p ∧ q.2.1 = FileName.parent ∧ q.2.2 = parentFile p) := by
  obtain ⟨m, f, b⟩ := q
  unfold putsOf
  rw [List.mem_append, List.mem_map]
  constructor
  · rintro (⟨⟨g, b'⟩, h1, h2⟩ | h)
    · cases h2
      exact ⟨rfl, Or.inl h1⟩
    · cases parent with
      | none => cases h
      | some p =>
        have := List.mem_singleton.1 h
        cases this
        exact ⟨rfl, Or.inr ⟨p, rfl, rfl, rfl⟩⟩
  · rintro ⟨h1, h2 | ⟨p, h3, h4, h5⟩⟩
    · dsimp only at h1 h2
      subst h1
      exact Or.inl ⟨(f, b), h2, rfl⟩
    · dsimp only at h1 h4 h5
      subst h1 h3 h4 h5
      exact Or.inr (List.mem_singleton.2 rfl)

section
variable {nv pm : Bool} {n : LayerName} {ws : Writes FileName} {parent : Option LayerName}

theorem putsOf_names (hk : ws.map (·.1) = keys parent.isSome nv pm) :
    ∀ q ∈ putsOf n ws parent, q.2.1 ∈ packNames parent.isSome := by
  intro q hq
  rcases (mem_putsOf.1 hq).2 with h | ⟨p, h1, h2, _⟩
  · refine keys_sub _ nv pm _ ?_
    rw [← hk]
    exact List.mem_map.2 ⟨_, h, rfl⟩
  · rw [h2, parent_packNames, h1]
    rfl

theorem putsOf_nodup (hk : ws.map (·.1) = keys parent.isSome nv pm) :
    ((putsOf n ws parent).map (fun p => p.2.1)).Nodup := by
  unfold putsOf
  rw [List.map_append, List.map_map]
  have e : (ws.map ((fun p : Put => p.2.1) ∘ fun q => (n, q.1, q.2))) = ws.map (·.1) :=
    List.map_congr_left (fun _ _ => rfl)
  rw [e, hk]
  refine List.nodup_append.2 ⟨keys_nodup _ _ _, ?_, ?_⟩
  · cases parent with
    | none => exact List.nodup_nil
    | some p => exact List.nodup_cons.2 ⟨by simp, List.nodup_nil⟩
  · intro f hf g hg e
    subst e
    cases parent with
    | none => cases hg
    | some p =>
      have := List.mem_singleton.1 hg
      subst this
      exact keys_parent _ _ _ hf

theorem putsOf_allowed (hk : ws.map (·.1) = keys parent.isSome nv pm) {puts : List Put}
    (hp : puts.Perm (putsOf n ws parent)) (hs : (puts.map (fun q => q.2.2.length)).sum < 2 ^ 64) :
    Backend.Allowed [n] puts := by
  have hn : ∀ q ∈ puts, q.2.1 ∈ packNames parent.isSome :=
    fun q hq => putsOf_names hk q (hp.mem_iff.1 hq)
  have h1 : ∀ q ∈ puts, q.1 = n := fun q hq => (mem_putsOf.1 (hp.mem_iff.1 hq)).1
  refine ⟨fun q hq => by rw [h1 q hq]; simp, fun q hq => packNames_kinds _ _ (hn q hq), ?_, ?_,
    fun q hq hkd => packNames_parent _ _ (hn q hq) hkd⟩
  · have hnd : (puts.map (fun q => q.2.1)).Nodup := (hp.map _).nodup_iff.2 (putsOf_nodup hk)
    refine List.pairwise_map.2 ((List.pairwise_map.1 hnd).imp_of_mem ?_)
    intro q r hq hr hne e
    exact hne (kind_inj (hn q hq) (hn r hr) (congrArg Prod.snd e))
  · intro m hm
    have hm' := List.mem_singleton.1 hm
    subst hm'
    rw [List.filter_eq_self.2 (fun q hq => by simpa using h1 q hq)]
    exact hs

/-- A layer whose files are put into a store is there. -/
theorem filled_answers {B : Backend} {s : B.State} (hk : ws.map (·.1) = keys parent.isSome nv pm)
    {puts : List Put} (hp : puts.Perm (putsOf n ws parent)) (hf : B.Filled s puts n) :
    (∀ f ∈ packNames parent.isSome,
      (∀ b, (n, f, b) ∈ putsOf n ws parent → B.Answers s n f (some b)) ∧
      ((∀ b, (n, f, b) ∉ putsOf n ws parent) → B.Answers s n f none)) ∧
    B.layerParent s n = .ok parent ∧ B.fileExists s n FileName.parent = .ok parent.isSome := by
  obtain ⟨h1, h2, h3, h4, h5, h6⟩ := hf
  have hn : ∀ q ∈ puts, q.2.1 ∈ packNames parent.isSome :=
    fun q hq => putsOf_names hk q (hp.mem_iff.1 hq)
  have habs : ∀ f ∈ packNames parent.isSome, (∀ b, (n, f, b) ∉ puts) → B.Answers s n f none := by
    intro f hf hb
    obtain ⟨k, g1, g2⟩ := packNames_kinds _ f hf
    refine h3 f k g1 g2 (fun f' b' hb' e => ?_)
    have := kind_inj hf (hn _ hb') (g1.trans e.symm)
    subst this
    exact hb b' hb'
  have hpar : ∀ b, (n, FileName.parent, b) ∈ puts ↔ ∃ p, parent = some p ∧ b = parentFile p := by
    intro b
    rw [hp.mem_iff, mem_putsOf]
    constructor
    · rintro ⟨_, g | ⟨p, g1, _, g3⟩⟩
      · exfalso
        refine keys_parent parent.isSome nv pm ?_
        rw [← hk]
        exact List.mem_map.2 ⟨_, g, rfl⟩
      · exact ⟨p, g1, g3⟩
    · rintro ⟨p, g1, g2⟩
      exact ⟨rfl, Or.inr ⟨p, g1, rfl, g2⟩⟩
  refine ⟨fun f hf => ⟨fun b hb => h2 f b (hp.mem_iff.2 hb),
    fun hb => habs f hf (fun b hb' => hb b (hp.mem_iff.1 hb'))⟩, ?_, ?_⟩
  · cases hpa : parent with
    | none =>
      refine h5 (fun b hb => ?_)
      obtain ⟨p, g, _⟩ := (hpar b).1 hb
      rw [hpa] at g
      cases g
    | some p =>
      refine h6 (parentFile p) p ((hpar _).2 ⟨p, hpa, rfl⟩) ?_
      exact readParentFile_parentFile p
  · cases hpa : parent with
    | none =>
      have hh := hpar
      rw [hpa] at hh
      have hbb : ∀ b, (n, FileName.parent, b) ∉ puts := fun b hb => by
        obtain ⟨p, g, _⟩ := (hh b).1 hb
        cases g
      obtain ⟨k, g1, g2⟩ := packNames_kinds true FileName.parent ((parent_packNames true).2 rfl)
      refine (h3 FileName.parent k g1 g2 (fun f' b' hb' e => ?_)).ex
      have hm := hn _ hb'
      have hkp : k = FileKind.parent := by
        have : FileName.kind FileName.parent = .ok FileKind.parent := by
          rw [parent_eq, kind_eq parentT_ascii]; decide +kernel
        rw [this] at g1
        cases g1
        rfl
      rw [hkp] at e
      have := packNames_parent _ _ hm e
      dsimp only at this
      subst this
      exact hbb b' hb'
    | some p => exact (h2 _ _ ((hpar _).2 ⟨p, hpa, rfl⟩)).ex

/-- What is written, apart from the parent file. -/
theorem mem_putsOf_ws {f : FileName} {b : Bytes}
    (hf : f ≠ FileName.parent) : (n, f, b) ∈ putsOf n ws parent ↔ (f, b) ∈ ws := by
  rw [mem_putsOf]
  constructor
  · rintro ⟨_, h | ⟨_, _, h, _⟩⟩
    · exact h
    · exact absurd h hf
  · exact fun h => ⟨rfl, Or.inl h⟩

end

end Verif.LayerFiles
