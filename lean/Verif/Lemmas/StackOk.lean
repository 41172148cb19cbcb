import Verif.Lemmas.StackQuery
import Verif.Lemmas.Ids

/-!
The invariant of a stack of layers: dictionaries, id maps, recorded counts and
triple structures fit together.
-/

set_option linter.unusedSectionVars false
set_option linter.unusedVariables false

namespace Verif

variable {K V : Type}

/-- The ids of the stored additions of a layer are known to that layer. -/
def RangeOk : List (LayerData K V) → List (List Triple) → Prop
  | d :: S, P :: Ps =>
    (∀ t ∈ P, t.s ≤ Stack.nvCount (d :: S) ∧ t.p ≤ Stack.pCount (d :: S) ∧
      t.o ≤ Stack.nvCount (d :: S)) ∧ RangeOk S Ps
  | _, _ => True

/-- The dictionaries of a layer are sorted. -/
def DictSorted [LinearOrder K] [LinearOrder V] (d : LayerData K V) : Prop :=
  SortedLt d.nodes ∧ SortedLt d.preds ∧ SortedLt d.values

/-- The invariant of a stack whose layers store the additions `Ps` and removals `Ns`. -/
structure StackOk [LinearOrder K] [LinearOrder V] (S : List (LayerData K V))
    (Ps Ns : List (List Triple)) : Prop where
  rep : StackRep S Ps Ns
  wf : ∀ t, wellFormed Ps Ns t
  counts : CountsOk S
  nv : LvOk (nvLevels S)
  pr : LvOk (pLevels S)
  sorted : ∀ d ∈ S, DictSorted d
  range : RangeOk S Ps

/-- A stack of layers in a state the library produces. -/
def StackGood [LinearOrder K] [LinearOrder V] (S : List (LayerData K V)) : Prop :=
  ∃ Ps Ns, StackOk S Ps Ns

/-- A triple of dictionary entries; the subject may be a value, since id triples
may say so. -/
structure GTriple (K V : Type) where
  s : Obj K V
  p : K
  o : Obj K V
deriving DecidableEq

/-- A value triple as a triple of entries. -/
def VTriple.toG (t : VTriple K V) : GTriple K V := ⟨.node t.s, t.p, t.o⟩

/-- The id triple `t` stands for the entries of `g` in the stack `S`. -/
def Res [DecidableEq K] [DecidableEq V] (S : List (LayerData K V)) (g : GTriple K V)
    (t : Triple) : Prop :=
  Stack.objectId S g.s = some (some t.s) ∧ Stack.predId S g.p = some (some t.p) ∧
    Stack.objectId S g.o = some (some t.o)

/-- The stack contains the triple of entries `g`. -/
def content [DecidableEq K] [DecidableEq V] (S : List (LayerData K V)) (g : GTriple K V) : Prop :=
  ∃ t, Res S g t ∧ Stack.tripleExists S t = some true

section
variable [LinearOrder K] [LinearOrder V] {S : List (LayerData K V)} {Ps Ns : List (List Triple)}

theorem StackOk.nil : StackOk ([] : List (LayerData K V)) [] [] where
  rep := .nil
  wf := by intro t; simp [wellFormed]
  counts := trivial
  nv := trivial
  pr := trivial
  sorted := by simp
  range := trivial

theorem StackOk.tail {d : LayerData K V} (h : StackOk (d :: S) Ps Ns) :
    ∃ P N Ps' Ns', Ps = P :: Ps' ∧ Ns = N :: Ns' ∧ StackOk S Ps' Ns' := by
  obtain ⟨h1, h2, h3, h4, h5, h6, h7⟩ := h
  cases h1 with
  | cons g1 g2 g3 =>
    rename_i P N Ps' Ns'
    refine ⟨P, N, Ps', Ns', rfl, rfl, g3, ?_, h3.2.2, h4.2.2.2, h5.2.2.2, ?_, h7.2⟩
    · intro t
      exact (h2 t).2.2
    · intro e he
      exact h6 e (by simp [he])

theorem StackOk.suffix {T : List (LayerData K V)} : ∀ {Ps Ns}, StackOk (T ++ S) Ps Ns →
    ∃ Ps' Ns', StackOk S Ps' Ns' := by
  induction T with
  | nil => intro Ps Ns h; exact ⟨_, _, h⟩
  | cons d T ih =>
    intro Ps Ns h
    rw [List.cons_append] at h
    obtain ⟨_, _, _, _, _, _, h'⟩ := h.tail
    exact ih h'

/-- Adding a layer. -/
theorem StackOk.cons {d : LayerData K V} {P N : List Triple} (h : StackOk S Ps Ns)
    (hP : Stored d.pos P) (hN : NegStored d.neg N)
    (hPa : ∀ t ∈ P, ¬ present Ps Ns t) (hNp : ∀ t ∈ N, present Ps Ns t)
    (hc : d.parentNV = Stack.nvCount S ∧ d.parentP = Stack.pCount S)
    (hs : DictSorted d)
    (hn : ∀ k ∈ d.nodes, ∀ e ∈ S, k ∉ e.nodes) (hv : ∀ v ∈ d.values, ∀ e ∈ S, v ∉ e.values)
    (hp : ∀ p ∈ d.preds, ∀ e ∈ S, p ∉ e.preds)
    (hnm : IdMapOk d.nvMap (d.nodes.length + d.values.length))
    (hpm : IdMapOk d.pMap d.preds.length)
    (hr : ∀ t ∈ P, t.s ≤ Stack.nvCount (d :: S) ∧ t.p ≤ Stack.pCount (d :: S) ∧
      t.o ≤ Stack.nvCount (d :: S)) :
    StackOk (d :: S) (P :: Ps) (N :: Ns) where
  rep := .cons hP hN h.rep
  wf := fun t => ⟨hPa t, hNp t, h.wf t⟩
  counts := ⟨hc.1, hc.2, h.counts⟩
  nv := by
    refine ⟨?_, ?_, by rw [LayerData.objs_length]; exact hnm, h.nv⟩
    · unfold LayerData.objs
      rw [List.nodup_append]
      refine ⟨?_, ?_, ?_⟩
      · exact List.Nodup.map (fun a b => obj_node_inj a b) hs.1.nodup
      · exact List.Nodup.map (fun a b => obj_value_inj a b) hs.2.2.nodup
      · intro a ha b hb hab
        obtain ⟨k, _, rfl⟩ := List.mem_map.1 ha
        obtain ⟨v, _, rfl⟩ := List.mem_map.1 hb
        cases hab
    · intro a ha e he hae
      obtain ⟨e', he', rfl⟩ := List.mem_map.1 he
      simp only [LayerData.objs, List.mem_append, List.mem_map] at ha hae
      rcases ha with ⟨k, hk, rfl⟩ | ⟨k, hk, rfl⟩
      · rcases hae with ⟨k', hk', e⟩ | ⟨k', hk', e⟩
        · cases e; exact hn k hk e' he' hk'
        · cases e
      · rcases hae with ⟨k', hk', e⟩ | ⟨k', hk', e⟩
        · cases e
        · cases e; exact hv k hk e' he' hk'
  pr := by
    refine ⟨hs.2.1.nodup, ?_, hpm, h.pr⟩
    intro a ha e he hae
    obtain ⟨e', he', rfl⟩ := List.mem_map.1 he
    exact hp a ha e' he' hae
  sorted := by
    intro e he
    rcases List.mem_cons.1 he with rfl | he
    · exact hs
    · exact h.sorted e he
  range := ⟨hr, h.range⟩

theorem StackOk.nvCount (h : StackOk S Ps Ns) : Stack.nvCount S = lvCount (nvLevels S) :=
  nvCount_eq h.counts

theorem StackOk.pCount (h : StackOk S Ps Ns) : Stack.pCount S = lvCount (pLevels S) :=
  pCount_eq h.counts

theorem StackOk.exists_iff (h : StackOk S Ps Ns) (t : Triple) :
    Stack.tripleExists S t = some true ↔ present Ps Ns t := by
  obtain ⟨b, h1, h2⟩ := h.rep.tripleExists t
  rw [h1, ← h2]
  simp

theorem StackOk.exists_total (h : StackOk S Ps Ns) (t : Triple) :
    ∃ b, Stack.tripleExists S t = some b ∧ (b = true ↔ present Ps Ns t) := h.rep.tripleExists t

theorem nvCount_mono (h : CountsOk S) (d : LayerData K V) (hd : CountsOk (d :: S)) :
    Stack.nvCount S ≤ Stack.nvCount (d :: S) := by
  have := hd.1
  simp only [Stack.nvCount] at this ⊢
  omega

theorem pCount_mono (d : LayerData K V) (hd : CountsOk (d :: S)) :
    Stack.pCount S ≤ Stack.pCount (d :: S) := by
  have := hd.2.1
  simp only [Stack.pCount] at this ⊢
  omega

theorem present_range : ∀ {S : List (LayerData K V)} {Ps Ns : List (List Triple)},
    StackRep S Ps Ns → CountsOk S → RangeOk S Ps → ∀ {t}, present Ps Ns t →
    t.s ≤ Stack.nvCount S ∧ t.p ≤ Stack.pCount S ∧ t.o ≤ Stack.nvCount S
  | [], [], [], _, _, _, t, h => by simp [present] at h
  | d :: S, P :: Ps, N :: Ns, .cons _ _ h3, hc, hr, t, h => by
    simp only [present] at h
    rcases h with h | ⟨_, h⟩
    · exact hr.1 t h
    · have ih := present_range h3 hc.2.2 hr.2 h
      have h1 := nvCount_mono hc.2.2 d hc
      have h2 := pCount_mono d hc
      omega

theorem StackOk.present_range (h : StackOk S Ps Ns) {t : Triple} (ht : present Ps Ns t) :
    t.s ≤ Stack.nvCount S ∧ t.p ≤ Stack.pCount S ∧ t.o ≤ Stack.nvCount S :=
  Verif.present_range h.rep h.counts h.range ht

theorem StackOk.present_nonzero (h : StackOk S Ps Ns) {t : Triple} (ht : present Ps Ns t) :
    t.Nonzero := by
  obtain ⟨P, hP, htP⟩ := present_mem ht
  exact h.rep.nonzeroP P hP t htP

/-- Entries are determined by ids. -/
theorem Res.inj (h : StackOk S Ps Ns) {g g' : GTriple K V} {t : Triple} (h1 : Res S g t)
    (h2 : Res S g' t) : g = g' := by
  obtain ⟨a1, a2, a3⟩ := h1
  obtain ⟨b1, b2, b3⟩ := h2
  rw [objectId_eq h.counts] at a1 a3 b1 b3
  rw [predId_eq h.counts] at a2 b2
  have key : ∀ {α : Type} [DecidableEq α] {L : List (List α × IdMap)}, LvOk L → ∀ {a b : α} {i},
      lvId L a = some (some i) → lvId L b = some (some i) → a = b := by
    intro α _ L hL a b i ha hb
    have hi : i ≠ 0 := by
      rcases lvId_total hL a with ⟨j, q1, q2, _⟩ | ⟨q1, _⟩
      · rw [ha] at q1; simp only [Option.some.injEq] at q1; omega
      · rw [ha] at q1; cases q1
    have h1 := (lv_iff hL hi).1 ha
    have h2 := (lv_iff hL hi).1 hb
    rw [h1] at h2
    simpa using h2
  obtain ⟨gs, gp, go⟩ := g
  obtain ⟨gs', gp', go'⟩ := g'
  simp only at a1 a2 a3 b1 b2 b3
  rw [key h.nv a1 b1, key h.pr a2 b2, key h.nv a3 b3]

/-- Ids are determined by entries. -/
theorem Res.unique {g : GTriple K V} {t t' : Triple} (h1 : Res S g t) (h2 : Res S g t') :
    t = t' := by
  obtain ⟨a1, a2, a3⟩ := h1
  obtain ⟨b1, b2, b3⟩ := h2
  rw [a1] at b1; rw [a2] at b2; rw [a3] at b3
  simp only [Option.some.injEq] at b1 b2 b3
  exact (Triple.eq_iff _ _).2 ⟨b1, b2, b3⟩

theorem Res.range (h : StackOk S Ps Ns) {g : GTriple K V} {t : Triple} (h1 : Res S g t) :
    t.Nonzero ∧ t.s ≤ Stack.nvCount S ∧ t.p ≤ Stack.pCount S ∧ t.o ≤ Stack.nvCount S := by
  obtain ⟨a1, a2, a3⟩ := h1
  rw [objectId_eq h.counts] at a1 a3
  rw [predId_eq h.counts] at a2
  have key : ∀ {α : Type} [DecidableEq α] {L : List (List α × IdMap)}, LvOk L → ∀ {a : α} {i},
      lvId L a = some (some i) → 1 ≤ i ∧ i ≤ lvCount L := by
    intro α _ L hL a i ha
    rcases lvId_total hL a with ⟨j, q1, q2, q3, _⟩ | ⟨q1, _⟩
    · rw [ha] at q1; simp only [Option.some.injEq] at q1; omega
    · rw [ha] at q1; cases q1
  have k1 := key h.nv a1
  have k2 := key h.pr a2
  have k3 := key h.nv a3
  rw [h.nvCount, h.pCount]
  refine ⟨⟨?_, ?_, ?_⟩, ?_, ?_, ?_⟩ <;> omega

/-- Nonzero ids within the counts stand for entries. -/
theorem Res.exists (h : StackOk S Ps Ns) {t : Triple} (h0 : t.Nonzero)
    (h1 : t.s ≤ Stack.nvCount S) (h2 : t.p ≤ Stack.pCount S) (h3 : t.o ≤ Stack.nvCount S) :
    ∃ g, Res S g t := by
  obtain ⟨z1, z2, z3⟩ := h0
  rw [h.nvCount] at h1 h3
  rw [h.pCount] at h2
  have key : ∀ {α : Type} [DecidableEq α] {L : List (List α × IdMap)}, LvOk L → ∀ {i}, i ≠ 0 →
      i ≤ lvCount L → ∃ a : α, lvId L a = some (some i) := by
    intro α _ L hL i hi hle
    rcases lvGet_total hL i (by omega) with ⟨a, _, _, q⟩ | ⟨_, q⟩
    · exact ⟨a, q⟩
    · omega
  obtain ⟨a, ha⟩ := key h.nv (by omega) h1
  obtain ⟨b, hb⟩ := key h.pr (by omega) h2
  obtain ⟨c, hc⟩ := key h.nv (by omega) h3
  refine ⟨⟨a, b, c⟩, ?_, ?_, ?_⟩
  · rw [objectId_eq h.counts]; exact ha
  · rw [predId_eq h.counts]; exact hb
  · rw [objectId_eq h.counts]; exact hc

/-- Ids of the parent stay what they are. -/
theorem Res.up {d : LayerData K V} {Ps' Ns' : List (List Triple)} (h : StackOk S Ps Ns)
    (h' : StackOk (d :: S) Ps' Ns') {g : GTriple K V} {t : Triple} (hr : Res S g t) :
    Res (d :: S) g t := by
  obtain ⟨a1, a2, a3⟩ := hr
  rw [objectId_eq h.counts] at a1 a3
  rw [predId_eq h.counts] at a2
  refine ⟨?_, ?_, ?_⟩
  · rw [objectId_eq h'.counts]; exact lvId_cons_low h'.nv a1
  · rw [predId_eq h'.counts]; exact lvId_cons_low h'.pr a2
  · rw [objectId_eq h'.counts]; exact lvId_cons_low h'.nv a3

/-- An id triple within the counts of the parent means the same in parent and child. -/
theorem Res.down {d : LayerData K V} {Ps' Ns' : List (List Triple)} (h : StackOk S Ps Ns)
    (h' : StackOk (d :: S) Ps' Ns') {g : GTriple K V} {t : Triple} (hr : Res (d :: S) g t)
    (h1 : t.s ≤ Stack.nvCount S) (h2 : t.p ≤ Stack.pCount S) (h3 : t.o ≤ Stack.nvCount S) :
    Res S g t := by
  obtain ⟨g', hg'⟩ := Res.exists h (Res.range h' hr).1 h1 h2 h3
  have := Res.inj h' (Res.up h h' hg') hr
  rw [← this]; exact hg'

theorem content_iff (h : StackOk S Ps Ns) (g : GTriple K V) :
    content S g ↔ ∃ t, Res S g t ∧ present Ps Ns t := by
  unfold content
  simp only [h.exists_iff]

end

end Verif
