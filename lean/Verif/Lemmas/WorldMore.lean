import Verif.Lemmas.WorldParents
import Verif.Lemmas.AnswersOk

/-!
Consequences of the invariants of the world for the property theorems.
-/

set_option linter.unusedSectionVars false
set_option linter.unusedVariables false

namespace Verif

open SimpleBuilder Spec

variable {K V : Type} [LinearOrder K] [LinearOrder V]

/-! ### The parent links of a history -/

namespace Spec.History

variable {T : Type} {h : History T}

theorem Line.unique {n : Nat} {ns ms : List Nat} (h1 : h.Line n ns) (h2 : h.Line n ms) : ns = ms := by
  induction h1 generalizing ms with
  | root g =>
    cases h2 with
    | root _ => rfl
    | step g' _ => rw [g] at g'; cases g'
  | step g _ ih =>
    cases h2 with
    | root g' => rw [g] at g'; cases g'
    | step g' k =>
      rw [g] at g'
      cases g'
      rw [ih k]

theorem Line.ancestor {n : Nat} {ns : List Nat} (h1 : h.Line n ns) (a : Nat) :
    a ∈ ns ↔ h.Ancestor a n := by
  induction h1 with
  | @root n g =>
    simp only [List.mem_cons, List.not_mem_nil, or_false]
    constructor
    · rintro rfl
      exact .self _
    · intro ha
      cases ha with
      | self => rfl
      | up g' _ => rw [g] at g'; cases g'
  | @step n p ns g _ ih =>
    rw [List.mem_append, ih]
    simp only [List.mem_cons, List.not_mem_nil, or_false]
    constructor
    · rintro (ha | rfl)
      · exact .up g ha
      · exact .self _
    · intro ha
      cases ha with
      | self => exact Or.inr rfl
      | up g' k =>
        rw [g] at g'
        cases g'
        exact Or.inl k

theorem Line.head {n : Nat} {ns : List Nat} (h1 : h.Line n ns) :
    ∃ b, ns.head? = some b ∧ h.parent b = none := by
  induction h1 with
  | root g => exact ⟨_, rfl, g⟩
  | @step n p ns g _ ih =>
    obtain ⟨b, h1, h2⟩ := ih
    refine ⟨b, ?_, h2⟩
    cases ns with
    | nil => cases h1
    | cons a l => exact h1

end Spec.History

namespace Store

variable {st st' : Store K V} {T : Type} {log : History T}

theorem Chain.line (hp : ∀ n, st.parent? n = log.parent n) {n : Name} {ns : List Name}
    (h : Chain st n ns) : log.Line n ns.reverse := by
  induction h with
  | base g1 g2 => exact .root (by rw [← hp]; exact g2)
  | child g1 g2 ih =>
    rw [List.reverse_cons]
    exact .step (by rw [← hp]; exact g1) ih

theorem Closed.line (hc : Closed st) (hp : ∀ n, st.parent? n = log.parent n) (n : Name) :
    ∃ ns, log.Line n ns.reverse ∧ ns.length ≤ st.fuel ∧
      ((Chain st n ns) ∨ (st.parent? n = none ∧ ns = [n])) := by
  by_cases hh : st.has n = true
  · obtain ⟨ns, h1, h2⟩ := hc n hh
    exact ⟨ns, h1.line hp, by unfold fuel; omega, Or.inl h1⟩
  · have : st.parent? n = none := by
      unfold Store.has at hh
      unfold Store.parent?
      cases hg : st.get? n with
      | none => rfl
      | some e => simp [hg] at hh
    refine ⟨[n], ?_, by simp [fuel], Or.inr ⟨this, rfl⟩⟩
    exact .root (by rw [← hp]; exact this)

theorem Closed.stackNames (hc : Closed st) (hp : ∀ n, st.parent? n = log.parent n) (n : Name) :
    ∃ ns, log.Line n ns ∧ st.stackNames n = .ok ns := by
  obtain ⟨ns, h1, h2, h3⟩ := hc.line hp n
  refine ⟨ns.reverse, h1, ?_⟩
  unfold Store.stackNames
  rcases h3 with h3 | ⟨h3, rfl⟩
  · simp only [stackNamesLoop_eq h3 st.fuel h2, Out.ok_bind, Out.pure_eq]
  · simp only [fuel, stackNamesLoop, h3, Out.ok_bind, Out.pure_eq]

theorem Closed.isAncestor (hc : Closed st) (hp : ∀ n, st.parent? n = log.parent n) (n a : Name) :
    ∃ b, st.isAncestor n a = .ok b ∧ (b = true ↔ log.Ancestor a n) := by
  obtain ⟨ns, h1, h2, h3⟩ := hc.line hp n
  refine ⟨decide (a ∈ ns), ?_, by rw [← h1.ancestor]; simp⟩
  unfold Store.isAncestor
  rcases h3 with h3 | ⟨h3, rfl⟩
  · exact isAncestorLoop_eq a h3 st.fuel h2
  · by_cases ha : a = n <;> simp [fuel, isAncestorLoop, h3, ha]

theorem Chain.upto {upto n : Name} {ns : List Name} (h : Chain st n ns) :
    ∀ f, ns.length ≤ f →
      (upto ∈ ns.tail → ∃ r us, stackNamesUptoLoop st upto f n = .ok r ∧ Chain st upto us ∧
        ns = r ++ us ∧ r ≠ []) ∧
      (upto ∉ ns.tail → stackNamesUptoLoop st upto f n = .err) := by
  induction h with
  | base g1 g2 =>
    intro f hf
    obtain ⟨f, rfl⟩ : ∃ g, f = g + 1 := ⟨f - 1, by simp at hf; omega⟩
    simp [stackNamesUptoLoop, g2]
  | @child n p ns g1 g2 ih =>
    intro f hf
    obtain ⟨f, rfl⟩ : ∃ g, f = g + 1 := ⟨f - 1, by simp at hf; omega⟩
    obtain ⟨k1, k2⟩ := ih f (by simpa using hf)
    have hhead := g2.head
    obtain ⟨ns', rfl⟩ : ∃ ns', ns = p :: ns' := by
      cases ns with
      | nil => cases hhead
      | cons a l => simp only [List.head?_cons, Option.some.injEq] at hhead; exact ⟨l, by rw [hhead]⟩
    simp only [List.tail_cons] at k1 k2 ⊢
    simp only [stackNamesUptoLoop, g1]
    by_cases hpu : p = upto
    · subst hpu
      simp only [if_true]
      exact ⟨fun _ => ⟨[n], _, rfl, g2, rfl, by simp⟩, fun h => absurd (List.mem_cons_self ..) h⟩
    · simp only [hpu, if_false]
      constructor
      · intro hm
        obtain ⟨r, us, e1, e2, e3, e4⟩ := k1 ((List.mem_cons.1 hm).resolve_left (Ne.symm hpu))
        refine ⟨n :: r, us, ?_, e2, by rw [e3]; rfl, by simp⟩
        simp only [e1, Out.ok_bind, Out.pure_eq]
      · intro hm
        have := k2 (fun h => hm (List.mem_cons_of_mem _ h))
        rw [this]
        rfl

/-- `retrieve_layer_stack_names_upto`. -/
theorem Closed.stackNamesUpto (hc : Closed st) (hp : ∀ n, st.parent? n = log.parent n)
    (n upto : Name) :
    ((∃ p, log.parent n = some p ∧ log.Ancestor upto p) →
      ∃ ns us, st.stackNamesUpto n upto = .ok ns ∧ log.Line upto us ∧ log.Line n (us ++ ns) ∧
        ns ≠ []) ∧
    ((¬ ∃ p, log.parent n = some p ∧ log.Ancestor upto p) → st.stackNamesUpto n upto = .err) := by
  obtain ⟨ns, h1, h2, h3⟩ := hc.line hp n
  rcases h3 with h3 | ⟨h3, rfl⟩
  · have hstrict : upto ∈ ns.tail ↔ ∃ p, log.parent n = some p ∧ log.Ancestor upto p := by
      cases h3 with
      | base g1 g2 => simp [← hp, g2]
      | child g1 g2 =>
        rw [List.tail_cons, ← List.mem_reverse, (g2.line hp).ancestor, ← hp, g1]
        simp
    obtain ⟨k1, k2⟩ := h3.upto (upto := upto) st.fuel h2
    constructor
    · intro ha
      obtain ⟨r, us, e1, e2, e3, e4⟩ := k1 (hstrict.2 ha)
      refine ⟨r.reverse, us.reverse, ?_, e2.line hp, ?_, by simpa using e4⟩
      · simp only [Store.stackNamesUpto, e1, Out.ok_bind, Out.pure_eq]
      · rw [← List.reverse_append, ← e3]
        exact h1
    · intro ha
      simp only [Store.stackNamesUpto, k2 (fun h => ha (hstrict.1 h))]
      rfl
  · rw [← hp, h3]
    refine ⟨by simp, fun _ => ?_⟩
    simp only [Store.stackNamesUpto, fuel, stackNamesUptoLoop, h3]
    rfl

theorem loadNames_total (ns : List Name) (h : ∀ n ∈ ns, st.has n = true) :
    ∃ T, st.loadNames ns = .ok T := by
  induction ns with
  | nil => exact ⟨[], rfl⟩
  | cons n ns ih =>
    obtain ⟨T, hT⟩ := ih (fun m hm => h m (List.mem_cons_of_mem _ hm))
    obtain ⟨e, he⟩ := has_iff.1 (h n (List.mem_cons_self ..))
    exact ⟨e.data :: T, by simp only [loadNames, load, he, hT, Out.ok_bind, Out.pure_eq]⟩

/-! ### The operations succeed -/

theorem performRollup_total (ho : Ok st) {l : InternalLayer K V} (hl : LayerOk st l) :
    ∃ pl, performRollup st l = .ok pl := by
  obtain ⟨Ps, Ns, hok⟩ := (hl.reachable ho).good
  obtain ⟨d, P, h1, _⟩ := Rollup.deltaRollup_spec hok
  unfold performRollup
  simp only [h1, Out.ofOption, Out.ok_bind, Out.pure_eq]
  split
  · exact ⟨_, rfl⟩
  · split
    · split <;> exact ⟨_, rfl⟩
    · exact ⟨_, rfl⟩

theorem squash_total (ho : Ok st) {l : InternalLayer K V} (hl : LayerOk st l) :
    ∃ pl, squash l = .ok pl := by
  obtain ⟨Ps, Ns, hok⟩ := (hl.reachable ho).good
  obtain ⟨d, P, h1, _⟩ := Rollup.squash_spec hok
  exact ⟨_, by simp only [squash, h1, Out.ofOption, Out.ok_bind, Out.pure_eq]; rfl⟩

theorem squashUpto_total (ho : Ok st) {l : InternalLayer K V} (hl : LayerOk st l) {upto : Name}
    {ns : List Name} (hn : st.stackNamesUpto l.name upto = .ok ns) :
    ∃ pl, st.squashUpto l upto = .ok pl := by
  obtain ⟨S, hS, ha, hlen⟩ := hl.stands ho
  obtain ⟨ms, m1, m2⟩ := hS.chain
  obtain ⟨us, u1, u2, u3⟩ := stackNamesUpto_sound hn m1
  subst u2
  obtain ⟨T, hT⟩ := loadNames_total (st := st) ns.reverse
    (fun n h => m1.has n (List.mem_append_left _ h))
  obtain ⟨R, r1, rfl⟩ := loadNames_sound ho hT m1 u1 hS
  have hlenR : R.length ≤ st.length := by
    obtain ⟨R'', q1, _, q3⟩ := ho.raw' r1.has
    cases q1.unique r1
    exact q3
  have hcnt := countsLoop_eq r1 st.fuel (by unfold fuel; omega)
  have hc0 : CacheOk st (noCache : Cache K V) := by intro n l h; cases h
  obtain ⟨⟨ro, cs⟩, h4, h5⟩ := getLayer_total ho hc0 upto
  cases ro with
  | none =>
    have := h5.2 r1.has
    cases this
  | some u =>
    obtain ⟨R', r2, r3, r4⟩ := ((getLayer_ok ho hc0 h4).1 u rfl).2
    cases r1.unique r2
    have a1 : Alike (T ++ R) (T ++ u.stack) := Alike.reload (hS.reachable ho) r3
    obtain ⟨Ps, Ns, hok⟩ := a1.right.good
    obtain ⟨d, k1, _⟩ := Rollup.squashUpto_spec hok
    rw [← r3.same.nvCount, ← r3.same.pCount] at k1
    refine ⟨.write { parent := some upto, data := d }, ?_⟩
    simp only [squashUpto, hcnt, hn, hT, h4, k1, Out.ofOption, Out.ok_bind, Out.pure_eq]

end Store

namespace World

open Store

theorem Later.run {safe : Bool} {w w' : World K V} (h : Later safe w w') (hr : Run safe w) :
    Run safe w' := by
  induction h with
  | now => exact hr
  | step _ hs ih => exact .step ih hs

theorem Later.ext {safe : Bool} {w w' : World K V} (h : Later safe w w') :
    Ext w.store w'.store := by
  induction h with
  | now => exact Ext.refl _
  | step _ hs ih => exact ih.trans hs.ext

theorem Later.held {safe : Bool} {w w' : World K V} (h : Later safe w w') :
    ∀ q ∈ w.held, q ∈ w'.held := by
  induction h with
  | now => exact fun _ h => h
  | step _ hs ih => exact fun q hq => hs.held_mono q (ih q hq)

theorem Later.log {safe : Bool} {w w' : World K V} (h : Later safe w w') :
    ∀ q ∈ w.log, q ∈ w'.log := by
  induction h with
  | now => exact fun _ h => h
  | step _ hs ih => exact fun q hq => hs.log_mono q (ih q hq)

theorem Stands.alike {st : Store K V} {n : Name} {l l' : InternalLayer K V} (h : Stands st n l)
    (h' : Stands st n l') : Alike l.stack l'.stack := by
  obtain ⟨S, h1, h2, _⟩ := h
  obtain ⟨S', g1, g2, _⟩ := h'
  cases h1.unique g1
  exact h2.symm.trans g2

/-- The value triples of a layer that was returned for a name. -/
theorem Inv.exists_iff {w : World K V} (h : Inv w) {n : Name} {l : InternalLayer K V}
    (hs : Stands w.store n l) (t : VTriple K V) :
    ∃ b, Stack.valueTripleExists l.stack t = some b ∧ (b = true ↔ w.log.triples n t) := by
  obtain ⟨S, h1, h2, _⟩ := hs
  obtain ⟨Ps, Ns, hok⟩ := h2.right.good
  obtain ⟨b, hb1, hb2⟩ := valueTripleExists_spec hok t
  refine ⟨b, hb1, ?_⟩
  rw [hb2, ← h2.same.content]
  exact h.log.triples n S h1 t

/-- Reloading with any part of the cache. -/
theorem Run.reload {w : World K V} (h : Run true w) {c : Cache K V}
    (hc : ∀ n l, c n = some l → w.cache n = some l) {n : Name} (hn : w.store.has n = true) :
    ∃ l cs w', w.store.getLayer c n = .ok (some l, cs) ∧ Run true w' ∧ w'.store = w.store ∧
      w'.log = w.log ∧ w'.held = (n, l) :: w.held := by
  have h1 : Run true { w with cache := c, past := w.seen } := .step h (.evict hc)
  obtain ⟨⟨lo, cs⟩, h2, h3⟩ := getLayer_total h1.inv.ok h1.inv.cache n
  cases lo with
  | none => exact absurd (h3.2 hn) (by simp)
  | some l =>
    refine ⟨l, cs, _, h2, .step h1 (.load (v := fun _ => ⟨w.store, c⟩) (i := fun _ => 0)
      (fun _ => rfl) (fun _ => Nat.le_refl _) h2), rfl, rfl, rfl⟩

/-- Carrying out a rollup that was decided. -/
theorem Run.rollup {safe : Bool} {w : World K V} (h : Run safe w) {n new : Name} {pl : Plan K V}
    (hm : (.rollup n, pl) ∈ w.plans) (hn : w.store.get? new = none) :
    ∃ w', Run safe w' ∧ w'.store = registerRollup (pl.apply new w.store).2 n (pl.apply new w.store).1 ∧
      w'.cache = w.cache ∧ w'.held = w.held ∧
      (w'.log = w.log ∨ ∃ p, w'.log = .rollup new n p :: w.log) := by
  cases pl with
  | existing r =>
    exact ⟨_, .step (.step h (.keep hm)) (.register (List.mem_cons_self ..)), rfl, rfl, rfl,
      Or.inl rfl⟩
  | write e =>
    exact ⟨_, .step (.step h (.writeRollup hm hn)) (.register (List.mem_cons_self ..)), rfl, rfl,
      rfl, Or.inr ⟨_, rfl⟩⟩

end World

end Verif
