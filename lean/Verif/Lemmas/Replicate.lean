import Verif.Lemmas.WorldThrough
import Verif.Lemmas.WorldParents

/-!
Importing the layers of one store into another.
-/

set_option linter.unusedSectionVars false
set_option linter.unusedVariables false

namespace Verif

open SimpleBuilder Spec

variable {K V : Type} [LinearOrder K] [LinearOrder V]

namespace Store

/-- Two entries with the same files but for the rollup. -/
def Copy (e e' : Entry K V) : Prop := e'.parent = e.parent ∧ e'.data = e.data

/-- The first store has the layer, and the second does not have another one of that name. -/
def Agree (u w : Store K V) (m : Name) : Prop :=
  ∃ e, u.get? m = some e ∧ (w.get? m = none ∨ ∃ e', w.get? m = some e' ∧ Copy e e')

/-- Both stores have the layer. -/
def Shared (u w : Store K V) (m : Name) : Prop :=
  ∃ e e', u.get? m = some e ∧ w.get? m = some e' ∧ Copy e e'

theorem Agree.shared {u w : Store K V} {m : Name} (h : Agree u w m) (hm : w.has m = true) :
    Shared u w m := by
  obtain ⟨e, h1, h2 | ⟨e', h2, h3⟩⟩ := h
  · simp [Store.has, h2] at hm
  · exact ⟨e, e', h1, h2, h3⟩

theorem Shared.agree {u w : Store K V} {m : Name} (h : Shared u w m) : Agree u w m := by
  obtain ⟨e, e', h1, h2, h3⟩ := h
  exact ⟨e, h1, Or.inr ⟨e', h2, h3⟩⟩

theorem Shared.ext {u u' w w' : Store K V} {m : Name} (h : Shared u w m) (hu : Ext u u')
    (hw : Ext w w') : Shared u' w' m := by
  obtain ⟨e, e', h1, h2, h3, h4⟩ := h
  obtain ⟨x, k1, k2, k3⟩ := hu _ _ h1
  obtain ⟨y, g1, g2, g3⟩ := hw _ _ h2
  exact ⟨x, y, k1, g1, by rw [g2, h3, k2], by rw [g3, h4, k3]⟩

/-- A shared layer has the same layers below it in both stores. -/
theorem Raw.shared {u w : Store K V} {A : Name → Prop}
    (hA : ∀ m p, A m → u.parent? m = some p → A p) (hag : ∀ m, A m → Agree u w m)
    (hc : ∀ m p, w.parent? m = some p → w.has p = true) {n : Name} {S : List (LayerData K V)}
    (h : Raw u n S) (ha : A n) (hn : w.has n = true) : Raw w n S := by
  induction h with
  | @base n e g1 g2 =>
    obtain ⟨e1, e', k1, k2, k3, k4⟩ := (hag _ ha).shared hn
    rw [g1] at k1
    cases k1
    rw [← k4]
    exact .base k2 (k3.trans g2)
  | @child n e p S g1 g2 g3 ih =>
    obtain ⟨e1, e', k1, k2, k3, k4⟩ := (hag _ ha).shared hn
    rw [g1] at k1
    cases k1
    rw [← k4]
    refine .child k2 (k3.trans g2) (ih (hA n p ha ?_) (hc n p ?_))
    · simp [parent?, g1, g2]
    · simp [parent?, k2, k3, g2]

end Store

namespace World

open Store

theorem Run.parent_has {safe : Bool} {w : World K V} (h : Run safe w) {m p : Name}
    (hp : w.store.parent? m = some p) : w.store.has p = true := by
  have hm : w.store.has m = true := by
    unfold Store.parent? at hp
    cases hg : w.store.get? m with
    | none => simp [hg] at hp
    | some e => simp [Store.has, hg]
  obtain ⟨ns, hc, _⟩ := h.shape.closed m hm
  cases hc with
  | base _ h2 => rw [h2] at hp; cases hp
  | child h2 h3 =>
    rw [h2] at hp
    cases hp
    cases h3 with
    | base h4 _ => exact h4
    | child h4 _ =>
      unfold Store.parent? at h4
      cases hg : w.store.get? p with
      | none => simp [hg] at h4
      | some e => simp [Store.has, hg]

theorem Later.trans {safe : Bool} {a b c : World K V} (h : Later safe a b) (h' : Later safe b c) :
    Later safe a c := by
  induction h' with
  | now => exact h
  | step _ hs ih => exact .step ih hs

/-- One layer. -/
theorem Run.importOne {u w : World K V} (hu : Run true u) (hw : Run true w) {n : Name}
    {e : Entry K V} {S : List (LayerData K V)} (he : u.store.get? n = some e)
    (hr : ∀ o, ¬ u.log.rolledUp o n) (hn : w.store.get? n = none)
    (hS : Raw u.store n (e.data.onTop S :: S))
    (hb : Below w.store { parent := e.parent, data := e.data } S) :
    ∃ w', Step true w w' ∧ w'.held = w.held ∧ w'.cache = w.cache ∧
      w'.store = (n, { parent := e.parent, data := e.data }) :: w.store := by
  have hown : e.data.onTop S = e.data := by
    have := hu.inv.ok.own he hS
    simpa using this
  rw [hown] at hS
  have hre : Reachable (e.data :: S) := by
    obtain ⟨S', h1, h2, _⟩ := hu.inv.ok.raw he
    rw [h1.unique hS] at h2
    exact h2
  refine ⟨_, .importLayer (T := fun t => Stack.valueTripleExists (e.data :: S) t = some true)
    hn rfl hb hre ?_ ?_ (fun t => Iff.rfl), rfl, rfl, rfl⟩
  · exact hu.forms.store n e he
  · exact hu.plain.store n e he hr

theorem Run.importLine {u : World K V} (hu : Run true u) {A : Name → Prop}
    (hA : ∀ m p, A m → u.store.parent? m = some p → A p)
    (hr : ∀ m, A m → ∀ o, ¬ u.log.rolledUp o m) {n : Name} {S : List (LayerData K V)}
    (hS : Raw u.store n S) (hn : A n) {w : World K V} (hw : Run true w)
    (hag : ∀ m, A m → Agree u.store w.store m) :
    ∃ w', Later true w w' ∧ w'.held = w.held ∧ w'.cache = w.cache ∧ w'.store.has n = true ∧
      (∀ m, A m → Agree u.store w'.store m) ∧
      ∀ m, ¬ A m → w'.store.get? m = w.store.get? m := by
  have fin : ∀ {n : Name} {e : Entry K V} {S : List (LayerData K V)} {w1 : World K V}, A n →
      u.store.get? n = some e → Raw u.store n (e.data.onTop S :: S) → Later true w w1 →
      w1.held = w.held → w1.cache = w.cache → (∀ m, A m → Agree u.store w1.store m) →
      (∀ m, ¬ A m → w1.store.get? m = w.store.get? m) →
      Below w1.store { parent := e.parent, data := e.data } S →
      ∃ w', Later true w w' ∧ w'.held = w.held ∧ w'.cache = w.cache ∧ w'.store.has n = true ∧
        (∀ m, A m → Agree u.store w'.store m) ∧
        ∀ m, ¬ A m → w'.store.get? m = w.store.get? m := by
    intro n e S w1 hn he hS hl h1 h2 h3 h4 hb
    cases hg : w1.store.get? n with
    | some e' => exact ⟨w1, hl, h1, h2, by simp [Store.has, hg], h3, h4⟩
    | none =>
      obtain ⟨w', hs, k1, k2, k3⟩ := hu.importOne (hl.run hw) he (hr n hn) hg hS hb
      refine ⟨w', .step hl hs, k1.trans h1, k2.trans h2, ?_, ?_, ?_⟩
      · simp [k3, Store.has, get?_cons_self]
      · intro m hm
        rw [k3]
        by_cases hnm : n = m
        · subst hnm
          exact ⟨e, he, Or.inr ⟨_, get?_cons_self _ _, rfl, rfl⟩⟩
        · obtain ⟨x, x1, x2⟩ := h3 m hm
          exact ⟨x, x1, by rw [get?_cons_ne hnm]; exact x2⟩
      · intro m hm
        rw [k3, get?_cons_ne (by rintro rfl; exact hm hn)]
        exact h4 m hm
  induction hS with
  | @base n e g1 g2 =>
    exact fin hn g1 (.base g1 g2) .now rfl rfl hag (fun _ _ => rfl) (by simp [Below, g2])
  | @child n e p S g1 g2 g3 ih =>
    have hp : A p := hA n p hn (by simp [parent?, g1, g2])
    obtain ⟨w1, hl, h1, h2, h3, h4, h5⟩ := ih hp
    refine fin hn g1 (.child g1 g2 g3) hl h1 h2 h4 h5 ?_
    have := g3.shared hA h4 (fun m q => (hl.run hw).parent_has) hp h3
    simpa [Below, g2] using this

end World

end Verif
