import Verif.Lemmas.LabelHistory
import Verif.Lemmas.WorldMore
import Verif.Lemmas.ApiSim
import Verif.Model.Transactions

/-!
Transactions on a graph.
-/

set_option linter.unusedSectionVars false

namespace Verif

open Spec

/-! ### Histories of layers -/

namespace Spec.History

variable {T : Type}

/-- Every layer is made once, and after its parent. -/
def Ordered : History T → Prop
  | [] => True
  | e :: h => ¬ known h e.new ∧ (∀ p, e.parent = some p → known h p) ∧ Ordered h

theorem Ordered.commit : ∀ {h : History T}, h.Ordered → ∀ {x : Nat} {p : Option Nat}
    {calls : List (Call T)}, Event.commit x p calls ∈ h →
    h.parent x = p ∧ ∀ t, h.triples x t ↔ after (h.below p) calls t
  | [], _, _, _, _, hm => by cases hm
  | e :: h, ho, x, p, calls, hm => by
    obtain ⟨h1, h2, h3⟩ := ho
    have hbelow : ∀ q : Option Nat, (∀ y, q = some y → known h y) → ∀ t,
        below (e :: h) q t ↔ History.below h q t := by
      intro q hq t
      cases q with
      | none => exact Iff.rfl
      | some y => exact triples_cons_ne (fun hc => h1 (by rw [← hc]; exact hq y rfl)) t
    have hafter : ∀ q : Option Nat, (∀ y, q = some y → known h y) → ∀ t,
        after (History.below h q) calls t ↔ after (below (e :: h) q) calls t := by
      intro q hq t
      unfold after
      rw [hbelow q hq t]
    rcases List.mem_cons.1 hm with rfl | hm
    · refine ⟨by simp [History.parent, Event.new, Event.parent], fun t => ?_⟩
      rw [← hafter p h2]
      cases p with
      | none => simp only [History.triples, Event.new, if_true]; exact Iff.rfl
      | some y => simp only [History.triples, Event.new, if_true]; exact Iff.rfl
    · have hne : x ≠ e.new := by
        rintro hx
        exact h1 ⟨_, hm, hx⟩
      obtain ⟨g1, g2⟩ := Ordered.commit h3 hm
      refine ⟨(parent_cons_ne hne).trans g1, fun t => ?_⟩
      rw [triples_cons_ne hne, g2]
      apply hafter
      intro y hy
      rw [hy] at g1
      have : ∀ {h : History T}, h.Ordered → ∀ {n q : Nat}, h.parent n = some q → known h q := by
        intro h
        induction h with
        | nil => intro _ n q hp; cases hp
        | cons e h ih =>
          intro ho n q hp
          unfold History.parent at hp
          split at hp
          · obtain ⟨e', k1, k2⟩ := ho.2.1 q hp
            exact ⟨e', List.mem_cons_of_mem _ k1, k2⟩
          · obtain ⟨e', k1, k2⟩ := ih ho.2.2 hp
            exact ⟨e', List.mem_cons_of_mem _ k1, k2⟩
      exact this h3 g1

theorem Ancestor.prefix {h : History T} {a n : Nat} (ha : h.Ancestor a n) :
    ∀ {ns : List Nat}, h.Line n ns → ∃ as, h.Line a as ∧ as.length ≤ ns.length ∧
      (a = n ∨ as.length < ns.length) := by
  induction ha with
  | self => exact fun hl => ⟨_, hl, Nat.le_refl _, Or.inl rfl⟩
  | @up p n hp _ ih =>
    intro ns hl
    cases hl with
    | root g => rw [g] at hp; cases hp
    | step g k =>
      rw [g] at hp
      cases hp
      obtain ⟨as, h1, h2, h3⟩ := ih k
      refine ⟨as, h1, ?_, Or.inr ?_⟩ <;> · rw [List.length_append]; simp; omega

theorem Ancestor.antisymm {h : History T} {a b : Nat} {ns : List Nat} (hl : h.Line b ns)
    (h1 : h.Ancestor a b) (h2 : h.Ancestor b a) : a = b := by
  obtain ⟨as, g1, g2, g3⟩ := h1.prefix hl
  obtain ⟨bs, k1, k2, k3⟩ := h2.prefix g1
  have := k1.unique hl
  subst this
  rcases g3 with g3 | g3
  · exact g3
  · omega

end Spec.History

namespace World

open Store Spec.History

variable {K V : Type} [LinearOrder K] [LinearOrder V]

/-- The layer that a step makes is new, and its parent is there. -/
theorem Step.ordered {safe : Bool} {w w' : World K V} (hw : Shape w) (hw' : Shape w')
    (hs : Step safe w w') (ho : w.log.Ordered) : w'.log.Ordered := by
  have new : ∀ {ev : Event (VTriple K V)}, w.store.get? ev.new = none → w'.log = ev :: w.log →
      w'.log.Ordered := by
    intro ev hn hl
    rw [hl]
    have hk : ¬ w.log.known ev.new := by
      rw [← hw.known]
      simp [Store.has, hn]
    refine ⟨hk, fun p hp => ?_, ho⟩
    have hpar : w'.log.parent ev.new = some p := by
      rw [hl]
      simp [History.parent, hp]
    have hhas : w'.store.has ev.new = true := by
      rw [hw'.known, hl]
      exact ⟨ev, by simp, rfl⟩
    obtain ⟨ns, h1, _⟩ := hw'.closed _ hhas
    have hnd := h1.nodup
    cases h1 with
    | base _ g => rw [hw'.parent, hpar] at g; cases g
    | @child _ q _ g k =>
      rw [hw'.parent, hpar] at g
      cases g
      have hq : w'.log.known p := (hw'.known p).1 (k.has p (by
        have := k.head
        cases hns : ‹List Name› with
        | nil => rw [hns] at this; cases this
        | cons a l => rw [hns] at this; cases this; simp))
      have hne : p ≠ ev.new := by
        rintro rfl
        have hmem : ev.new ∈ ‹List Name› := by
          have := k.head
          cases hns : ‹List Name› with
          | nil => rw [hns] at this; cases this
          | cons a l => rw [hns] at this; cases this; simp
        exact (List.nodup_cons.1 hnd).1 hmem
      rw [hl] at hq
      obtain ⟨e', k1, k2⟩ := hq
      rcases List.mem_cons.1 k1 with rfl | k1
      · exact absurd k2.symm hne
      · exact ⟨e', k1, k2⟩
  cases hs with
  | commitBase h1 _ _ => exact new (ev := .commit _ _ _) h1 rfl
  | commit _ h1 _ _ => exact new (ev := .commit _ _ _) h1 rfl
  | importLayer h1 _ _ _ _ _ _ => exact new (ev := .imported _ _ _) h1 rfl
  | writeRollup _ h1 => exact new (ev := .rollup _ _ _) h1 rfl
  | writeSquash _ h1 => exact new (ev := .squash _ _) h1 rfl
  | writeSquashUpto _ h1 => exact new (ev := .squashUpto _ _ _) h1 rfl
  | writeMerge _ h1 => exact new (ev := .merge _ _) h1 rfl
  | _ => exact ho

theorem Run.ordered {safe : Bool} {w : World K V} (h : Run safe w) : w.log.Ordered := by
  induction h with
  | start => trivial
  | step h1 hs ih => exact hs.ordered h1.shape (Run.step h1 hs).shape ih

end World

end Verif
