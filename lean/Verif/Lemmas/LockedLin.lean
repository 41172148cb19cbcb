import Verif.Lemmas.LockedSteps
import Verif.Lemmas.LabelDir

/-!
The calls of the directory store on file locks take effect at the moments at which those of the
simple system do.
-/

namespace Verif

open Spec

variable {L N : Type} [DecidableEq L]

set_option linter.unusedSectionVars false

/-- An event at another time. -/
def retime (ψ : Nat → Nat) (e : LabelEvent L N) : LabelEvent L N := { e with time := ψ e.time }

theorem stored_retime (same : LabelData N → LabelData N → Bool) (ψ : Nat → Nat)
    (m : Labels L N) (G : List (LabelEvent L N)) :
    stored same m (G.map (retime ψ)) = stored same m G := by
  induction G generalizing m with
  | nil => rfl
  | cons e G ih => exact ih _

theorem answered_retime {same : LabelData N → LabelData N → Bool} (ψ : Nat → Nat)
    {m : Labels L N} {G : List (LabelEvent L N)} (h : Answered same m G) :
    Answered same m (G.map (retime ψ)) := by
  induction G generalizing m with
  | nil => trivial
  | cons e G ih => exact ⟨h.1, ih h.2⟩

namespace LockedLabels

variable {s : LockedLabels L} {d : DirLabels L} {φ : Nat → Nat} {i : Nat}

/-- A call that has returned was answered in the simple system before. -/
theorem At.answer {c c' : LabelCall L LayerName} {p : Phase} (h : At s d φ i c c' p)
    {r : LabelRes LayerName} {t : Nat} (ha : c.answer = some (r, t)) :
    ∃ t', c'.answer = some (r, t') ∧ t' < d.now ∧ φ t' ≤ t := by
  cases p with
  | done =>
    obtain ⟨_, r', t1, t', h1, h2, h3, h4⟩ := h
    rw [ha] at h1
    cases h1
    exact ⟨t', h2, h3, h4⟩
  | begun => rw [h.1] at ha; cases ha
  | checked => rw [h.1] at ha; cases ha
  | waiting => rw [h.1] at ha; cases ha
  | made => rw [h.1] at ha; cases ha
  | reading => rw [h.1] at ha; cases ha
  | truncating => rw [h.1] at ha; cases ha
  | writing => rw [h.1] at ha; cases ha
  | unlocking => rw [h.1] at ha; cases ha
  | returning => rw [h.1] at ha; cases ha
  | dropped => rw [h.1] at ha; cases ha

/-- The moments of the steps of the simple system, and now for those that are to come. -/
def moments (s : LockedLabels L) (d : DirLabels L) (φ : Nat → Nat) (a : Nat) : Nat :=
  if a < d.now then φ a else s.now

theorem Sim.moments_mono (h : Sim s d φ) {a b : Nat} (hab : a ≤ b) :
    moments s d φ a ≤ moments s d φ b := by
  unfold moments
  by_cases hb : b < d.now
  · rw [if_pos hb, if_pos (by omega)]
    exact h.time.mono a b hab hb
  · rw [if_neg hb]
    split
    · rename_i ha
      exact Nat.le_of_lt (h.time.past a ha)
    · exact Nat.le_refl _

theorem Sim.lin (h : Sim s d φ) {G : List (LabelEvent L LayerName)}
    (hG : LinearizedBy sameLabel d.calls G) :
    LinearizedBy sameLabel s.calls (G.map (retime (moments s d φ))) where
  answered := answered_retime _ hG.answered
  sorted := by
    rw [List.pairwise_map]
    exact hG.sorted.imp (fun hab => h.moments_mono hab)
  once := by
    rw [List.pairwise_map]
    exact hG.once
  complete := by
    intro i c r t hc ha hr
    obtain ⟨c', a1, _, _, _, a5⟩ := h.call i c hc
    obtain ⟨t', b1, _⟩ := a5.answer ha
    obtain ⟨e, he, hi⟩ := hG.complete i c' r t' a1 b1 hr
    exact ⟨_, List.mem_map_of_mem he, hi⟩
  sound := by
    intro e he
    obtain ⟨e0, he0, rfl⟩ := List.mem_map.1 he
    obtain ⟨c', k1, k2, k3, k4⟩ := hG.sound e0 he0
    cases hc : s.calls e0.id with
    | none =>
      rw [(h.fresh _ hc).1] at k1
      cases k1
    | some c =>
      obtain ⟨c'', a1, a2, a3, a4, a5⟩ := h.call _ c hc
      rw [k1] at a1
      cases a1
      refine ⟨c, hc, by rw [← a2]; exact k2, ?_, ?_⟩
      · have := h.moments_mono k3
        rw [moments, if_pos a4, a3] at this
        exact this
      · intro r t ha
        obtain ⟨t', b1, b2, b3⟩ := a5.answer ha
        obtain ⟨k5, k6⟩ := k4 r t' b1
        refine ⟨k5, ?_⟩
        have := h.moments_mono k6
        rw [moments, moments, if_pos b2] at this
        exact Nat.le_trans this b3

theorem Run.lin [Inhabited L] {drops : Phase → Bool}
    (hd : ∀ p, drops p = true → dropsWhole p = true) (hs : Run true drops s) :
    ∃ G, LinearizedBy sameLabel s.calls G := by
  obtain ⟨d, φ, h⟩ := hs.sim hd
  obtain ⟨g, G, hi⟩ := h.run.inv
  exact ⟨_, h.lin hi.lin⟩

end LockedLabels

end Verif
