import Verif.Lemmas.SquashSpec
import Verif.Lemmas.BaseMerge

/-!
Every reachable stack satisfies the invariant, and alike stacks give the same answers.
-/

set_option linter.unusedSectionVars false
set_option linter.unusedVariables false

namespace Verif

open SimpleBuilder

variable {K V : Type} [LinearOrder K] [LinearOrder V]

theorem Alike.good {A B : List (LayerData K V)} (h : Alike A B) :
    StackGood A ∧ StackGood B ∧ Same A B := by
  induction h with
  | none => exact ⟨⟨[], [], StackOk.nil⟩, ⟨[], [], StackOk.nil⟩, Same.refl _⟩
  | commit _ hv hd ih =>
    obtain ⟨Ps, Ns, hS⟩ := ih.1
    obtain ⟨P, N, hc⟩ := commits_committed hS hv hd
    exact ⟨⟨_, _, hc.ok⟩, ⟨_, _, hc.ok⟩, Same.refl _⟩
  | rollup _ hd ih =>
    obtain ⟨Ps, Ns, hS⟩ := ih.1
    obtain ⟨d', P, h1, h2, h3⟩ := Rollup.deltaRollup_spec hS
    rw [hd] at h1
    cases h1
    exact ⟨ih.1, ⟨_, _, h2⟩, h3⟩
  | rollupUpto _ hm hd ih =>
    obtain ⟨Ps, Ns, hS⟩ := ih.1
    obtain ⟨d', h1, h2, h3⟩ := Rollup.deltaRollupUpto_spec hS hm
    rw [hd] at h1
    cases h1
    exact ⟨ih.1, h2, h3⟩
  | impreciseRollupUpto _ hd ih =>
    obtain ⟨Ps, Ns, hS⟩ := ih.1
    obtain ⟨d', h1, h2, h3⟩ := Rollup.impreciseDeltaRollupUpto_spec hS
    rw [hd] at h1
    cases h1
    exact ⟨ih.1, h2, h3⟩
  | squash _ hd ih =>
    obtain ⟨Ps, Ns, hS⟩ := ih.1
    obtain ⟨d', P, h1, h2, _⟩ := Rollup.squash_spec hS
    rw [hd] at h1
    cases h1
    exact ⟨⟨_, _, h2⟩, ⟨_, _, h2⟩, Same.refl _⟩
  | squashUpto _ hd ih =>
    obtain ⟨Ps, Ns, hS⟩ := ih.1
    obtain ⟨d', h1, h2, _⟩ := Rollup.squashUpto_spec hS
    rw [hd] at h1
    cases h1
    exact ⟨h2, h2, Same.refl _⟩
  | merge _ hc hd ih =>
    obtain ⟨m, P, h1, h2, _⟩ := BaseMerge.mergeBases_spec
      (fun e he => BaseMerge.Mergeable.of_clean (ih e he).1 (hc e he).1 (hc e he).2)
    rw [hd] at h1
    cases h1
    exact ⟨⟨_, _, h2.ok⟩, ⟨_, _, h2.ok⟩, Same.refl _⟩
  | reload _ _ ih1 ih2 =>
    obtain ⟨Ps, Ns, hS⟩ := ih1.1
    obtain ⟨Ps', Ns', hR⟩ := ih2.2.1
    obtain ⟨Qs, Ms, h1, h2⟩ := StackOk.swap hR ih2.2.2 hS
    exact ⟨ih1.1, ⟨_, _, h1⟩, h2⟩
  | symm _ ih => exact ⟨ih.2.1, ih.1, ih.2.2.symm⟩
  | trans _ _ ih1 ih2 => exact ⟨ih1.1, ih2.2.1, ih1.2.2.trans ih2.2.2⟩

theorem Reachable.good {S : List (LayerData K V)} (h : Reachable S) : StackGood S := (Alike.good h).1

theorem Alike.same {A B : List (LayerData K V)} (h : Alike A B) : Same A B := h.good.2.2

end Verif
