import Verif.Model.Layer
import Verif.Lemmas.Index

/-!
The scans of `single_triple_sp` over the objects of one subject-predicate pair.
-/

namespace Verif

/-- Cell `j` belongs to the same row as cell `pos` and does not come before it. -/
def InRow (P : List (Nat × Nat)) (pos x : Nat) : Prop :=
  ∃ (hp : pos < P.length) (j : Nat) (hj : j < P.length), pos ≤ j ∧ P[j].1 = P[pos].1 ∧ P[j].2 = x

/-- Row membership, one step. -/
theorem AdjRep.inRow_step {a : AdjList} {P : List (Nat × Nat)} (h : AdjRep a P) {pos : Nat}
    (hpos : pos < P.length) :
    ∃ bit, a.bitAt pos = some bit ∧ a.numAt pos = some P[pos].2 ∧
      (bit = true → ∀ x, InRow P pos x ↔ x = P[pos].2) ∧
      (bit = false → pos + 1 < P.length ∧
        ∀ x, InRow P pos x ↔ x = P[pos].2 ∨ InRow P (pos + 1) x) := by
  obtain ⟨bit, hb, hones⟩ := h.bitAt hpos
  refine ⟨bit, hb, h.numAt hpos, ?_, ?_⟩
  · rintro rfl x
    simp at hones
    constructor
    · rintro ⟨_, j, hj, h1, h2, rfl⟩
      by_cases hjp : j = pos
      · subst hjp; rfl
      · have := ones_mono a.bits (show pos + 1 ≤ j by omega)
        have hl := h.left j hj
        have hl' := h.left pos hpos
        omega
    · rintro rfl
      exact ⟨hpos, pos, hpos, Nat.le_refl _, rfl, rfl⟩
  · rintro rfl
    simp at hones
    have hpos' : pos + 1 < P.length := by
      by_contra hn
      have hn' : pos + 1 = P.length := by omega
      rw [hn', h.ones_end] at hones
      have := h.ones_lt hpos
      omega
    have hrow' : P[pos + 1].1 = P[pos].1 := by
      rw [h.left _ hpos', h.left _ hpos]; omega
    refine ⟨hpos', fun x => ⟨?_, ?_⟩⟩
    · rintro ⟨_, j, hj, h1, h2, h3⟩
      by_cases hjp : j = pos
      · subst hjp; exact Or.inl h3.symm
      · exact Or.inr ⟨hpos', j, hj, by omega, by rw [h2, hrow'], h3⟩
    · rintro (rfl | ⟨_, j, hj, h1, h2, h3⟩)
      · exact ⟨hpos, pos, hpos, Nat.le_refl _, rfl, rfl⟩
      · exact ⟨hpos, j, hj, by omega, by rw [h2, hrow'], h3⟩

theorem excludeLoop_spec {a : AdjList} {P : List (Nat × Nat)} (h : AdjRep a P) :
    ∀ (fuel pos : Nat) (ex : List Nat), pos < P.length → P.length - pos < fuel →
      ∃ ex', Stack.excludeLoop a fuel pos ex = some ex' ∧ ∀ x, x ∈ ex' ↔ x ∈ ex ∨ InRow P pos x
  | 0, _, _, _, hf => by omega
  | fuel + 1, pos, ex, hpos, hf => by
    obtain ⟨bit, h1, h2, h3, h4⟩ := h.inRow_step hpos
    unfold Stack.excludeLoop
    simp only [h1, h2, Option.bind_eq_bind, Option.bind_some]
    cases bit with
    | true =>
      refine ⟨P[pos].2 :: ex, by simp, fun x => ?_⟩
      rw [h3 rfl x, List.mem_cons, or_comm]
    | false =>
      obtain ⟨h5, h6⟩ := h4 rfl
      obtain ⟨ex', h7, h8⟩ := excludeLoop_spec h fuel (pos + 1) (P[pos].2 :: ex) h5 (by omega)
      refine ⟨ex', by simp [h7], fun x => ?_⟩
      rw [h8 x, h6 x, List.mem_cons]
      constructor
      · rintro ((h | h) | h)
        · exact Or.inr (Or.inl h)
        · exact Or.inl h
        · exact Or.inr (Or.inr h)
      · rintro (h | h | h)
        · exact Or.inl (Or.inr h)
        · exact Or.inl (Or.inl h)
        · exact Or.inr h

theorem includeLoop_spec {a : AdjList} {P : List (Nat × Nat)} (h : AdjRep a P) (ex : List Nat) :
    ∀ (fuel pos : Nat), pos < P.length → P.length - pos < fuel →
      ∃ r, Stack.includeLoop a ex fuel pos = some r ∧
        (∀ x, r = some x → InRow P pos x ∧ x ∉ ex) ∧ (r = none → ∀ x, InRow P pos x → x ∈ ex)
  | 0, _, _, hf => by omega
  | fuel + 1, pos, hpos, hf => by
    obtain ⟨bit, h1, h2, h3, h4⟩ := h.inRow_step hpos
    unfold Stack.includeLoop
    simp only [h1, h2, Option.bind_eq_bind, Option.bind_some]
    by_cases hm : P[pos].2 ∈ ex
    · simp only [hm, not_true_eq_false, if_false]
      cases bit with
      | true =>
        refine ⟨none, by simp, by simp, ?_⟩
        intro _ x hx
        rw [(h3 rfl x).1 hx]; exact hm
      | false =>
        obtain ⟨h5, h6⟩ := h4 rfl
        obtain ⟨r, h7, h8, h9⟩ := includeLoop_spec h ex fuel (pos + 1) h5 (by omega)
        refine ⟨r, by simp [h7], ?_, ?_⟩
        · intro x hx
          exact ⟨(h6 x).2 (Or.inr (h8 x hx).1), (h8 x hx).2⟩
        · intro hr x hx
          rcases (h6 x).1 hx with rfl | hx
          · exact hm
          · exact h9 hr x hx
    · simp only [hm, not_false_eq_true, if_true]
      refine ⟨some P[pos].2, rfl, ?_, by simp⟩
      intro x hx
      simp only [Option.some.injEq] at hx
      subst hx
      exact ⟨⟨hpos, pos, hpos, Nat.le_refl _, rfl, rfl⟩, hm⟩

/-- What the scans compute on a written index. -/
theorem Stored.sp_scan {x : TripleIndex} {ts : List Triple} (h : Stored x ts) (s p : Nat) :
    ∃ r, spoPosition x.subjects x.sp x.spo s p = some r ∧
      (r = none → ∀ o, ⟨s, p, o⟩ ∉ ts) ∧
      ∀ pos, r = some pos →
        (∃ o, x.spo.numAt pos = some o ∧ ⟨s, p, o⟩ ∈ ts) ∧
        (∀ ex, ∃ ex', Stack.excludeLoop x.spo (x.spo.rightCount + 1) pos ex = some ex' ∧
          ∀ o, o ∈ ex' ↔ o ∈ ex ∨ ⟨s, p, o⟩ ∈ ts) ∧
        (∀ ex, ∃ r', Stack.includeLoop x.spo ex (x.spo.rightCount + 1) pos = some r' ∧
          (∀ o, r' = some o → ⟨s, p, o⟩ ∈ ts ∧ o ∉ ex) ∧
          (r' = none → ∀ o, ⟨s, p, o⟩ ∈ ts → o ∈ ex)) := by
  obtain ⟨_, Psp, Pspo, _, hc, _⟩ := h
  obtain ⟨r, h1, h2, h3⟩ := hc.spoPosition_spec s p
  refine ⟨r, h1, fun hr o ho => h2 hr _ ho ⟨rfl, rfl⟩, ?_⟩
  intro pos hpos
  have hcell := h3 pos hpos
  have hrow : ∀ o, InRow Pspo pos o ↔ (⟨s, p, o⟩ : Triple) ∈ ts := by
    intro o
    constructor
    · rintro ⟨_, j, hj, h4, h5, h6⟩
      have := hcell.decode _ (List.getElem_mem hj) h5
      rw [h6] at this
      exact hc.mem_ts.2 ⟨_, List.getElem_mem hj, this⟩
    · intro ho
      obtain ⟨q, hq, hd⟩ := hc.mem_ts.1 ho
      have h5 := hcell.complete q hq _ hd rfl rfl
      obtain ⟨j, hj, rfl⟩ := List.getElem_of_mem hq
      have h6 := hcell.decode _ hq h5
      rw [h6] at hd
      simp only [Option.some.injEq, Triple.mk.injEq, true_and] at hd
      exact ⟨hcell.lt, j, hj, hcell.first j hj h5, h5, hd⟩
  have hfuel : Pspo.length - pos < x.spo.rightCount + 1 := by
    rw [hc.repSpo.rightCount]; omega
  refine ⟨⟨Pspo[pos]'hcell.lt |>.2, hc.repSpo.numAt hcell.lt, ?_⟩, ?_, ?_⟩
  · exact (hrow _).1 ⟨hcell.lt, pos, hcell.lt, Nat.le_refl _, rfl, rfl⟩
  · intro ex
    obtain ⟨ex', h4, h5⟩ := excludeLoop_spec hc.repSpo _ pos ex hcell.lt hfuel
    exact ⟨ex', h4, fun o => by rw [h5 o, hrow]⟩
  · intro ex
    obtain ⟨r', h4, h5, h6⟩ := includeLoop_spec hc.repSpo ex _ pos hcell.lt hfuel
    refine ⟨r', h4, fun o ho => ?_, fun hr o ho => h6 hr o ((hrow o).2 ho)⟩
    exact ⟨(hrow o).1 (h5 o ho).1, (h5 o ho).2⟩

end Verif
