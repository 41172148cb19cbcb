import Verif.Lemmas.MergeSpec

/-!
The stack iterator: net changes over a range of layers.
-/

namespace Verif

/-- The changes a stack iterator yields, as a relation on the lists of its
iterators. -/
inductive Changes : List (List Triple) → List (List Triple) →
    List (TripleChange × Triple) → Prop
  | nil {Ps Ns} : minIndex id (Ps.map List.head?) = none →
      minIndex id (Ns.map List.head?) = none → Changes Ps Ns []
  | add {Ps Ns i t out} : minIndex id (Ps.map List.head?) = some (i, t) →
      (∀ j u, minIndex id (Ns.map List.head?) = some (j, u) → t < u) →
      Changes (popAt i Ps) Ns out → Changes Ps Ns ((.addition, t) :: out)
  | rem {Ps Ns j u out} : minIndex id (Ns.map List.head?) = some (j, u) →
      (∀ i t, minIndex id (Ps.map List.head?) = some (i, t) → u < t) →
      Changes Ps (popAt j Ns) out → Changes Ps Ns ((.removal, u) :: out)
  | cancel {Ps Ns i j t out} : minIndex id (Ps.map List.head?) = some (i, t) →
      minIndex id (Ns.map List.head?) = some (j, t) →
      Changes (popAt i Ps) (popAt j Ns) out → Changes Ps Ns out

theorem Changes.exists : ∀ (n : Nat) (Ps Ns : List (List Triple)),
    total Ps + total Ns ≤ n → ∃ out, Changes Ps Ns out ∧ out.length ≤ total Ps + total Ns
  | n, Ps, Ns, hn => by
    have hadd : ∀ {i t}, minIndex id (Ps.map List.head?) = some (i, t) →
        (∀ j u, minIndex id (Ns.map List.head?) = some (j, u) → t < u) →
        ∃ out, Changes Ps Ns out ∧ out.length ≤ total Ps + total Ns := by
      intro i t hm hlt
      obtain ⟨l, hl⟩ := minIndex_head hm
      have ht := popAt_total hl
      cases n with
      | zero => omega
      | succ n =>
        obtain ⟨out, h1, h2⟩ := Changes.exists n (popAt i Ps) Ns (by omega)
        exact ⟨_, .add hm hlt h1, by simp; omega⟩
    have hrem : ∀ {j u}, minIndex id (Ns.map List.head?) = some (j, u) →
        (∀ i t, minIndex id (Ps.map List.head?) = some (i, t) → u < t) →
        ∃ out, Changes Ps Ns out ∧ out.length ≤ total Ps + total Ns := by
      intro j u hm hlt
      obtain ⟨l, hl⟩ := minIndex_head hm
      have ht := popAt_total hl
      cases n with
      | zero => omega
      | succ n =>
        obtain ⟨out, h1, h2⟩ := Changes.exists n Ps (popAt j Ns) (by omega)
        exact ⟨_, .rem hm hlt h1, by simp; omega⟩
    cases hp : minIndex id (Ps.map List.head?) with
    | none =>
      cases hq : minIndex id (Ns.map List.head?) with
      | none => exact ⟨[], .nil hp hq, by simp⟩
      | some q =>
        obtain ⟨j, u⟩ := q
        exact hrem hq (by simp [hp])
    | some p =>
      obtain ⟨i, t⟩ := p
      cases hq : minIndex id (Ns.map List.head?) with
      | none => exact hadd hp (by simp [hq])
      | some q =>
        obtain ⟨j, u⟩ := q
        rcases lt_trichotomy t u with h | h | h
        · refine hadd hp (fun j' u' h' => ?_)
          rw [hq] at h'
          simp only [Option.some.injEq, Prod.mk.injEq] at h'
          rw [← h'.2]; exact h
        · subst h
          obtain ⟨l, hl⟩ := minIndex_head hp
          have ht := popAt_total hl
          obtain ⟨l', hl'⟩ := minIndex_head hq
          have ht' := popAt_total hl'
          cases n with
          | zero => omega
          | succ n =>
            obtain ⟨out, h1, h2⟩ := Changes.exists n (popAt i Ps) (popAt j Ns) (by omega)
            exact ⟨out, .cancel hp hq h1, by omega⟩
        · refine hrem hq (fun i' t' h' => ?_)
          rw [hp] at h'
          simp only [Option.some.injEq, Prod.mk.injEq] at h'
          rw [← h'.2]; exact h

variable {σ : Type} {I : IterOps σ}

/-- The state of a stack iterator that still yields `out`. -/
def ChangesR (I : IterOps σ) (n : Nat) (m : Merged σ) (out : List (TripleChange × Triple)) :
    Prop :=
  ∃ Ps Ns, List.Forall₂ (Behaves I) m.positives Ps ∧ List.Forall₂ (Behaves I) m.negatives Ns ∧
    total Ps + total Ns < n ∧ Changes Ps Ns out

theorem Merged.nextChange_spec {Ps Ns : List (List Triple)} {out : List (TripleChange × Triple)}
    (hM : Changes Ps Ns out) :
    ∀ (fuel : Nat) (m : Merged σ) (n : Nat), List.Forall₂ (Behaves I) m.positives Ps →
      List.Forall₂ (Behaves I) m.negatives Ns → total Ps + total Ns < fuel →
      total Ps + total Ns < n →
      ∃ m', Merged.nextChange I fuel m = some (out.head?, m') ∧ ChangesR I n m' out.tail := by
  induction hM with
  | @nil Ps Ns hm hm' =>
    intro fuel m n hp hn hf hf'
    cases fuel with
    | zero => omega
    | succ fuel =>
      obtain ⟨ps', h1, h2⟩ := peekAll_spec hp
      obtain ⟨ns', h3, h4⟩ := peekAll_spec hn
      exact ⟨⟨ps', ns'⟩, by simp [Merged.nextChange, h1, h3, hm, hm'],
        Ps, Ns, h2, h4, hf', .nil hm hm'⟩
  | @add Ps Ns i t out hm hlt hM _ =>
    intro fuel m n hp hn hf hf'
    cases fuel with
    | zero => omega
    | succ fuel =>
      obtain ⟨ps', h1, h2⟩ := peekAll_spec hp
      obtain ⟨ns', h3, h4⟩ := peekAll_spec hn
      obtain ⟨l, hl⟩ := minIndex_head hm
      obtain ⟨ps'', h5, h6⟩ := nextAt_spec h2 i _ hl
      have ht := popAt_total hl
      refine ⟨⟨ps'', ns'⟩, ?_, popAt i Ps, Ns, h6, h4, by omega, hM⟩
      cases hq : minIndex id (Ns.map List.head?) with
      | none => simp [Merged.nextChange, h1, h3, hm, hq, h5]
      | some q =>
        obtain ⟨j, u⟩ := q
        have := hlt j u hq
        simp [Merged.nextChange, h1, h3, hm, hq, h5, this]
  | @rem Ps Ns j u out hm hlt hM _ =>
    intro fuel m n hp hn hf hf'
    cases fuel with
    | zero => omega
    | succ fuel =>
      obtain ⟨ps', h1, h2⟩ := peekAll_spec hp
      obtain ⟨ns', h3, h4⟩ := peekAll_spec hn
      obtain ⟨l, hl⟩ := minIndex_head hm
      obtain ⟨ns'', h5, h6⟩ := nextAt_spec h4 j _ hl
      have ht := popAt_total hl
      refine ⟨⟨ps', ns''⟩, ?_, Ps, popAt j Ns, h2, h6, by omega, hM⟩
      cases hq : minIndex id (Ps.map List.head?) with
      | none => simp [Merged.nextChange, h1, h3, hm, hq, h5]
      | some q =>
        obtain ⟨i, t⟩ := q
        have := hlt i t hq
        simp [Merged.nextChange, h1, h3, hm, hq, h5, this, not_lt_of_gt this]
  | @cancel Ps Ns i j t out hm hm' hM ih =>
    intro fuel m n hp hn hf hf'
    cases fuel with
    | zero => omega
    | succ fuel =>
      obtain ⟨ps', h1, h2⟩ := peekAll_spec hp
      obtain ⟨ns', h3, h4⟩ := peekAll_spec hn
      obtain ⟨l, hl⟩ := minIndex_head hm
      obtain ⟨ps'', h5, h6⟩ := nextAt_spec h2 i _ hl
      have ht := popAt_total hl
      obtain ⟨l', hl'⟩ := minIndex_head hm'
      obtain ⟨ns'', h7, h8⟩ := nextAt_spec h4 j _ hl'
      have ht' := popAt_total hl'
      obtain ⟨m', h9, h10⟩ := ih fuel ⟨ps'', ns''⟩ n h6 h8 (by omega) (by omega)
      refine ⟨m', ?_, h10⟩
      simp [Merged.nextChange, h1, h3, hm, hm', h5, h7, h9]

theorem Merged.changes_spec {m : Merged σ} {Ps Ns : List (List Triple)}
    {fuel : Nat} (hp : List.Forall₂ (Behaves I) m.positives Ps)
    (hn : List.Forall₂ (Behaves I) m.negatives Ns)
    (hf : total Ps + total Ns < fuel) :
    ∃ out, Merged.changes I fuel m = some out ∧ Changes Ps Ns out := by
  obtain ⟨out, h1, h2⟩ := Changes.exists _ Ps Ns (Nat.le_refl _)
  refine ⟨out, ?_, h1⟩
  unfold Merged.changes
  refine collectN_eq (R := ChangesR I fuel) ?_ fuel m out ⟨Ps, Ns, hp, hn, hf, h1⟩
    (by omega)
  rintro st l ⟨Ps, Ns, a1, a2, a3, a4⟩
  exact Merged.nextChange_spec a4 fuel st fuel a1 a2 a3 a3

theorem popAt_count {Ps : List (List Triple)} {i : Nat} {t : Triple} {l : List Triple}
    (h : Ps[i]? = some (t :: l)) (u : Triple) :
    Ps.flatten.count u = (popAt i Ps).flatten.count u + if u = t then 1 else 0 := by
  induction Ps generalizing i with
  | nil => simp at h
  | cons P Ps ih =>
    cases i with
    | zero =>
      simp only [List.getElem?_cons_zero, Option.some.injEq] at h
      subst h
      simp only [popAt, List.flatten_cons, List.count_append, List.tail_cons, List.count_cons]
      by_cases hut : u = t
      · subst hut; simp; omega
      · have : ¬ t = u := fun h => hut h.symm
        simp [hut, this]
    | succ i =>
      have := ih (i := i) (by simpa using h)
      simp only [popAt, List.flatten_cons, List.count_append, this]
      omega

theorem KeySorted.of_sortedLt {l : List Triple} (h : SortedLt l) : KeySorted id l := h

/-- The stack iterator yields, for every triple, the difference of the number of
additions and the number of removals, in increasing order. -/
theorem Changes.spec {Ps Ns : List (List Triple)} {out : List (TripleChange × Triple)}
    (h : Changes Ps Ns out) (hP : ∀ P ∈ Ps, SortedLt P) (hN : ∀ N ∈ Ns, SortedLt N) :
    (∀ u, out.count (.addition, u) = Ps.flatten.count u - Ns.flatten.count u ∧
      out.count (.removal, u) = Ns.flatten.count u - Ps.flatten.count u) ∧
    out.Pairwise (fun a b => a.2 ≤ b.2) := by
  have hge : ∀ {Ps : List (List Triple)} {i t}, (∀ P ∈ Ps, SortedLt P) →
      minIndex id (Ps.map List.head?) = some (i, t) → ∀ u ∈ Ps.flatten, t ≤ u := by
    intro Ps i t hs hm u hu
    obtain ⟨P, h1, h2⟩ := List.mem_flatten.1 hu
    exact (minIndex_min (key := id) hs hm).1 P h1 u h2
  have hsort : ∀ {Ps : List (List Triple)} {i}, (∀ P ∈ Ps, SortedLt P) →
      ∀ P ∈ popAt i Ps, SortedLt P := fun hs => popAt_sorted (key := id) hs
  have hnone : ∀ {Ps : List (List Triple)} , minIndex id (Ps.map List.head?) = none →
      Ps.flatten = [] := by
    intro Ps hm
    rw [List.flatten_eq_nil_iff]
    exact minIndex_none hm
  have hmem : ∀ {Ps Ns : List (List Triple)} {out}, Changes Ps Ns out → ∀ q ∈ out,
      q.2 ∈ Ps.flatten ∨ q.2 ∈ Ns.flatten := by
    have hsub : ∀ {Ps : List (List Triple)} {i u}, u ∈ (popAt i Ps).flatten → u ∈ Ps.flatten := by
      intro Ps i u hu
      rw [List.mem_flatten] at hu ⊢
      exact mem_popAt hu
    intro Ps Ns out h
    induction h with
    | nil => simp
    | add hm _ _ ih =>
      intro q hq
      rcases List.mem_cons.1 hq with rfl | hq
      · obtain ⟨l, hl⟩ := minIndex_head hm
        exact Or.inl (List.mem_flatten.2 ⟨_, List.mem_of_getElem? hl, by simp⟩)
      · exact (ih q hq).imp hsub id
    | rem hm _ _ ih =>
      intro q hq
      rcases List.mem_cons.1 hq with rfl | hq
      · obtain ⟨l, hl⟩ := minIndex_head hm
        exact Or.inr (List.mem_flatten.2 ⟨_, List.mem_of_getElem? hl, by simp⟩)
      · exact (ih q hq).imp id hsub
    | cancel _ _ _ ih => exact fun q hq => (ih q hq).imp hsub hsub
  induction h with
  | @nil Ps Ns hm hm' =>
    refine ⟨fun u => ?_, List.Pairwise.nil⟩
    rw [hnone hm, hnone hm']
    simp
  | @add Ps Ns i t out hm hlt hM ih =>
    obtain ⟨ih1, ih2⟩ := ih (hsort hP) hN
    obtain ⟨l, hl⟩ := minIndex_head hm
    have hNt : ∀ u ∈ Ns.flatten, t < u := by
      cases hq : minIndex id (Ns.map List.head?) with
      | none => rw [hnone hq]; simp
      | some q => exact fun u hu => lt_of_lt_of_le (hlt _ _ hq) (hge hN hq u hu)
    refine ⟨fun u => ?_, List.pairwise_cons.2 ⟨?_, ih2⟩⟩
    · have hc := popAt_count hl u
      obtain ⟨a, b⟩ := ih1 u
      rw [List.count_cons, List.count_cons, a, b]
      by_cases hut : u = t
      · subst hut
        have h0 : Ns.flatten.count u = 0 :=
          List.count_eq_zero.2 (fun h => lt_irrefl _ (hNt u h))
        rw [h0, hc]
        simp
      · have h1 : ((TripleChange.addition, t) == (TripleChange.addition, u)) = false := by
          simpa using fun h => hut h.symm
        have h2 : ((TripleChange.addition, t) == (TripleChange.removal, u)) = false := by
          simp
        rw [hc]
        simp [h1, h2, hut]
    · intro q hq
      rcases hmem hM q hq with h | h
      · have : q.2 ∈ Ps.flatten := by
          rw [List.mem_flatten] at h ⊢
          exact mem_popAt h
        exact hge hP hm _ this
      · exact le_of_lt (hNt _ h)
  | @rem Ps Ns j t out hm hlt hM ih =>
    obtain ⟨ih1, ih2⟩ := ih hP (hsort hN)
    obtain ⟨l, hl⟩ := minIndex_head hm
    have hPt : ∀ u ∈ Ps.flatten, t < u := by
      cases hq : minIndex id (Ps.map List.head?) with
      | none => rw [hnone hq]; simp
      | some q => exact fun u hu => lt_of_lt_of_le (hlt _ _ hq) (hge hP hq u hu)
    refine ⟨fun u => ?_, List.pairwise_cons.2 ⟨?_, ih2⟩⟩
    · have hc := popAt_count hl u
      obtain ⟨a, b⟩ := ih1 u
      rw [List.count_cons, List.count_cons, a, b]
      by_cases hut : u = t
      · subst hut
        have h0 : Ps.flatten.count u = 0 :=
          List.count_eq_zero.2 (fun h => lt_irrefl _ (hPt u h))
        rw [h0, hc]
        simp
      · have h1 : ((TripleChange.removal, t) == (TripleChange.removal, u)) = false := by
          simpa using fun h => hut h.symm
        have h2 : ((TripleChange.removal, t) == (TripleChange.addition, u)) = false := by
          simp
        rw [hc]
        simp [h1, h2, hut]
    · intro q hq
      rcases hmem hM q hq with h | h
      · exact le_of_lt (hPt _ h)
      · have : q.2 ∈ Ns.flatten := by
          rw [List.mem_flatten] at h ⊢
          exact mem_popAt h
        exact hge hN hm _ this
  | @cancel Ps Ns i j t out hm hm' hM ih =>
    obtain ⟨ih1, ih2⟩ := ih (hsort hP) (hsort hN)
    obtain ⟨l, hl⟩ := minIndex_head hm
    obtain ⟨l', hl'⟩ := minIndex_head hm'
    refine ⟨fun u => ?_, ih2⟩
    have hc := popAt_count hl u
    have hc' := popAt_count hl' u
    obtain ⟨a, b⟩ := ih1 u
    rw [a, b, hc, hc']
    constructor <;> split <;> omega

end Verif
