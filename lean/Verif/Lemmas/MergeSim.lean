import Verif.Model.Merge
import Verif.Lemmas.IterSim
import Verif.Lemmas.Sort
import Mathlib.Data.List.Forall2

/-!
The merging iterators, seen as operations on lists.
-/

namespace Verif

/-- The iterator state `it` yields the items of `l` in order. -/
def Behaves {σ : Type} (I : IterOps σ) (it : σ) (l : List Triple) : Prop :=
  ∃ R : σ → List Triple → Prop, NextSim I.next R ∧ PeekSim I.peek R ∧ R it l

theorem Behaves.next {σ : Type} {I : IterOps σ} {it : σ} {l : List Triple}
    (h : Behaves I it l) : ∃ it', I.next it = some (l.head?, it') ∧ Behaves I it' l.tail := by
  obtain ⟨R, h1, h2, h3⟩ := h
  obtain ⟨it', h4, h5⟩ := h1 it l h3
  exact ⟨it', h4, R, h1, h2, h5⟩

theorem Behaves.peek {σ : Type} {I : IterOps σ} {it : σ} {l : List Triple}
    (h : Behaves I it l) : ∃ it', I.peek it = some (l.head?, it') ∧ Behaves I it' l := by
  obtain ⟨R, h1, h2, h3⟩ := h
  obtain ⟨it', h4, h5⟩ := h2 it l h3
  exact ⟨it', h4, R, h1, h2, h5⟩

theorem Behaves.opt {σ : Type} {I : IterOps σ} {it : σ} {l : List Triple}
    (h : Behaves I it l) : Behaves I.opt (some it) l := by
  obtain ⟨R, h1, h2, h3⟩ := h
  refine ⟨fun o l => ∃ it, o = some it ∧ R it l, ?_, ?_, it, rfl, h3⟩
  · rintro _ l ⟨it, rfl, hR⟩
    obtain ⟨it', h4, h5⟩ := h1 it l hR
    exact ⟨some it', by simp [IterOps.opt, h4], it', rfl, h5⟩
  · rintro _ l ⟨it, rfl, hR⟩
    obtain ⟨it', h4, h5⟩ := h2 it l hR
    exact ⟨some it', by simp [IterOps.opt, h4], it', rfl, h5⟩

theorem Behaves.opt_none {σ : Type} {I : IterOps σ} : Behaves I.opt none [] := by
  refine ⟨fun o l => o = none ∧ l = [], ?_, ?_, rfl, rfl⟩
  · rintro _ _ ⟨rfl, rfl⟩
    exact ⟨none, rfl, rfl, rfl⟩
  · rintro _ _ ⟨rfl, rfl⟩
    exact ⟨none, rfl, rfl, rfl⟩

/-- Advance the list with index `i`. -/
def popAt {α : Type} : Nat → List (List α) → List (List α)
  | _, [] => []
  | 0, P :: Ps => P.tail :: Ps
  | i + 1, P :: Ps => P :: popAt i Ps

/-- Advance the first of the first `k` lists that starts with `t`. -/
def popNeg (t : Triple) : Nat → List (List Triple) → Option (List (List Triple))
  | 0, _ => none
  | _ + 1, [] => none
  | k + 1, N :: Ns =>
    if N.head? = some t then some (N.tail :: Ns) else (popNeg t k Ns).map (N :: ·)

variable {σ : Type} {I : IterOps σ}

theorem peekAll_spec {ps : List σ} {Ps : List (List Triple)}
    (h : List.Forall₂ (Behaves I) ps Ps) :
    ∃ ps', peekAll I ps = some (Ps.map List.head?, ps') ∧ List.Forall₂ (Behaves I) ps' Ps := by
  induction h with
  | nil => exact ⟨[], rfl, .nil⟩
  | cons hb _ ih =>
    obtain ⟨ps', h1, h2⟩ := ih
    obtain ⟨it', h3, h4⟩ := hb.peek
    exact ⟨it' :: ps', by simp [peekAll, h3, h1], .cons h4 h2⟩

theorem nextAt_spec {ps : List σ} {Ps : List (List Triple)}
    (h : List.Forall₂ (Behaves I) ps Ps) (i : Nat) (P : List Triple) (hi : Ps[i]? = some P) :
    ∃ ps', nextAt I i ps = some (P.head?, ps') ∧
      List.Forall₂ (Behaves I) ps' (popAt i Ps) := by
  induction h generalizing i with
  | nil => simp at hi
  | @cons it l its ls hb hr ih =>
    cases i with
    | zero =>
      simp only [List.getElem?_cons_zero, Option.some.injEq] at hi
      subst hi
      obtain ⟨it', h3, h4⟩ := hb.next
      exact ⟨it' :: its, by simp [nextAt, h3], .cons h4 hr⟩
    | succ i =>
      simp only [List.getElem?_cons_succ] at hi
      obtain ⟨ps', h1, h2⟩ := ih i hi
      exact ⟨it :: ps', by simp [nextAt, h1], .cons hb h2⟩

theorem checkNegatives_spec {ns : List σ} {Ns : List (List Triple)}
    (h : List.Forall₂ (Behaves I) ns Ns) (t : Triple) (k : Nat) (hk : k ≤ Ns.length) :
    ∃ ns', checkNegatives I t k ns = some ((popNeg t k Ns).isSome, ns') ∧
      List.Forall₂ (Behaves I) ns' ((popNeg t k Ns).getD Ns) := by
  induction h generalizing k with
  | nil =>
    have : k = 0 := by simpa using hk
    subst this
    exact ⟨[], rfl, .nil⟩
  | @cons it l its ls hb hr ih =>
    cases k with
    | zero => exact ⟨it :: its, rfl, .cons hb hr⟩
    | succ k =>
      obtain ⟨it', h1, h2⟩ := hb.peek
      by_cases hh : l.head? = some t
      · obtain ⟨it'', h3, h4⟩ := h2.next
        rw [hh] at h3
        exact ⟨it'' :: its, by simp [checkNegatives, popNeg, h1, hh, h3],
          by simpa [popNeg, hh] using ⟨h4, hr⟩⟩
      · obtain ⟨ns', h3, h4⟩ := ih k (by simpa using hk)
        refine ⟨it' :: ns', ?_, ?_⟩
        · simp [checkNegatives, popNeg, h1, hh, h3]
        · simp only [popNeg, hh, if_false]
          cases hp : popNeg t k ls with
          | none => rw [hp] at h4; exact .cons h2 h4
          | some x => rw [hp] at h4; exact .cons h2 h4

/-- The items a merging iterator yields, as a relation on the lists of its
iterators. -/
inductive Merge (key : Triple → Triple) : List (List Triple) → List (List Triple) →
    List Triple → Prop
  | nil {Ps Ns} : minIndex key (Ps.map List.head?) = none → Merge key Ps Ns []
  | skip {Ps Ns Ns' i t out} : minIndex key (Ps.map List.head?) = some (i, t) →
      popNeg t i Ns = some Ns' → Merge key (popAt i Ps) Ns' out → Merge key Ps Ns out
  | emit {Ps Ns i t out} : minIndex key (Ps.map List.head?) = some (i, t) →
      popNeg t i Ns = none → Merge key (popAt i Ps) Ns out → Merge key Ps Ns (t :: out)

theorem minIndex_get {key : Triple → Triple} : ∀ {hs : List (Option Triple)} {i : Nat} {t : Triple},
    minIndex key hs = some (i, t) → hs[i]? = some (some t)
  | [], _, _, h => by simp [minIndex] at h
  | none :: l, i, t, h => by
    simp only [minIndex, Option.map_eq_some_iff] at h
    obtain ⟨⟨j, u⟩, h1, h2⟩ := h
    simp only [Prod.mk.injEq] at h2
    obtain ⟨rfl, rfl⟩ := h2
    simpa using minIndex_get h1
  | some u :: l, i, t, h => by
    simp only [minIndex] at h
    cases hm : minIndex key l with
    | none =>
      rw [hm] at h
      simp only [Option.some.injEq, Prod.mk.injEq] at h
      obtain ⟨rfl, rfl⟩ := h
      rfl
    | some q =>
      obtain ⟨j, v⟩ := q
      rw [hm] at h
      simp only at h
      split at h
      · simp only [Option.some.injEq, Prod.mk.injEq] at h
        obtain ⟨rfl, rfl⟩ := h
        rfl
      · simp only [Option.some.injEq, Prod.mk.injEq] at h
        obtain ⟨rfl, rfl⟩ := h
        simpa using minIndex_get hm

/-- The total number of items in the lists. -/
def total (Ps : List (List Triple)) : Nat := (Ps.map List.length).sum

theorem minIndex_head {key : Triple → Triple} {Ps : List (List Triple)} {i : Nat} {t : Triple}
    (h : minIndex key (Ps.map List.head?) = some (i, t)) : ∃ l, Ps[i]? = some (t :: l) := by
  have := minIndex_get h
  rw [List.getElem?_map, Option.map_eq_some_iff] at this
  obtain ⟨P, h1, h2⟩ := this
  cases P with
  | nil => simp at h2
  | cons a l =>
    simp only [List.head?_cons, Option.some.injEq] at h2
    exact ⟨l, by rw [h1, h2]⟩

theorem popAt_total {Ps : List (List Triple)} {i : Nat} {t : Triple} {l : List Triple}
    (h : Ps[i]? = some (t :: l)) : total (popAt i Ps) + 1 = total Ps := by
  induction Ps generalizing i with
  | nil => simp at h
  | cons P Ps ih =>
    cases i with
    | zero =>
      simp only [List.getElem?_cons_zero, Option.some.injEq] at h
      subst h
      simp only [popAt, total, List.map_cons, List.sum_cons, List.tail_cons, List.length_cons]
      omega
    | succ i =>
      have := ih (i := i) (by simpa using h)
      simp only [popAt, total, List.map_cons, List.sum_cons] at this ⊢
      omega

theorem popAt_length (Ps : List (List Triple)) (i : Nat) : (popAt i Ps).length = Ps.length := by
  induction Ps generalizing i with
  | nil => cases i <;> rfl
  | cons P Ps ih => cases i <;> simp [popAt, ih]

theorem popNeg_length {t : Triple} {k : Nat} {Ns Ns' : List (List Triple)}
    (h : popNeg t k Ns = some Ns') : Ns'.length = Ns.length := by
  induction Ns generalizing k Ns' with
  | nil => cases k <;> simp [popNeg] at h
  | cons N Ns ih =>
    cases k with
    | zero => simp [popNeg] at h
    | succ k =>
      simp only [popNeg] at h
      split at h
      · simp only [Option.some.injEq] at h; rw [← h]; simp
      · rw [Option.map_eq_some_iff] at h
        obtain ⟨x, h1, rfl⟩ := h
        simp [ih h1]

theorem Merge.exists (key : Triple → Triple) : ∀ (n : Nat) (Ps Ns : List (List Triple)),
    total Ps ≤ n → ∃ out, Merge key Ps Ns out ∧ out.length ≤ total Ps
  | n, Ps, Ns, hn => by
    cases hm : minIndex key (Ps.map List.head?) with
    | none => exact ⟨[], .nil hm, by simp⟩
    | some q =>
      obtain ⟨i, t⟩ := q
      obtain ⟨l, hl⟩ := minIndex_head hm
      have ht := popAt_total hl
      cases n with
      | zero => omega
      | succ n =>
        cases hp : popNeg t i Ns with
        | none =>
          obtain ⟨out, ho, hlen⟩ := Merge.exists key n (popAt i Ps) Ns (by omega)
          exact ⟨t :: out, .emit hm hp ho, by simp; omega⟩
        | some Ns' =>
          obtain ⟨out, ho, hlen⟩ := Merge.exists key n (popAt i Ps) Ns' (by omega)
          exact ⟨out, .skip hm hp ho, by omega⟩

/-- The state of a merging iterator that still yields `out`. -/
def MergedR (I : IterOps σ) (key : Triple → Triple) (n : Nat) (m : Merged σ)
    (out : List Triple) : Prop :=
  ∃ Ps Ns, List.Forall₂ (Behaves I) m.positives Ps ∧ List.Forall₂ (Behaves I) m.negatives Ns ∧
    Ps.length = Ns.length ∧ total Ps < n ∧ Merge key Ps Ns out

theorem Merged.next_spec (key : Triple → Triple) {Ps Ns : List (List Triple)}
    {out : List Triple} (hM : Merge key Ps Ns out) :
    ∀ (fuel : Nat) (m : Merged σ) (n : Nat), List.Forall₂ (Behaves I) m.positives Ps →
      List.Forall₂ (Behaves I) m.negatives Ns → Ps.length = Ns.length → total Ps < fuel →
      total Ps < n →
      ∃ m', Merged.next I key fuel m = some (out.head?, m') ∧ MergedR I key n m' out.tail := by
  induction hM with
  | @nil Ps Ns hm =>
    intro fuel m n hp hn hlen hf hf'
    cases fuel with
    | zero => omega
    | succ fuel =>
      obtain ⟨ps', h1, h2⟩ := peekAll_spec hp
      exact ⟨⟨ps', m.negatives⟩, by simp [Merged.next, h1, hm],
        Ps, Ns, h2, hn, hlen, hf', .nil hm⟩
  | @skip Ps Ns Ns' i t out hm hpop hM ih =>
    intro fuel m n hp hn hlen hf hf'
    cases fuel with
    | zero => omega
    | succ fuel =>
      obtain ⟨ps', h1, h2⟩ := peekAll_spec hp
      obtain ⟨l, hl⟩ := minIndex_head hm
      obtain ⟨ps'', h3, h4⟩ := nextAt_spec h2 i _ hl
      have hi : i ≤ Ns.length := by
        have := (List.getElem?_eq_some_iff.1 hl).1
        omega
      obtain ⟨ns', h5, h6⟩ := checkNegatives_spec hn t i hi
      rw [hpop] at h5 h6
      have ht := popAt_total hl
      obtain ⟨m', h7, h8⟩ := ih fuel ⟨ps'', ns'⟩ n h4 h6
        (by rw [popAt_length, popNeg_length hpop, hlen]) (by omega) (by omega)
      refine ⟨m', ?_, h8⟩
      simp [Merged.next, h1, hm, h3, h5, h7]
  | @emit Ps Ns i t out hm hpop hM _ =>
    intro fuel m n hp hn hlen hf hf'
    cases fuel with
    | zero => omega
    | succ fuel =>
      obtain ⟨ps', h1, h2⟩ := peekAll_spec hp
      obtain ⟨l, hl⟩ := minIndex_head hm
      obtain ⟨ps'', h3, h4⟩ := nextAt_spec h2 i _ hl
      have hi : i ≤ Ns.length := by
        have := (List.getElem?_eq_some_iff.1 hl).1
        omega
      obtain ⟨ns', h5, h6⟩ := checkNegatives_spec hn t i hi
      rw [hpop] at h5 h6
      have ht := popAt_total hl
      refine ⟨⟨ps'', ns'⟩, ?_, popAt i Ps, Ns, h4, h6, ?_, by omega, hM⟩
      · simp [Merged.next, h1, hm, h3, h5]
      · rw [popAt_length, hlen]

theorem Merged.collect_spec (key : Triple → Triple) {m : Merged σ} {Ps Ns : List (List Triple)}
    {fuel : Nat} (hp : List.Forall₂ (Behaves I) m.positives Ps)
    (hn : List.Forall₂ (Behaves I) m.negatives Ns) (hlen : Ps.length = Ns.length)
    (hf : total Ps < fuel) :
    ∃ out, Merged.collect I key fuel m = some out ∧ Merge key Ps Ns out := by
  obtain ⟨out, h1, h2⟩ := Merge.exists key _ Ps Ns (Nat.le_refl _)
  refine ⟨out, ?_, h1⟩
  unfold Merged.collect
  refine collectN_eq (R := MergedR I key fuel) ?_ fuel m out ⟨Ps, Ns, hp, hn, hlen, hf, h1⟩
    (by omega)
  rintro st l ⟨Ps, Ns, a1, a2, a3, a4, a5⟩
  exact Merged.next_spec key a5 fuel st fuel a1 a2 a3 a4 a4

end Verif
