import Verif.Model.TripleFile
import Verif.Lemmas.Adj

/-!
What the triple file builder has written, in terms of the pairs of its two
adjacency lists.
-/

namespace Verif

/-- The subject (1-based row number to id). -/
def subjOf (subjects : Option (List Nat)) (r : Nat) : Option Nat :=
  match subjects with
  | none => some r
  | some l => l[r - 1]?

/-- The triple denoted by an entry of the second adjacency list. -/
def dec (subjects : Option (List Nat)) (Psp : List (Nat × Nat)) (q : Nat × Nat) : Option Triple :=
  if q.2 = 0 then none
  else (Psp[q.1 - 1]?).bind fun rp => (subjOf subjects rp.1).map fun s => ⟨s, rp.2, q.2⟩

/-- The relation between subjects, the rows used so far and the last subject. -/
def SubjInv (subjects : Option (List Nat)) (lastLeft lastS : Nat) : Prop :=
  match subjects with
  | none => lastLeft = lastS
  | some l => lastLeft = l.length ∧ SortedLt l ∧ (∀ x ∈ l, 1 ≤ x ∧ x ≤ lastS) ∧
      (l = [] → lastS = 0) ∧ (l ≠ [] → l.getLast? = some lastS)

structure TInv (b : TripleBuilder) (ts : List Triple) (Psp Pspo : List (Nat × Nat)) : Prop where
  sp : BInv b.sp Psp
  spo : BInv b.spo Pspo
  spoLast : b.spo.lastLeft = Psp.length
  empty : ts = [] → Psp = [] ∧ Pspo = [] ∧ b.lastS = 0 ∧ b.lastP = 0
  nonempty : Psp ≠ [] → ts ≠ []
  spLast : Psp ≠ [] → b.sp.lastRight = b.lastP
  subj : SubjInv b.subjects b.sp.lastLeft b.lastS
  decEq : Pspo.filterMap (dec b.subjects Psp) = ts
  stub : ∀ q ∈ Pspo, ∃ rp, Psp[q.1 - 1]? = some rp ∧ (rp.2 = 0 ↔ q.2 = 0)
  zeros : Pspo.countP (fun q => q.2 == 0) = Psp.countP (fun q => q.2 == 0)
  pspo_pos : ∀ q ∈ Pspo, 1 ≤ q.1
  psp_pos : ∀ q ∈ Psp, 1 ≤ q.1
  full : b.subjects.isSome = true → ∀ rp ∈ Psp, rp.2 ≠ 0

theorem TInv.new (sparse : Bool) : TInv (TripleBuilder.new sparse) [] [] [] where
  sp := BInv.nil
  spo := BInv.nil
  spoLast := rfl
  empty _ := ⟨rfl, rfl, rfl, rfl⟩
  nonempty h := absurd rfl h
  spLast h := absurd rfl h
  subj := by
    cases sparse
    · simp [SubjInv, TripleBuilder.new]
    · simp [SubjInv, TripleBuilder.new, SortedLt]
  decEq := rfl
  stub := by simp
  zeros := rfl
  pspo_pos := by simp
  psp_pos := by simp
  full := by simp

theorem filterMap_congr' {α β : Type _} {f g : α → Option β} {l : List α}
    (h : ∀ x ∈ l, f x = g x) : l.filterMap f = l.filterMap g := by
  induction l with
  | nil => rfl
  | cons x xs ih =>
    rw [List.filterMap_cons, List.filterMap_cons, h x (by simp),
      ih fun y hy => h y (by simp [hy])]

theorem countP_stubs (a l : Nat) : (stubs a l).countP (fun q => q.2 == 0) = l - 1 - a := by
  rw [List.countP_eq_length.2, stubs_length]
  intro q hq
  simpa using (mem_stubs.1 hq).2.2

theorem filterMap_stubs {subjects Psp a l} : (stubs a l).filterMap (dec subjects Psp) = [] := by
  rw [List.filterMap_eq_nil_iff]
  intro q hq
  simp [dec, (mem_stubs.1 hq).2.2]

/-- Old entries keep their meaning when rows are appended. -/
theorem dec_append {subjects subjects' Psp X} {q : Nat × Nat}
    (hs : ∀ rp ∈ Psp, subjOf subjects' rp.1 = subjOf subjects rp.1)
    (hq : q.1 - 1 < Psp.length) :
    dec subjects' (Psp ++ X) q = dec subjects Psp q := by
  unfold dec
  rw [List.getElem?_append_left hq, List.getElem?_eq_getElem hq]
  simp [hs _ (List.getElem_mem hq)]

theorem TInv.last_triple {b ts Psp Pspo} (h : TInv b ts Psp Pspo) (hts : ts ≠ []) :
    Psp ≠ [] ∧ Pspo ≠ [] := by
  have hPspo : Pspo ≠ [] := by
    intro hh
    have := h.decEq
    rw [hh] at this
    exact hts this.symm
  refine ⟨?_, hPspo⟩
  intro hh
  have := h.spo.last hPspo
  have h2 := h.pspo_pos _ (List.getLast_mem hPspo)
  rw [this, h.spoLast, hh] at h2
  simp at h2

theorem subjOf_last {subjects lastLeft lastS} (h : SubjInv subjects lastLeft lastS)
    (hpos : 1 ≤ lastLeft) : subjOf subjects lastLeft = some lastS := by
  unfold SubjInv at h
  unfold subjOf
  cases subjects with
  | none => simp at h ⊢; exact h
  | some l =>
    simp only at h ⊢
    have hne : l ≠ [] := by intro hh; rw [hh] at h; simp at h; omega
    rw [h.1, ← List.getLast?_eq_getElem?]
    exact h.2.2.2.2 hne

/-- Adding a larger triple appends it. -/
theorem TInv.add {b ts Psp Pspo} (h : TInv b ts Psp Pspo) {t : Triple}
    (hs : t.s ≠ 0) (hp : t.p ≠ 0) (ho : t.o ≠ 0)
    (hlt : ts ≠ [] → (⟨b.lastS, b.lastP, b.spo.lastRight⟩ : Triple) < t) :
    ∃ b' Psp' Pspo', b.addTriple t = some b' ∧ TInv b' (ts ++ [t]) Psp' Pspo' ∧
      b'.lastS = t.s ∧ b'.lastP = t.p ∧ b'.spo.lastRight = t.o ∧
      (b'.subjects.isSome = b.subjects.isSome) := by
  have hz : ¬ (t.s = 0 ∨ t.p = 0 ∨ t.o = 0) := by omega
  have hlast : b.lastS < t.s ∨ (b.lastS = t.s ∧ (b.lastP < t.p ∨ (b.lastP = t.p ∧
      b.spo.lastRight < t.o))) := by
    by_cases hts : ts = []
    · have := h.empty hts; omega
    · have := hlt hts
      rw [Triple.lt_def] at this
      simpa using this
  have hnlt : ¬ t.s < b.lastS := by omega
  unfold TripleBuilder.addTriple
  rw [if_neg hz, if_neg hnlt]
  by_cases hsame : b.lastS = t.s ∧ b.lastP = t.p
  · -- same subject and predicate
    rw [if_pos hsame]
    have hts : ts ≠ [] := by
      intro hh; have := h.empty hh; omega
    obtain ⟨hPsp, hPspo⟩ := h.last_triple hts
    have hcount := h.sp.count hPsp
    have hlen := List.length_pos_iff.2 hPsp
    obtain ⟨spo', hpush, hinv, hl', hr'⟩ := h.spo.push (l := b.sp.count + 1) (r := t.o)
      (by omega) (by right; rw [h.spoLast]; omega)
    rw [hpush]
    have hst : stubs b.spo.lastLeft (b.sp.count + 1) = [] := by
      rw [hcount, h.spoLast, stubs_self]
    rw [hst, List.append_nil, hcount] at hinv
    have hgl : Psp[Psp.length - 1]? = some (b.sp.lastLeft, b.sp.lastRight) := by
      rw [← List.getLast?_eq_getElem?, List.getLast?_eq_some_getLast hPsp, h.sp.last hPsp]
    have hll : 1 ≤ b.sp.lastLeft := by have := h.sp.lastLeft_pos hPsp; omega
    have hdec : dec b.subjects Psp (Psp.length, t.o) = some t := by
      unfold dec
      rw [if_neg ho, hgl]
      simp only [Option.bind_some, subjOf_last h.subj hll, Option.map_some, h.spLast hPsp]
      cases t; simp_all
    refine ⟨_, Psp, Pspo ++ [(Psp.length, t.o)], rfl, ?_, rfl, rfl, hr', rfl⟩
    constructor
    · exact h.sp
    · exact hinv
    · rw [hl', hcount]
    · intro hh; simp at hh
    · intro _; simp
    · intro _; rw [h.spLast hPsp]; exact hsame.2
    · show SubjInv b.subjects b.sp.lastLeft t.s
      rw [← hsame.1]; exact h.subj
    · rw [List.filterMap_append]
      simp only [h.decEq, List.filterMap_cons, hdec, List.filterMap_nil]
    · intro q hq
      rcases List.mem_append.1 hq with hq | hq
      · exact h.stub q hq
      · simp only [List.mem_singleton] at hq
        subst hq
        refine ⟨_, hgl, ?_⟩
        simp only [h.spLast hPsp]
        omega
    · rw [List.countP_append, h.zeros]
      simp [ho]
    · intro q hq
      rcases List.mem_append.1 hq with hq | hq
      · exact h.pspo_pos q hq
      · simp only [List.mem_singleton] at hq
        subst hq; exact hlen
    · exact h.psp_pos
    · exact h.full
  · rw [if_neg hsame]
    have hord2 : b.lastS < t.s ∨ (b.lastS = t.s ∧ b.lastP < t.p) := by omega
    -- the new subjects and row
    obtain ⟨subjects', mapped, hsub', hmap, hrow, hsinv, hext, hsome, hfull⟩ :
        ∃ subjects' mapped,
          b.nextSubjects t.s = subjects' ∧
          TripleBuilder.mappedSubject subjects' t.s = mapped ∧
          (1 ≤ mapped ∧ (b.sp.lastLeft < mapped ∨ (b.sp.lastLeft = mapped ∧ b.lastS = t.s))) ∧
          SubjInv subjects' mapped t.s ∧
          (∀ rp ∈ Psp, subjOf subjects' rp.1 = subjOf b.subjects rp.1) ∧
          subjects'.isSome = b.subjects.isSome ∧
          (subjects'.isSome = true → mapped ≤ b.sp.lastLeft + 1) := by
      have hsub := h.subj
      cases hb : b.subjects with
      | none =>
        rw [hb] at hsub
        simp only [SubjInv] at hsub
        refine ⟨none, t.s, by simp [TripleBuilder.nextSubjects, hb], rfl, ⟨by omega, by omega⟩, rfl,
          fun _ _ => rfl, rfl, by simp⟩
      | some l =>
        rw [hb] at hsub
        simp only [SubjInv] at hsub
        obtain ⟨h1, h2, h3, h4, h5⟩ := hsub
        by_cases hne : t.s ≠ b.lastS
        · refine ⟨some (l ++ [t.s]), l.length + 1,
            by simp [TripleBuilder.nextSubjects, hb, hne],
            by simp [TripleBuilder.mappedSubject], ⟨by omega, by omega⟩,
            ?_, ?_, rfl, fun _ => by omega⟩
          · simp only [SubjInv]
            refine ⟨by simp, ?_, ?_, by simp, by simp⟩
            · unfold SortedLt
              rw [List.pairwise_append]
              refine ⟨h2, List.pairwise_singleton _ _, ?_⟩
              intro x hx y hy
              simp only [List.mem_singleton] at hy
              have := h3 x hx
              omega
            · intro x hx
              rcases List.mem_append.1 hx with hx | hx
              · have := h3 x hx; omega
              · simp only [List.mem_singleton] at hx; omega
          · intro rp hrp
            simp only [subjOf]
            have hb2 := h.sp.bound rp hrp
            have hb3 := h.psp_pos rp hrp
            rw [List.getElem?_append_left (by omega)]
        · have heq : t.s = b.lastS := by omega
          refine ⟨some l, l.length, by simp [TripleBuilder.nextSubjects, hb, heq], rfl,
            ?_, ?_, fun _ _ => rfl, rfl, fun _ => by omega⟩
          · have : l ≠ [] := fun hh => by have := h4 hh; omega
            have := List.length_pos_iff.2 this
            omega
          · simp only [SubjInv]
            rw [heq]
            exact ⟨trivial, h2, h3, h4, h5⟩
    simp only [hsub', hmap]
    have hord3 : b.sp.lastLeft < mapped ∨ (b.sp.lastLeft = mapped ∧ b.sp.lastRight < t.p) := by
      rcases hrow.2 with hr | ⟨hr1, hr2⟩
      · left; exact hr
      · right
        refine ⟨hr1, ?_⟩
        by_cases hPsp : Psp = []
        · have := h.sp.empty hPsp; omega
        · rw [h.spLast hPsp]; omega
    obtain ⟨sp', hpush, hinv, hl', hr'⟩ := h.sp.push (l := mapped) (r := t.p) hrow.1 hord3
    have hPsp'ne : Psp ++ stubs b.sp.lastLeft mapped ++ [(mapped, t.p)] ≠ [] := by simp
    have hcount := hinv.count hPsp'ne
    have hlen' : (Psp ++ stubs b.sp.lastLeft mapped ++ [(mapped, t.p)]).length =
        Psp.length + (mapped - 1 - b.sp.lastLeft) + 1 := by
      simp [stubs_length]; omega
    obtain ⟨spo', hpush2, hinv2, hl2, hr2⟩ := h.spo.push (l := sp'.count + 1) (r := t.o)
      (by omega) (by left; rw [h.spoLast]; omega)
    rw [hpush]
    simp only [Option.bind_eq_bind, Option.bind_some, hpush2]
    rw [hcount, hlen', h.spoLast] at hinv2
    have hgl : (Psp ++ stubs b.sp.lastLeft mapped ++ [(mapped, t.p)])[
        Psp.length + (mapped - 1 - b.sp.lastLeft)]? = some (mapped, t.p) := by
      have := List.getLast?_eq_getElem? (l := Psp ++ stubs b.sp.lastLeft mapped ++ [(mapped, t.p)])
      rw [hlen'] at this
      simp only [Nat.add_sub_cancel] at this
      rw [← this]; simp
    have hdec : dec subjects' (Psp ++ stubs b.sp.lastLeft mapped ++ [(mapped, t.p)])
        (Psp.length + (mapped - 1 - b.sp.lastLeft) + 1, t.o) = some t := by
      unfold dec
      rw [if_neg ho]
      simp only [Nat.add_sub_cancel, hgl, Option.bind_some, subjOf_last hsinv hrow.1,
        Option.map_some]
    refine ⟨_, _, _, rfl, TInv.mk hinv hinv2 ?_ ?_ ?_ ?_ ?_ ?_ ?_ ?_ ?_ ?_ ?_, rfl, rfl, hr2, hsome⟩
    · simp only [hl2, hcount]
    · intro hh; simp at hh
    · intro _; simp
    · intro _; exact hr'
    · show SubjInv subjects' sp'.lastLeft t.s
      rw [hl']; exact hsinv
    · rw [List.filterMap_append, List.filterMap_append, filterMap_stubs]
      simp only [List.filterMap_cons, hdec, List.filterMap_nil, List.append_nil]
      congr 1
      rw [← h.decEq]
      apply filterMap_congr'
      intro q hq
      rw [List.append_assoc]
      apply dec_append hext
      have h1 := h.spo.bound q hq
      have h2 := h.pspo_pos q hq
      rw [h.spoLast] at h1
      omega
    · intro q hq
      simp only [List.mem_append, List.mem_singleton] at hq
      rcases hq with (hq | hq) | hq
      · obtain ⟨rp, hrp, hiff⟩ := h.stub q hq
        refine ⟨rp, ?_, hiff⟩
        rw [List.append_assoc, List.getElem?_append_left]
        · exact hrp
        · exact (List.getElem?_eq_some_iff.1 hrp).1
      · rw [mem_stubs] at hq
        have hidx : q.1 - 1 - Psp.length < (stubs b.sp.lastLeft mapped).length := by
          rw [stubs_length]; omega
        have hmem := List.getElem_mem hidx
        refine ⟨(stubs b.sp.lastLeft mapped)[q.1 - 1 - Psp.length], ?_, ?_⟩
        · rw [List.append_assoc, List.getElem?_append_right (by omega),
            List.getElem?_append_left hidx, List.getElem?_eq_getElem hidx]
        · have := (mem_stubs.1 hmem).2.2
          simp [this, hq.2.2]
      · subst hq
        exact ⟨_, by simpa using hgl, by simp [hp, ho]⟩
    · simp only [List.countP_append, h.zeros, countP_stubs, List.countP_singleton]
      simp [hp, ho]
    · intro q hq
      simp only [List.mem_append, List.mem_singleton] at hq
      rcases hq with (hq | hq) | hq
      · exact h.pspo_pos q hq
      · have := (mem_stubs.1 hq).1; omega
      · subst hq; simp
    · intro q hq
      simp only [List.mem_append, List.mem_singleton] at hq
      rcases hq with (hq | hq) | hq
      · exact h.psp_pos q hq
      · have := (mem_stubs.1 hq).1; omega
      · subst hq; exact hrow.1
    · intro hsm q hq
      simp only [List.mem_append, List.mem_singleton] at hq
      rcases hq with (hq | hq) | hq
      · exact h.full (by rw [← hsome]; exact hsm) q hq
      · have := hfull hsm
        have := mem_stubs.1 hq; omega
      · subst hq; exact hp

/-- A triple without a zero component. -/
def Triple.Nonzero (t : Triple) : Prop := t.s ≠ 0 ∧ t.p ≠ 0 ∧ t.o ≠ 0

theorem TInv.addAll {b ts Psp Pspo} (h : TInv b ts Psp Pspo) : ∀ (us : List Triple),
    (∀ u ∈ us, u.Nonzero) → SortedLt us →
    (∀ u ∈ us, ts ≠ [] → (⟨b.lastS, b.lastP, b.spo.lastRight⟩ : Triple) < u) →
    ∃ b' Psp' Pspo', b.addTriples us = some b' ∧ TInv b' (ts ++ us) Psp' Pspo' ∧
      b'.subjects.isSome = b.subjects.isSome := by
  intro us
  induction us generalizing b ts Psp Pspo with
  | nil =>
    intro _ _ _
    exact ⟨b, Psp, Pspo, rfl, by simpa using h, rfl⟩
  | cons u us ih =>
    intro hz hsort hlt
    obtain ⟨hu1, hu2, hu3⟩ := hz u (by simp)
    obtain ⟨b', Psp', Pspo', hadd, hinv, hs, hp, ho, hsome⟩ :=
      h.add hu1 hu2 hu3 (hlt u (by simp))
    unfold SortedLt at hsort
    rw [List.pairwise_cons] at hsort
    obtain ⟨b'', Psp'', Pspo'', hadd2, hinv2, hsome2⟩ := ih hinv
      (fun v hv => hz v (by simp [hv])) hsort.2
      (fun v hv _ => by
        have := hsort.1 v hv
        rw [hs, hp, ho]
        exact this)
    refine ⟨b'', Psp'', Pspo'', ?_, ?_, by rw [hsome2, hsome]⟩
    · simp [TripleBuilder.addTriples, hadd, hadd2]
    · simpa using hinv2

end Verif
