import Verif.Model.TripleStream
import Verif.Lemmas.Index

/-!
The streaming readers yield the written triples.
-/

set_option linter.unusedVariables false

namespace Verif

/-- The lefts of the pairs rise by at most one, starting from `k`. -/
def Contig : Nat → List (Nat × Nat) → Prop
  | _, [] => True
  | k, q :: P => (q.1 = k ∨ q.1 = k + 1) ∧ Contig q.1 P

theorem AdjRep.contig_drop {a : AdjList} {P : List (Nat × Nat)} (h : AdjRep a P) :
    ∀ (n j : Nat) (hj : j < P.length), P.length - j = n → Contig P[j].1 (P.drop (j + 1)) := by
  intro n
  induction n with
  | zero => intro j hj h0; omega
  | succ n ih =>
    intro j hj hn
    by_cases hj' : j + 1 < P.length
    · rw [List.drop_eq_getElem_cons hj']
      refine ⟨?_, ih (j + 1) hj' (by omega)⟩
      rw [h.left j hj, h.left (j + 1) hj']
      obtain ⟨b, _, hb⟩ := h.bitAt hj
      rw [hb]
      cases b <;> simp
    · rw [List.drop_eq_nil_of_le (by omega)]
      trivial

theorem AdjRep.contig {a : AdjList} {P : List (Nat × Nat)} (h : AdjRep a P) : Contig 0 P := by
  cases P with
  | nil => trivial
  | cons q P =>
    have h0 := h.left 0 (by simp)
    rw [ones_zero] at h0
    refine ⟨Or.inr (by simpa using h0), ?_⟩
    exact h.contig_drop (P.length + 1) 0 (by simp) (by simp)

/-- A pair that is not a stub. -/
def notStub (q : Nat × Nat) : Bool := q.2 != 0

theorem drop_filter_stub {P : List (Nat × Nat)} {k : Nat} {rp : Nat × Nat} (h : P[k]? = some rp)
    (hz : rp.2 = 0) : (P.drop k).filter notStub = (P.drop (k + 1)).filter notStub := by
  obtain ⟨hk, rfl⟩ := List.getElem?_eq_some_iff.1 h
  rw [List.drop_eq_getElem_cons hk, List.filter_cons_of_neg (by simp [notStub, hz])]

theorem drop_filter_pair {P : List (Nat × Nat)} {k : Nat} {rp : Nat × Nat} (h : P[k]? = some rp)
    (hz : rp.2 ≠ 0) : (P.drop k).filter notStub = rp :: (P.drop (k + 1)).filter notStub := by
  obtain ⟨hk, rfl⟩ := List.getElem?_eq_some_iff.1 h
  rw [List.drop_eq_getElem_cons hk, List.filter_cons_of_pos (by simp [notStub, hz])]

theorem baseStreamLoop_spec {Psp : List (Nat × Nat)} : ∀ (suf : List (Nat × Nat)) (k : Nat)
    (last : Nat × Nat) (lastSp : Nat),
    Contig k suf → (∀ q ∈ suf, ∃ rp, Psp[q.1 - 1]? = some rp ∧ (rp.2 = 0 ↔ q.2 = 0)) →
    lastSp ≤ k →
    (∀ rp, 1 ≤ k → Psp[k - 1]? = some rp → rp.2 ≠ 0 → last = rp ∧ lastSp = k) →
    (k = 0 → ∀ q ∈ suf, 1 ≤ q.1) →
    baseStreamLoop last lastSp ((Psp.drop k).filter notStub) (suf.filter notStub) =
      some (suf.filterMap (dec none Psp)) := by
  intro suf
  induction suf with
  | nil => intros; rfl
  | cons q suf ih =>
    intro k last lastSp hc hstub hle hlast h0
    obtain ⟨rp, hrp, hiff⟩ := hstub q (by simp)
    have hstub' := fun x hx => hstub x (List.mem_cons_of_mem _ hx)
    have hpos : 1 ≤ q.1 := by
      by_cases hk : k = 0
      · exact h0 hk q (by simp)
      · rcases hc.1 with h | h <;> omega
    have hnext0 : q.1 = 0 → ∀ x ∈ suf, 1 ≤ x.1 := fun h => by omega
    by_cases hq : q.2 = 0
    · have hd : dec none Psp q = none := by simp [dec, hq]
      rw [List.filter_cons_of_neg (by simp [notStub, hq]), List.filterMap_cons, hd]
      rcases hc.1 with hk | hk
      · have := ih k last lastSp (hk ▸ hc.2) hstub' hle hlast
          (fun h => by omega)
        exact this
      · have hrp' : Psp[k]? = some rp := by rw [hk] at hrp; simpa using hrp
        rw [drop_filter_stub hrp' (hiff.2 hq)]
        refine ih (k + 1) last lastSp (hk ▸ hc.2) hstub' (by omega) ?_ (by omega)
        intro rp' _ h1 h2
        simp only [Nat.add_sub_cancel] at h1
        rw [hrp'] at h1
        cases h1
        exact absurd (hiff.2 hq) h2
    · have hrz : rp.2 ≠ 0 := fun h => hq (hiff.1 h)
      have hd : dec none Psp q = some ⟨rp.1, rp.2, q.2⟩ := by
        simp [dec, hq, hrp, subjOf]
      rw [List.filter_cons_of_pos (by simp [notStub, hq]), List.filterMap_cons, hd]
      obtain ⟨qs, qo⟩ := q
      simp only at hpos hq hrp hiff hd hc ⊢
      rcases hc.1 with hk | hk
      · subst hk
        obtain ⟨rfl, rfl⟩ := hlast rp hpos hrp hrz
        unfold baseStreamLoop
        simp only [gt_iff_lt, Nat.lt_irrefl, if_false]
        rw [ih lastSp last lastSp hc.2 hstub' hle hlast (by omega)]
        rfl
      · subst hk
        simp only [Nat.add_sub_cancel] at hrp
        rw [drop_filter_pair hrp hrz]
        unfold baseStreamLoop
        simp only [gt_iff_lt, show lastSp < k + 1 by omega, if_true]
        rw [ih (k + 1) (rp.1, rp.2) (k + 1) hc.2 hstub' (by omega) ?_ (by omega)]
        · rfl
        · intro rp' _ h1 _
          simp only [Nat.add_sub_cancel] at h1
          rw [hrp] at h1
          cases h1
          exact ⟨rfl, rfl⟩

theorem contig_getElem {P : List (Nat × Nat)} : ∀ {k : Nat}, Contig k P → ∀ (j : Nat),
    (hj : j + 1 < P.length) → P[j + 1].1 = P[j].1 ∨ P[j + 1].1 = P[j].1 + 1 := by
  induction P with
  | nil => intro k _ j hj; simp at hj
  | cons q P ih =>
    intro k h j hj
    cases j with
    | zero =>
      cases P with
      | nil => simp at hj
      | cons r P => exact h.2.1
    | succ j =>
      have := ih h.2 j (by simp at hj; omega)
      simpa using this

theorem childStreamLoop_spec {Psp : List (Nat × Nat)} {l : List Nat} (hPc : Contig 0 Psp)
    (hfull : ∀ rp ∈ Psp, rp.2 ≠ 0) (hrow : ∀ rp ∈ Psp, 1 ≤ rp.1 ∧ rp.1 ≤ l.length) :
    ∀ (suf : List (Nat × Nat)) (k : Nat) (mapped : Nat) (last : Nat × Nat),
    Contig k suf → (∀ q ∈ suf, q.2 ≠ 0 ∧ ∃ rp, Psp[q.1 - 1]? = some rp) →
    (∀ rp, 1 ≤ k → Psp[k - 1]? = some rp → last = rp ∧ l[rp.1 - 1]? = some mapped) →
    (k = 0 → last = (0, 0) ∧ ∀ q ∈ suf, 1 ≤ q.1) →
    (k ≤ Psp.length) →
    childStreamLoop mapped last k (l.drop last.1) (Psp.drop k) suf =
      some (suf.filterMap (dec (some l) Psp)) := by
  intro suf
  induction suf with
  | nil => intros; rfl
  | cons q suf ih =>
    intro k mapped last hc hstub hlast h0 hkle
    obtain ⟨hq, rp, hrp⟩ := hstub q (by simp)
    have hstub' := fun x hx => hstub x (List.mem_cons_of_mem _ hx)
    have hpos : 1 ≤ q.1 := by
      by_cases hk : k = 0
      · exact (h0 hk).2 q (by simp)
      · rcases hc.1 with h | h <;> omega
    obtain ⟨hlt, hget⟩ := List.getElem?_eq_some_iff.1 hrp
    have hmem : rp ∈ Psp := List.mem_of_getElem? hrp
    have hr := hrow rp hmem
    have hsub : l[rp.1 - 1]? = some l[rp.1 - 1] := List.getElem?_eq_getElem (by omega)
    have hd : dec (some l) Psp q = some ⟨l[rp.1 - 1], rp.2, q.2⟩ := by
      simp [dec, hq, hrp, subjOf, hsub]
    rw [List.filterMap_cons, hd]
    obtain ⟨qs, qo⟩ := q
    simp only at hpos hq hrp hd hc hlt hget ⊢
    rcases hc.1 with hk | hk
    · subst hk
      obtain ⟨h1, h2⟩ := hlast rp hpos hrp
      subst h1
      have hm : mapped = l[last.1 - 1] := by rw [hsub] at h2; cases h2; rfl
      unfold childStreamLoop
      simp only [gt_iff_lt, Nat.lt_irrefl, if_false]
      rw [ih qs mapped last hc.2 hstub' hlast (by omega) hkle, hm]
      rfl
    · subst hk
      simp only [Nat.add_sub_cancel] at hrp hlt hget
      rw [List.drop_eq_getElem_cons hlt, hget]
      obtain ⟨r, p⟩ := rp
      simp only at hr hsub hd ⊢
      -- the row before
      have hprev : r = last.1 ∨ r = last.1 + 1 := by
        by_cases hk0 : k = 0
        · subst hk0
          rw [(h0 rfl).1]
          cases hP : Psp with
          | nil => rw [hP] at hlt; simp at hlt
          | cons x P =>
            subst hP
            simp only [List.getElem_cons_zero] at hget
            subst hget
            have := hPc.1
            simpa using this
        · have hk1 : k - 1 < Psp.length := by omega
          obtain ⟨h1, _⟩ := hlast _ (by omega) (List.getElem?_eq_getElem hk1)
          have := contig_getElem hPc (k - 1) (by omega)
          have hkk : k - 1 + 1 = k := by omega
          simp only [hkk, hget] at this
          rw [h1]
          exact this
      have hnext : ∀ rp', 1 ≤ k + 1 → Psp[k + 1 - 1]? = some rp' →
          (r, p) = rp' ∧ l[rp'.1 - 1]? = some l[r - 1] := by
        intro rp' _ h1
        simp only [Nat.add_sub_cancel] at h1
        rw [hrp] at h1
        cases h1
        exact ⟨rfl, hsub⟩
      unfold childStreamLoop
      simp only [gt_iff_lt, Nat.lt_succ_self, if_true]
      rcases hprev with he | he
      · -- same subject
        have hk0 : k ≠ 0 := by
          intro hk0
          rw [(h0 hk0).1] at he
          simp only at he
          omega
        have hk1 : k - 1 < Psp.length := by omega
        obtain ⟨h1, h2⟩ := hlast _ (by omega) (List.getElem?_eq_getElem hk1)
        have hm : mapped = l[r - 1] := by
          rw [← h1, ← he, hsub] at h2
          cases h2
          rfl
        have hih := ih (k + 1) l[r - 1] (r, p) hc.2 hstub' hnext (by omega) (by omega)
        simp only at hih ⊢
        rw [if_neg (by omega), hm, ← he, hih]
        rfl
      · have hlt' : last.1 < l.length := by omega
        have hih := ih (k + 1) l[r - 1] (r, p) hc.2 hstub' hnext (by omega) (by omega)
        have hdrop : l.drop last.1 = l[r - 1] :: l.drop r := by
          rw [List.drop_eq_getElem_cons hlt']
          simp only [he, Nat.add_sub_cancel]
        simp only at hih ⊢
        rw [if_pos (by omega), hdrop]
        simp only
        rw [hih]
        rfl

namespace Stored
variable {x : TripleIndex} {ts : List Triple}

/-- The base stream yields the written triples. -/
theorem baseStream (h : Stored x ts) (hs : x.subjects = none) :
    baseTripleStream x.sp x.spo = some ts := by
  obtain ⟨_, Psp, Pspo, _, hc, _⟩ := h
  unfold baseTripleStream
  rw [streamPairs_eq hc.repSp, streamPairs_eq hc.repSpo]
  have := baseStreamLoop_spec (Psp := Psp) Pspo 0 (0, 0) 0 hc.repSpo.contig hc.stub
    (Nat.le_refl _) (by omega) (fun _ q hq => hc.repSpo.fst_pos hq)
  rw [← hs, hc.decEq] at this
  exact this

/-- The child stream yields the written triples. -/
theorem childStream (h : Stored x ts) {l : List Nat} (hs : x.subjects = some l) :
    childTripleStream l x.sp x.spo = some ts := by
  obtain ⟨_, Psp, Pspo, _, hc, _⟩ := h
  have hfull := hc.full (by rw [hs]; rfl)
  have hl := (hc.subj l hs).2.1
  have hnz : ∀ q ∈ Pspo, q.2 ≠ 0 := by
    intro q hq hz
    obtain ⟨rp, h1, h2⟩ := hc.stub q hq
    exact hfull rp (List.mem_of_getElem? h1) (h2.2 hz)
  unfold childTripleStream
  rw [streamPairs_eq hc.repSp, streamPairs_eq hc.repSpo,
    List.filter_eq_self.2 (fun q hq => by simpa using hfull q hq),
    List.filter_eq_self.2 (fun q hq => by simpa using hnz q hq)]
  have := childStreamLoop_spec (Psp := Psp) (l := l) hc.repSp.contig hfull
    (fun rp hrp => ⟨hc.repSp.fst_pos hrp, by rw [hl]; exact hc.repSp.fst_le hrp⟩) Pspo 0 0 (0, 0)
    hc.repSpo.contig
    (fun q hq => ⟨hnz q hq, (hc.stub q hq).imp fun _ h => h.1⟩)
    (by omega) (fun _ => ⟨rfl, fun q hq => hc.repSpo.fst_pos hq⟩) (Nat.zero_le _)
  rw [← hs, hc.decEq] at this
  exact this

end Stored

/-- Whether the subjects are stored is decided by the builder. -/
theorem buildIndex_sparse {sparse : Bool} {ts : List Triple} {x : TripleIndex}
    (h : buildIndex sparse ts = some x) : x.subjects.isSome = sparse := by
  have hadd : ∀ (us : List Triple) (b b' : TripleBuilder), b.addTriples us = some b' →
      b'.subjects.isSome = b.subjects.isSome := by
    intro us
    induction us with
    | nil => intro b b' h; simp only [TripleBuilder.addTriples, Option.some.injEq] at h; rw [h]
    | cons u us ih =>
      intro b b' h
      simp only [TripleBuilder.addTriples, Option.bind_eq_bind, Option.bind_eq_some_iff] at h
      obtain ⟨b1, h1, h2⟩ := h
      rw [ih b1 b' h2]
      unfold TripleBuilder.addTriple at h1
      split at h1
      · simp only [Option.some.injEq] at h1; rw [h1]
      · split at h1
        · cases h1
        · split at h1
          · simp only [Option.bind_eq_bind, Option.bind_eq_some_iff, pure,
              Option.some.injEq] at h1
            obtain ⟨_, _, rfl⟩ := h1
            rfl
          · simp only [Option.bind_eq_bind, Option.bind_eq_some_iff, pure,
              Option.some.injEq] at h1
            obtain ⟨_, _, _, _, rfl⟩ := h1
            simp only [TripleBuilder.nextSubjects]
            cases b.subjects <;> rfl
  unfold buildIndex at h
  simp only [Option.bind_eq_bind, Option.bind_eq_some_iff] at h
  obtain ⟨b, h1, h2⟩ := h
  unfold TripleBuilder.finish at h2
  simp only [Option.bind_eq_bind, Option.bind_eq_some_iff, pure, Option.some.injEq] at h2
  obtain ⟨_, _, rfl⟩ := h2
  rw [hadd ts _ _ h1]
  cases sparse <;> rfl

end Verif
