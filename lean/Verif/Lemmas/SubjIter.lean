import Verif.Lemmas.TripleRep
import Verif.Lemmas.IterSim

/-!
The subject iterator of a written index.
-/

namespace Verif

/-- The subject side of a written index. -/
structure Core (subjects : Option (List Nat)) (sp spo : AdjList) (ts : List Triple)
    (Psp Pspo : List (Nat × Nat)) : Prop where
  repSp : AdjRep sp Psp
  repSpo : AdjRep spo Pspo
  spoLeft : spo.leftCount = Psp.length
  decEq : Pspo.filterMap (dec subjects Psp) = ts
  stub : ∀ q ∈ Pspo, ∃ rp, Psp[q.1 - 1]? = some rp ∧ (rp.2 = 0 ↔ q.2 = 0)
  zeros : Pspo.countP (fun q => q.2 == 0) = Psp.countP (fun q => q.2 == 0)
  subj : ∀ l, subjects = some l → SortedLt l ∧ l.length = sp.leftCount ∧ ∀ x ∈ l, 1 ≤ x
  full : subjects.isSome = true → ∀ rp ∈ Psp, rp.2 ≠ 0

theorem TInv.core {b ts Psp Pspo} (h : TInv b ts Psp Pspo) :
    Core b.subjects b.sp.finalize b.spo.finalize ts Psp Pspo where
  repSp := h.sp.finalize
  repSpo := h.spo.finalize
  spoLeft := by
    by_cases hP : Pspo = []
    · have hPsp : Psp = [] := by
        by_contra hne
        have := h.last_triple (h.nonempty hne)
        exact this.2 hP
      subst hP hPsp
      rw [h.spo.finalize.leftCount_nil]; rfl
    · rw [h.spo.finalize.leftCount hP, h.spo.last hP, h.spoLast]
  decEq := h.decEq
  stub := h.stub
  zeros := h.zeros
  subj l hl := by
    have hs := h.subj
    rw [hl] at hs
    simp only [SubjInv] at hs
    refine ⟨hs.2.1, ?_, fun x hx => (hs.2.2.1 x hx).1⟩
    rw [← hs.1]
    by_cases hP : Psp = []
    · rw [(h.sp.empty hP).2.1]
      have := h.sp.finalize
      rw [hP] at this
      rw [this.leftCount_nil]
    · rw [h.sp.finalize.leftCount hP, h.sp.last hP]
  full := h.full

namespace Core
variable {subjects : Option (List Nat)} {sp spo : AdjList} {ts : List Triple}
variable {Psp Pspo : List (Nat × Nat)}

theorem cell_lt (h : Core subjects sp spo ts Psp Pspo) {q : Nat × Nat} (hq : q ∈ Pspo) :
    q.1 - 1 < Psp.length := by
  have h1 := h.repSpo.fst_pos hq
  have h2 := h.repSpo.fst_le hq
  rw [h.spoLeft] at h2
  omega

/-- Rows have subjects. -/
theorem subjOf_some (h : Core subjects sp spo ts Psp Pspo) {rp : Nat × Nat} (hrp : rp ∈ Psp) :
    ∃ s, subjOf subjects rp.1 = some s ∧ 1 ≤ s := by
  have h1 := h.repSp.fst_pos hrp
  have h2 := h.repSp.fst_le hrp
  unfold subjOf
  cases hs : subjects with
  | none => exact ⟨rp.1, rfl, h1⟩
  | some l =>
    obtain ⟨_, h4, h5⟩ := h.subj l hs
    have : rp.1 - 1 < l.length := by omega
    exact ⟨l[rp.1 - 1], List.getElem?_eq_getElem this, h5 _ (List.getElem_mem this)⟩

/-- Subjects follow the row order. -/
theorem subjOf_lt (h : Core subjects sp spo ts Psp Pspo) {r r' s s' : Nat} (hr : 1 ≤ r)
    (hs : subjOf subjects r = some s) (hs' : subjOf subjects r' = some s') (hlt : r < r') :
    s < s' := by
  unfold subjOf at hs hs'
  cases hsub : subjects with
  | none =>
    rw [hsub] at hs hs'
    simp at hs hs'
    omega
  | some l =>
    rw [hsub] at hs hs'
    simp only at hs hs'
    obtain ⟨h1, h2⟩ := List.getElem?_eq_some_iff.1 hs
    obtain ⟨h3, h4⟩ := List.getElem?_eq_some_iff.1 hs'
    rw [← h2, ← h4]
    exact List.pairwise_iff_getElem.1 (h.subj l hsub).1 _ _ h1 h3 (by omega)

theorem subjOf_iff (h : Core subjects sp spo ts Psp Pspo) {r r' s s' : Nat} (hr : 1 ≤ r)
    (hr' : 1 ≤ r')
    (hs : subjOf subjects r = some s) (hs' : subjOf subjects r' = some s') :
    s < s' ↔ r < r' := by
  constructor
  · intro hlt
    by_contra hn
    rcases Nat.lt_or_eq_of_le (Nat.le_of_not_lt hn) with hh | hh
    · have := h.subjOf_lt hr' hs' hs hh; omega
    · subst hh; rw [hs] at hs'; simp at hs'; omega
  · exact h.subjOf_lt hr hs hs'

/-- The meaning of an entry. -/
theorem dec_some (h : Core subjects sp spo ts Psp Pspo) {q rp : Nat × Nat}
    (hrp : Psp[q.1 - 1]? = some rp) (hne : q.2 ≠ 0) :
    ∃ s, subjOf subjects rp.1 = some s ∧ 1 ≤ s ∧ dec subjects Psp q = some ⟨s, rp.2, q.2⟩ := by
  obtain ⟨s, hs, hpos⟩ := h.subjOf_some (List.mem_of_getElem? hrp)
  exact ⟨s, hs, hpos, by simp [dec, hne, hrp, hs]⟩

/-- A stub cell has a single entry. -/
theorem stub_bit (h : Core subjects sp spo ts Psp Pspo) {k : Nat} (hk : k < Pspo.length)
    (hz : Pspo[k].2 = 0) : ones spo.bits (k + 1) = ones spo.bits k + 1 := by
  obtain ⟨b, hb, hones⟩ := h.repSpo.bitAt hk
  cases b with
  | true => simpa using hones
  | false =>
    exfalso
    have hk' : k + 1 < Pspo.length := by
      by_contra hn
      have hn' : k + 1 = Pspo.length := by omega
      rw [hn', h.repSpo.ones_end] at hones
      have := h.repSpo.ones_lt hk
      simp at hones; omega
    have h1 := h.repSpo.left k hk
    have h2 := h.repSpo.left (k + 1) hk'
    simp at hones
    have heq : Pspo[k].1 = Pspo[k + 1].1 := by omega
    obtain ⟨rp, hrp, hiff⟩ := h.stub _ (List.getElem_mem hk)
    obtain ⟨rp', hrp', hiff'⟩ := h.stub _ (List.getElem_mem hk')
    rw [← heq, hrp] at hrp'
    simp at hrp'
    subst hrp'
    have hz' : Pspo[k + 1].2 = 0 := hiff'.1 (hiff.2 hz)
    have := List.pairwise_iff_getElem.1 h.repSpo.sorted k (k + 1) hk hk' (by omega)
    unfold PLt at this
    omega

end Core

/-! ### The iterator -/

/-- An iterator over the given structures, at a consistent position. -/
structure SubjIter.Valid (it : SubjIter) (subjects : Option (List Nat)) (sp spo : AdjList)
    (Pspo : List (Nat × Nat)) : Prop where
  subjects_eq : it.subjects = subjects
  sp_eq : it.sp = sp
  spo_eq : it.spo = spo
  pos : Pspo.length ≤ it.spoPos ∨
    (it.spPos = ones spo.bits it.spoPos ∧ it.sPos = ones sp.bits it.spPos)

/-- What the iterator still yields. -/
def SubjIter.rem (it : SubjIter) (Psp Pspo : List (Nat × Nat)) : List Triple :=
  it.peeked.toList ++ (Pspo.drop it.spoPos).filterMap (dec it.subjects Psp)

/-- The relation between iterator states and lists. -/
def SubjR (subjects : Option (List Nat)) (sp spo : AdjList) (Psp Pspo : List (Nat × Nat))
    (it : SubjIter) (l : List Triple) : Prop :=
  it.Valid subjects sp spo Pspo ∧ l = it.rem Psp Pspo

namespace Core
variable {subjects : Option (List Nat)} {sp spo : AdjList} {ts : List Triple}
variable {Psp Pspo : List (Nat × Nat)}

theorem nextLoop_spec (h : Core subjects sp spo ts Psp Pspo) : ∀ (fuel : Nat) (it : SubjIter),
    it.Valid subjects sp spo Pspo → it.peeked = none → Pspo.length - it.spoPos < fuel →
    ∃ it', it.nextLoop fuel = some ((it.rem Psp Pspo).head?, it') ∧
      it'.Valid subjects sp spo Pspo ∧ it'.peeked = none ∧
      it'.rem Psp Pspo = (it.rem Psp Pspo).tail := by
  intro fuel
  induction fuel with
  | zero =>
    intro it hv hp hf
    omega
  | succ fuel ih =>
    intro it hv hp hf
    have hrem : it.rem Psp Pspo = (Pspo.drop it.spoPos).filterMap (dec subjects Psp) := by
      simp [SubjIter.rem, hp, hv.subjects_eq]
    unfold SubjIter.nextLoop
    rw [hv.spo_eq, hv.sp_eq, hv.subjects_eq, h.repSpo.rightCount]
    by_cases hend : it.spoPos ≥ Pspo.length
    · rw [if_pos hend]
      have : it.rem Psp Pspo = [] := by rw [hrem, List.drop_of_length_le hend]; rfl
      exact ⟨it, by rw [this]; rfl, hv, hp, by rw [this]; rfl⟩
    · rw [if_neg hend]
      have hk : it.spoPos < Pspo.length := by omega
      rcases hv.pos with hpos | ⟨hsp, hs⟩
      · omega
      generalize hkdef : it.spoPos = k at *
      have hq : Pspo[k] ∈ Pspo := List.getElem_mem hk
      have hleft := h.repSpo.left k hk
      have hc : it.spPos < Psp.length := by
        have := h.cell_lt hq; omega
      have hcq : Pspo[k].1 - 1 = it.spPos := by omega
      obtain ⟨rp, hrp, hiff⟩ := h.stub _ hq
      rw [hcq] at hrp
      have hrpe : Psp[it.spPos] = rp := by
        rw [List.getElem?_eq_getElem hc] at hrp; exact Option.some.inj hrp
      obtain ⟨spBit, hspb, hspones⟩ := h.repSp.bitAt hc
      obtain ⟨spoBit, hspob, hspoones⟩ := h.repSpo.bitAt hk
      have hspn := h.repSp.numAt hc
      have hspon := h.repSpo.numAt hk
      rw [hrpe] at hspn
      have hrow : rp.1 = it.sPos + 1 := by
        rw [← hrpe, h.repSp.left _ hc]; omega
      have hdrop : Pspo.drop k = Pspo[k] :: Pspo.drop (k + 1) := List.drop_eq_getElem_cons hk
      simp only [hspb, hspn, Option.bind_eq_bind, Option.bind_some]
      by_cases hz : rp.2 = 0
      · rw [if_pos hz]
        have hz' := hiff.1 hz
        have hones := h.stub_bit hk hz'
        have hrem' : it.rem Psp Pspo =
            (Pspo.drop (k + 1)).filterMap (dec subjects Psp) := by
          rw [hrem, hdrop, List.filterMap_cons_none (by simp [dec, hz'])]
        obtain ⟨it', h1, h2, h3, h4⟩ := ih
          { it with sPos := if spBit then it.sPos + 1 else it.sPos,
                    spPos := it.spPos + 1, spoPos := it.spoPos + 1 }
          { subjects_eq := hv.subjects_eq, sp_eq := hv.sp_eq, spo_eq := hv.spo_eq,
            pos := by
              right
              simp only
              refine ⟨by rw [hkdef, hones]; omega, ?_⟩
              rw [hspones, ← hs]
              split <;> simp }
          hp (by simp only; omega)
        have hr2 : SubjIter.rem
            { it with sPos := if spBit then it.sPos + 1 else it.sPos,
                      spPos := it.spPos + 1, spoPos := it.spoPos + 1 } Psp Pspo =
            it.rem Psp Pspo := by
          rw [hrem']
          simp [SubjIter.rem, hp, hv.subjects_eq, hkdef]
        rw [hr2] at h1 h4
        rw [hv.sp_eq, hv.spo_eq, hv.subjects_eq, hkdef] at h1
        exact ⟨it', by simpa [hv.sp_eq, hv.spo_eq, hv.subjects_eq] using h1, h2, h3, h4⟩
      · rw [if_neg hz]
        have hz' : Pspo[k].2 ≠ 0 := fun hh => hz (hiff.2 hh)
        simp only [hspob, hspon, Option.bind_some]
        rw [if_neg hz']
        obtain ⟨s, hs1, hs2, hdec⟩ := h.dec_some (q := Pspo[k]) (by rw [hcq]; exact hrp) hz'
        have hrem' : it.rem Psp Pspo = ⟨s, rp.2, Pspo[k].2⟩ ::
            (Pspo.drop (k + 1)).filterMap (dec subjects Psp) := by
          rw [hrem, hdrop, List.filterMap_cons_some hdec]
        have hnext : ∀ it' : SubjIter, it' =
            { it with spPos := if spoBit then it.spPos + 1 else it.spPos,
                      sPos := if spoBit && spBit then it.sPos + 1 else it.sPos,
                      spoPos := it.spoPos + 1 } →
            it'.Valid subjects sp spo Pspo ∧ it'.peeked = none ∧
              it'.rem Psp Pspo = (it.rem Psp Pspo).tail := by
          intro it' hit'
          subst hit'
          refine ⟨⟨hv.subjects_eq, hv.sp_eq, hv.spo_eq, ?_⟩, hp, ?_⟩
          · right
            simp only
            rw [hkdef, hspoones, ← hsp]
            cases spoBit with
            | true =>
              simp only [if_true, Bool.true_and, true_and]
              rw [hspones, ← hs]
              cases spBit <;> simp
            | false => simp [hs]
          · rw [hrem']
            simp [SubjIter.rem, hp, hv.subjects_eq, hkdef]
        rw [hrem'] at hnext ⊢
        refine ⟨_, ?_, (hnext _ rfl).1, (hnext _ rfl).2.1, (hnext _ rfl).2.2⟩
        unfold subjOf at hs1
        rw [hrow] at hs1
        cases hsub : subjects with
        | none =>
          rw [hsub] at hs1
          simp only [Option.some.injEq] at hs1
          simp [hs1, hkdef, ← hsub, hv.subjects_eq, hv.sp_eq, hv.spo_eq]
        | some l =>
          rw [hsub] at hs1
          simp only [Nat.add_sub_cancel] at hs1
          simp [hs1, hkdef, ← hsub, hv.subjects_eq, hv.sp_eq, hv.spo_eq]

theorem subj_next (h : Core subjects sp spo ts Psp Pspo) :
    NextSim SubjIter.next (SubjR subjects sp spo Psp Pspo) := by
  rintro it l ⟨hv, rfl⟩
  unfold SubjIter.next
  cases hp : it.peeked with
  | some t =>
    refine ⟨{ it with peeked := none }, ?_, ⟨⟨hv.1, hv.2, hv.3, hv.4⟩, ?_⟩⟩
    · simp [SubjIter.rem, hp]
    · simp [SubjIter.rem, hp]
  | none =>
    obtain ⟨it', h1, h2, h3, h4⟩ := h.nextLoop_spec (it.spo.rightCount + 1) it hv hp
      (by rw [hv.spo_eq, h.repSpo.rightCount]; omega)
    exact ⟨it', h1, h2, h4.symm⟩

theorem subj_peek (h : Core subjects sp spo ts Psp Pspo) :
    PeekSim SubjIter.peek (SubjR subjects sp spo Psp Pspo) := by
  rintro it l ⟨hv, rfl⟩
  unfold SubjIter.peek SubjIter.next
  cases hp : it.peeked with
  | some t =>
    refine ⟨it, ?_, ⟨hv, rfl⟩⟩
    simp only [Option.bind_eq_bind, Option.bind_some, SubjIter.rem, hp]
    cases it; simp_all
  | none =>
    obtain ⟨it', h1, h2, h3, h4⟩ := h.nextLoop_spec (it.spo.rightCount + 1) it hv hp
      (by rw [hv.spo_eq, h.repSpo.rightCount]; omega)
    simp only [h1, Option.bind_eq_bind, Option.bind_some]
    refine ⟨_, rfl, ⟨⟨h2.1, h2.2, h2.3, h2.4⟩, ?_⟩⟩
    have h5 : (Pspo.drop it'.spoPos).filterMap (dec it'.subjects Psp) =
        (it.rem Psp Pspo).tail := by
      rw [← h4]; simp [SubjIter.rem, h3]
    simp only [SubjIter.rem] at h5 ⊢
    rw [h5]
    cases (it.peeked.toList ++ (Pspo.drop it.spoPos).filterMap (dec it.subjects Psp)) <;> simp

end Core

end Verif
