import Verif.Lemmas.SubjIter

/-!
Seeking with the subject iterator, and membership.
-/

namespace Verif

theorem drop_filterMap_eq {α β : Type _} (d : α → Option β) (g : β → Bool) :
    ∀ (P : List α) (k : Nat),
      (∀ j (hj : j < P.length) t, d P[j] = some t → (k ≤ j ↔ g t = true)) →
      (P.drop k).filterMap d = (P.filterMap d).filter g
  | [], k, _ => by simp
  | x :: xs, 0, h => by
    symm; rw [List.drop_zero, List.filter_eq_self]
    intro t ht
    obtain ⟨a, ha, hd⟩ := List.mem_filterMap.1 ht
    obtain ⟨j, hj, rfl⟩ := List.getElem_of_mem ha
    exact (h j hj t hd).1 (Nat.zero_le _)
  | x :: xs, k + 1, h => by
    rw [List.drop_succ_cons, drop_filterMap_eq d g xs k]
    · cases hx : d x with
      | none => rw [List.filterMap_cons_none hx]
      | some t =>
        rw [List.filterMap_cons_some hx, List.filter_cons_of_neg]
        intro hg
        have := (h 0 (by simp) t hx).2 hg
        omega
    · intro j hj t ht
      have := h (j + 1) (by simp; omega) t (by simpa using ht)
      rw [← this]; omega

theorem nearestIndexOf_spec : ∀ {l : List Nat}, SortedLt l → ∀ (x i : Nat) (hi : i < l.length),
    nearestIndexOf l x ≤ i ↔ x ≤ l[i]
  | [], _, x, i, hi => by simp at hi
  | a :: l, hs, x, i, hi => by
    unfold SortedLt at hs
    rw [List.pairwise_cons] at hs
    unfold nearestIndexOf
    by_cases ha : a < x
    · rw [List.takeWhile_cons_of_pos (by simpa using ha), List.length_cons]
      cases i with
      | zero => simp; omega
      | succ i =>
        have := nearestIndexOf_spec hs.2 x i (by simp at hi; omega)
        unfold nearestIndexOf at this
        simp only [List.getElem_cons_succ]
        omega
    · rw [List.takeWhile_cons_of_neg (by simpa using ha)]
      simp only [List.length_nil, Nat.zero_le, true_iff]
      cases i with
      | zero => simp; omega
      | succ i =>
        have hi' : i < l.length := by simp at hi; omega
        have := hs.1 l[i] (List.getElem_mem hi')
        simp; omega

theorem of_mem_takeWhile {α : Type _} {p : α → Bool} : ∀ {l : List α} {x : α},
    x ∈ l.takeWhile p → p x = true
  | [], _, h => by simp at h
  | a :: l, x, h => by
    rw [List.takeWhile_cons] at h
    split at h
    · rename_i ha
      rcases List.mem_cons.1 h with rfl | h
      · exact ha
      · exact of_mem_takeWhile h
    · simp at h

theorem nearestIndexOf_le (l : List Nat) (x : Nat) : nearestIndexOf l x ≤ l.length := by
  unfold nearestIndexOf
  exact (List.takeWhile_sublist _).length_le

theorem nearestIndexOf_end {l : List Nat} {x : Nat} (h : l.length ≤ nearestIndexOf l x) :
    ∀ y ∈ l, y < x := by
  have heq : l.takeWhile (fun y => decide (y < x)) = l := by
    apply List.Sublist.eq_of_length_le (List.takeWhile_sublist _)
    exact h
  intro y hy
  rw [← heq] at hy
  simpa using of_mem_takeWhile hy

namespace Core
variable {subjects : Option (List Nat)} {sp spo : AdjList} {ts : List Triple}
variable {Psp Pspo : List (Nat × Nat)}

theorem dec_inv (h : Core subjects sp spo ts Psp Pspo) {q : Nat × Nat} {t : Triple}
    (hq : q ∈ Pspo) (hd : dec subjects Psp q = some t) :
    ∃ (hc : q.1 - 1 < Psp.length), subjOf subjects Psp[q.1 - 1].1 = some t.s ∧
      Psp[q.1 - 1].2 = t.p ∧ q.2 = t.o ∧ t.s ≠ 0 ∧ t.p ≠ 0 ∧ t.o ≠ 0 := by
  have hc := h.cell_lt hq
  refine ⟨hc, ?_⟩
  have hne : q.2 ≠ 0 := by
    intro hz; simp [dec, hz] at hd
  obtain ⟨rp, hrp, hiff⟩ := h.stub q hq
  obtain ⟨s, hs1, hs2, hs3⟩ := h.dec_some hrp hne
  rw [hs3] at hd
  simp only [Option.some.injEq] at hd
  subst hd
  rw [List.getElem?_eq_getElem hc, Option.some.injEq] at hrp
  rw [hrp]
  refine ⟨hs1, rfl, rfl, by simp only; omega, ?_, hne⟩
  simp only
  exact fun hh => hne (hiff.1 hh)

theorem mem_ts (h : Core subjects sp spo ts Psp Pspo) {t : Triple} :
    t ∈ ts ↔ ∃ q ∈ Pspo, dec subjects Psp q = some t := by
  rw [← h.decEq, List.mem_filterMap]

theorem nonzero (h : Core subjects sp spo ts Psp Pspo) {t : Triple} (ht : t ∈ ts) :
    t.Nonzero := by
  obtain ⟨q, hq, hd⟩ := h.mem_ts.1 ht
  obtain ⟨_, _, _, _, h1, h2, h3⟩ := h.dec_inv hq hd
  exact ⟨h1, h2, h3⟩

/-- Decoding follows the order of entries. -/
theorem dec_lt (h : Core subjects sp spo ts Psp Pspo) {q q' : Nat × Nat} {t t' : Triple}
    (hq : q ∈ Pspo) (hq' : q' ∈ Pspo) (hlt : PLt q q')
    (hd : dec subjects Psp q = some t) (hd' : dec subjects Psp q' = some t') : t < t' := by
  obtain ⟨hc, h1, h2, h3, _⟩ := h.dec_inv hq hd
  obtain ⟨hc', h1', h2', h3', _⟩ := h.dec_inv hq' hd'
  have hpos := h.repSpo.fst_pos hq
  have hpos' := h.repSpo.fst_pos hq'
  rw [Triple.lt_def]
  unfold PLt at hlt
  by_cases heq : q.1 = q'.1
  · simp only [heq] at h1 h2
    rw [h1] at h1'
    simp only [Option.some.injEq] at h1'
    rw [h2] at h2'
    omega
  · have hlt' : q.1 < q'.1 := by omega
    have hp := List.pairwise_iff_getElem.1 h.repSp.sorted (q.1 - 1) (q'.1 - 1) hc hc' (by omega)
    have hrpos := h.repSp.fst_pos (List.getElem_mem hc)
    have hrpos' := h.repSp.fst_pos (List.getElem_mem hc')
    unfold PLt at hp
    rcases hp with hp | ⟨hp1, hp2⟩
    · have := h.subjOf_lt hrpos h1 h1' hp
      omega
    · rw [hp1, h1'] at h1
      simp only [Option.some.injEq] at h1
      omega

theorem sorted_ts (h : Core subjects sp spo ts Psp Pspo) : SortedLt ts := by
  rw [← h.decEq]
  unfold SortedLt
  rw [List.pairwise_filterMap]
  have hs := h.repSpo.sorted
  refine List.Pairwise.imp_of_mem ?_ hs
  intro a b ha hb hlt t ht t' ht'
  exact h.dec_lt ha hb hlt ht ht'

/-- The initial iterator yields all triples. -/
theorem subj_new (_h : Core subjects sp spo ts Psp Pspo) :
    SubjR subjects sp spo Psp Pspo (SubjIter.new subjects sp spo)
      (Pspo.filterMap (dec subjects Psp)) := by
  refine ⟨⟨rfl, rfl, rfl, ?_⟩, ?_⟩
  · right; simp [SubjIter.new, ones_zero]
  · simp [SubjIter.rem, SubjIter.new]

theorem subj_new' (h : Core subjects sp spo ts Psp Pspo) :
    SubjR subjects sp spo Psp Pspo (SubjIter.new subjects sp spo) ts := by
  have := h.subj_new
  rwa [h.decEq] at this

/-- Row numbers compared with the position a subject is sought at. -/
theorem subjectPosition_spec (h : Core subjects sp spo ts Psp Pspo) {it : SubjIter}
    (hit : it.subjects = subjects) {s : Nat} (_hs : s ≠ 0) {rp : Nat × Nat} (hrp : rp ∈ Psp)
    {s' : Nat} (hs' : subjOf subjects rp.1 = some s') :
    it.subjectPosition s < rp.1 ↔ s ≤ s' := by
  have hpos := h.repSp.fst_pos hrp
  unfold subjOf at hs'
  unfold SubjIter.subjectPosition
  rw [hit]
  cases hsub : subjects with
  | none =>
    rw [hsub] at hs'
    simp at hs'
    simp only
    omega
  | some l =>
    rw [hsub] at hs'
    simp only at hs' ⊢
    obtain ⟨hlt, heq⟩ := List.getElem?_eq_some_iff.1 hs'
    have := nearestIndexOf_spec (h.subj l hsub).1 s (rp.1 - 1) hlt
    rw [heq] at this
    omega

theorem seekSubject_spec (h : Core subjects sp spo ts Psp Pspo) {it : SubjIter}
    (h1 : it.subjects = subjects) (h2 : it.sp = sp) (h3 : it.spo = spo) (s : Nat) :
    ∃ it', it.seekSubject s = some it' ∧
      SubjR subjects sp spo Psp Pspo it' (ts.filter (fun t => s ≤ t.s)) := by
  unfold SubjIter.seekSubject
  by_cases hs : s = 0
  · rw [if_pos hs]
    refine ⟨_, rfl, ⟨⟨h1, h2, h3, ?_⟩, ?_⟩⟩
    · right; simp [ones_zero]
    · rw [hs]
      simp [SubjIter.rem, h1, h.decEq]
  · rw [if_neg hs]
    simp only [h1, h2, h3]
    by_cases hend : it.subjectPosition s ≥ sp.leftCount
    · rw [if_pos hend]
      refine ⟨_, rfl, ⟨⟨rfl, rfl, rfl, ?_⟩, ?_⟩⟩
      · left; simp [h.repSpo.rightCount]
      · simp only [SubjIter.rem, h.repSpo.rightCount, List.drop_length, List.filterMap_nil,
          Option.toList_none, List.append_nil]
        rw [List.filter_eq_nil_iff]
        intro t ht
        obtain ⟨q, hq, hd⟩ := h.mem_ts.1 ht
        obtain ⟨hc, hd1, _⟩ := h.dec_inv hq hd
        have := h.subjectPosition_spec h1 hs (List.getElem_mem hc) hd1
        have hle := h.repSp.fst_le (List.getElem_mem hc)
        simp only [decide_eq_true_eq]
        omega
    · rw [if_neg hend]
      have hlt : it.subjectPosition s < sp.leftCount := by omega
      obtain ⟨a, ha, _, _⟩ := sp.offsetFor_spec (Nat.le_of_lt hlt)
      have ha1 := sp.offsetFor_ones (Nat.le_of_lt hlt) ha
      have ha2 := h.repSp.drop_offset (Nat.le_of_lt hlt) ha
      have halt := h.repSp.offset_lt hlt ha
      have hal : a ≤ spo.leftCount := by rw [h.spoLeft]; omega
      obtain ⟨b, hb, _, _⟩ := spo.offsetFor_spec hal
      have hb1 := spo.offsetFor_ones hal hb
      have hb2 := h.repSpo.drop_offset hal hb
      simp only [ha, hb, Option.bind_eq_bind, Option.bind_some]
      refine ⟨_, rfl, ⟨⟨rfl, rfl, rfl, ?_⟩, ?_⟩⟩
      · right; simp only [hb1, ha1, and_self]
      · simp only [SubjIter.rem, Option.toList_none, List.nil_append]
        rw [drop_filterMap_eq _ (fun t => decide (s ≤ t.s)), h.decEq]
        intro j hj t ht
        have hq : Pspo[j] ∈ Pspo := List.getElem_mem hj
        obtain ⟨hc, hd1, _⟩ := h.dec_inv hq ht
        have hsp := h.subjectPosition_spec h1 hs (List.getElem_mem hc) hd1
        rw [hb2.2 j hj]
        have := ha2.2 _ hc
        have hpos := h.repSpo.fst_pos hq
        simp only [decide_eq_true_eq]
        omega

/-- The predicate loop of the seek. -/
theorem seekSpLoop_spec (h : Core subjects sp spo ts Psp Pspo) (p i : Nat) :
    ∀ (fuel pos : Nat) (hpos : pos < Psp.length), Psp[pos].1 = i + 1 →
      Psp.length - pos < fuel →
      ∃ c passed, SubjIter.seekSpLoop sp p fuel pos = some (c, passed) ∧ pos ≤ c ∧
        c ≤ Psp.length ∧ ones sp.bits c = (if passed then i + 1 else i) ∧
        (∀ j (hj : j < Psp.length), pos ≤ j →
          (c ≤ j ↔ (i + 1 < Psp[j].1 ∨ (Psp[j].1 = i + 1 ∧ p ≤ Psp[j].2)))) := by
  intro fuel
  induction fuel with
  | zero => intro pos hpos _ hf; omega
  | succ fuel ih =>
    intro pos hpos hrow hf
    unfold SubjIter.seekSpLoop
    have hnum := h.repSp.numAt hpos
    obtain ⟨bit, hbit, hones⟩ := h.repSp.bitAt hpos
    have hleft := h.repSp.left pos hpos
    simp only [hnum, Option.bind_eq_bind, Option.bind_some]
    by_cases hlt : Psp[pos].2 < p
    · rw [if_pos hlt, hbit]
      simp only [Option.bind_some]
      cases bit with
      | true =>
        simp only [if_true]
        refine ⟨pos + 1, true, rfl, by omega, by omega, ?_, ?_⟩
        · simp at hones ⊢; omega
        · intro j hj hpj
          by_cases hj' : j = pos
          · subst hj'; omega
          · have := ones_mono sp.bits (show pos + 1 ≤ j by omega)
            have hl := h.repSp.left j hj
            simp at hones
            omega
      | false =>
        simp only [Bool.false_eq_true, if_false]
        simp at hones
        have hpos' : pos + 1 < Psp.length := by
          by_contra hn
          have hn' : pos + 1 = Psp.length := by omega
          rw [hn', h.repSp.ones_end] at hones
          have := h.repSp.ones_lt hpos
          omega
        have hrow' : Psp[pos + 1].1 = i + 1 := by
          rw [h.repSp.left _ hpos']; omega
        obtain ⟨c, passed, h1, h2, h3, h4, h5⟩ := ih (pos + 1) hpos' hrow' (by omega)
        refine ⟨c, passed, h1, by omega, h3, h4, ?_⟩
        intro j hj hpj
        by_cases hj' : j = pos
        · subst hj'; omega
        · exact h5 j hj (by omega)
    · rw [if_neg hlt]
      refine ⟨pos, false, rfl, by omega, by omega, ?_, ?_⟩
      · simp; omega
      · intro j hj hpj
        by_cases hj' : j = pos
        · subst hj'; omega
        · have := List.pairwise_iff_getElem.1 h.repSp.sorted pos j hpos hj (by omega)
          unfold PLt at this
          omega

/-- What a seek to a subject and predicate leaves: everything with exactly this
subject and predicate, and nothing smaller. -/
def SeekSP (ts : List Triple) (s p : Nat) (l : List Triple) : Prop :=
  ∃ g : Triple → Bool, l = ts.filter g ∧
    (∀ t ∈ ts, g t = true → s < t.s ∨ (s = t.s ∧ p ≤ t.p)) ∧
    (∀ t ∈ ts, t.s = s → t.p = p → g t = true)

theorem seekSubjectPredicate_spec (h : Core subjects sp spo ts Psp Pspo) {it : SubjIter}
    (h1 : it.subjects = subjects) (h2 : it.sp = sp) (h3 : it.spo = spo) (s p : Nat) :
    ∃ it' l, it.seekSubjectPredicate s p = some it' ∧
      SubjR subjects sp spo Psp Pspo it' l ∧ SeekSP ts s p l := by
  unfold SubjIter.seekSubjectPredicate
  by_cases hp : p = 0
  · rw [if_pos hp]
    obtain ⟨it', ha, hb⟩ := h.seekSubject_spec h1 h2 h3 s
    refine ⟨it', _, ha, hb, _, rfl, ?_, ?_⟩
    · intro t _ hg
      simp only [decide_eq_true_eq] at hg
      omega
    · intro t _ hs _
      simp only [decide_eq_true_eq]
      omega
  · rw [if_neg hp]
    by_cases hs : s = 0
    · rw [if_pos hs]
      refine ⟨_, ts, rfl, ⟨⟨h1, h2, h3, ?_⟩, ?_⟩, fun _ => true, ?_, ?_, fun _ _ _ _ => rfl⟩
      · right; simp [ones_zero]
      · simp [SubjIter.rem, h1, h.decEq]
      · exact (List.filter_eq_self.2 (fun _ _ => rfl)).symm
      · intro t ht _
        have := (h.nonzero ht).1
        omega
    · rw [if_neg hs]
      simp only [h1, h2, h3]
      by_cases hend : it.subjectPosition s ≥ sp.leftCount
      · rw [if_pos hend]
        have hno : ∀ t ∈ ts, ¬ s ≤ t.s := by
          intro t ht
          obtain ⟨q, hq, hd⟩ := h.mem_ts.1 ht
          obtain ⟨hc, hd1, _⟩ := h.dec_inv hq hd
          have := h.subjectPosition_spec h1 hs (List.getElem_mem hc) hd1
          have hle := h.repSp.fst_le (List.getElem_mem hc)
          omega
        refine ⟨_, [], rfl, ⟨⟨rfl, rfl, rfl, ?_⟩, ?_⟩, fun _ => false, ?_, ?_, ?_⟩
        · left; simp [h.repSpo.rightCount]
        · simp [SubjIter.rem, h.repSpo.rightCount]
        · simp
        · intro t _ hg; simp at hg
        · intro t ht hts; have := hno t ht; omega
      · rw [if_neg hend]
        have hlt : it.subjectPosition s < sp.leftCount := by omega
        obtain ⟨a, ha, _, _⟩ := sp.offsetFor_spec (Nat.le_of_lt hlt)
        have ha1 := sp.offsetFor_ones (Nat.le_of_lt hlt) ha
        have ha2 := h.repSp.drop_offset (Nat.le_of_lt hlt) ha
        have halt := h.repSp.offset_lt hlt ha
        have harow : Psp[a].1 = it.subjectPosition s + 1 := by
          rw [h.repSp.left a halt, ha1]
        obtain ⟨c, passed, hc1, hc2, hc3, hc4, hc5⟩ :=
          h.seekSpLoop_spec p (it.subjectPosition s) (sp.rightCount + 1) a halt harow
            (by rw [h.repSp.rightCount]; omega)
        have hal : c ≤ spo.leftCount := by rw [h.spoLeft]; omega
        obtain ⟨b, hb, _, _⟩ := spo.offsetFor_spec hal
        have hb1 := spo.offsetFor_ones hal hb
        have hb2 := h.repSpo.drop_offset hal hb
        simp only [ha, hc1, hb, Option.bind_eq_bind, Option.bind_some]
        -- the subject of the row we landed on
        obtain ⟨s0, hs0, _⟩ := h.subjOf_some (List.getElem_mem halt)
        have hs0s : s ≤ s0 :=
          (h.subjectPosition_spec h1 hs (List.getElem_mem halt) hs0).1 (by omega)
        have hkey : ∀ t ∈ ts, t.s = s → s0 = s := by
          intro t ht hts
          obtain ⟨q, hq, hd⟩ := h.mem_ts.1 ht
          obtain ⟨hcc, hd1, _⟩ := h.dec_inv hq hd
          have h5 := (h.subjectPosition_spec h1 hs (List.getElem_mem hcc) hd1).2 (by omega)
          by_contra hne
          have hlt2 : t.s < s0 := by omega
          have h6 := (h.subjOf_iff (h.repSp.fst_pos (List.getElem_mem hcc))
            (h.repSp.fst_pos (List.getElem_mem halt)) hd1 hs0).1 hlt2
          omega
        refine ⟨_, _, rfl, ⟨⟨rfl, rfl, rfl, ?_⟩, rfl⟩,
          (fun t => decide (s0 < t.s ∨ (s0 = t.s ∧ p ≤ t.p))), ?_, ?_, ?_⟩
        · right
          simp only [hb1, hc4, true_and]
        · simp only [SubjIter.rem, Option.toList_none, List.nil_append]
          rw [drop_filterMap_eq _ (fun t => decide (s0 < t.s ∨ (s0 = t.s ∧ p ≤ t.p))), h.decEq]
          intro j hj t ht
          have hq : Pspo[j] ∈ Pspo := List.getElem_mem hj
          obtain ⟨hcc, hd1, hd2, _⟩ := h.dec_inv hq ht
          rw [hb2.2 j hj]
          have hpos := h.repSpo.fst_pos hq
          have hrpos := h.repSp.fst_pos (List.getElem_mem hcc)
          have hrposa := h.repSp.fst_pos (List.getElem_mem halt)
          have hi1 := h.subjOf_iff hrposa hrpos hs0 hd1
          have hi2 := h.subjOf_iff hrpos hrposa hd1 hs0
          simp only [decide_eq_true_eq]
          have hja := ha2.2 _ hcc
          by_cases hle : a ≤ Pspo[j].1 - 1
          · have := hc5 _ hcc hle
            omega
          · omega
        · intro t _ hg
          simp only [decide_eq_true_eq] at hg
          omega
        · intro t ht hts htp
          have := hkey t ht hts
          simp only [decide_eq_true_eq]
          omega

/-- Seeking a pair position. -/
theorem seekSpPos_spec (h : Core subjects sp spo ts Psp Pspo) {it : SubjIter}
    (h1 : it.subjects = subjects) (h2 : it.sp = sp) (h3 : it.spo = spo) {c : Nat}
    (hc : c < Psp.length) :
    ∃ it', it.seekSpPos c = some it' ∧
      SubjR subjects sp spo Psp Pspo it'
        ((Pspo.filter (fun q => c < q.1)).filterMap (dec subjects Psp)) := by
  unfold SubjIter.seekSpPos
  have hal : c ≤ spo.leftCount := by rw [h.spoLeft]; omega
  obtain ⟨b, hb, _, _⟩ := spo.offsetFor_spec hal
  have hb1 := spo.offsetFor_ones hal hb
  have hb2 := h.repSpo.drop_offset hal hb
  rw [h2, h3, h.repSp.leftAt hc, hb]
  simp only [Option.bind_eq_bind, Option.bind_some]
  refine ⟨_, rfl, ⟨⟨h1, rfl, rfl, ?_⟩, ?_⟩⟩
  · right
    simp only [hb1, h.repSp.left c hc, true_and]
    omega
  · simp only [SubjIter.rem, Option.toList_none, List.nil_append, h1]
    rw [drop_eq_filter Pspo (fun q => decide (c < q.1)) b]
    intro j hj
    rw [hb2.2 j hj]; simp

end Core

/-! ### Membership -/

/-- The scan within one left. -/
theorem spScan_spec {a : AdjList} {P : List (Nat × Nat)} (h : AdjRep a P) (x : Nat) :
    ∀ (fuel pos : Nat) (hpos : pos < P.length), P.length - pos < fuel →
      ∃ r, spScan a x fuel pos = some r ∧
        (∀ c, r = some c → pos ≤ c ∧ ∃ hc : c < P.length, P[c].1 = P[pos].1 ∧ P[c].2 = x) ∧
        (r = none → ∀ j (hj : j < P.length), pos ≤ j → P[j].1 = P[pos].1 → P[j].2 ≠ x) := by
  intro fuel
  induction fuel with
  | zero => intro pos hpos hf; omega
  | succ fuel ih =>
    intro pos hpos hf
    unfold spScan
    have hnum := h.numAt hpos
    obtain ⟨bit, hbit, hones⟩ := h.bitAt hpos
    have hleft := h.left pos hpos
    simp only [hnum, hbit, Option.bind_eq_bind, Option.bind_some]
    by_cases heq : P[pos].2 = x
    · rw [if_pos heq]
      refine ⟨some pos, rfl, ?_, by simp⟩
      intro c hc
      simp only [Option.some.injEq] at hc
      subst hc
      exact ⟨Nat.le_refl _, hpos, rfl, heq⟩
    · rw [if_neg heq]
      cases bit with
      | true =>
        refine ⟨none, rfl, by simp, ?_⟩
        intro _ j hj hpj hrow
        by_cases hj' : j = pos
        · subst hj'; exact heq
        · have := ones_mono a.bits (show pos + 1 ≤ j by omega)
          have hl := h.left j hj
          simp at hones
          omega
      | false =>
        simp only [Bool.false_eq_true, if_false]
        simp at hones
        have hpos' : pos + 1 < P.length := by
          by_contra hn
          have hn' : pos + 1 = P.length := by omega
          rw [hn', h.ones_end] at hones
          have := h.ones_lt hpos
          omega
        have hrow' : P[pos + 1].1 = P[pos].1 := by
          rw [h.left _ hpos']; omega
        obtain ⟨r, h1, h2, h3⟩ := ih (pos + 1) hpos' (by omega)
        refine ⟨r, h1, ?_, ?_⟩
        · intro c hc
          obtain ⟨h4, h5, h6, h7⟩ := h2 c hc
          exact ⟨by omega, h5, by rw [h6, hrow'], h7⟩
        · intro hr j hj hpj hrow
          by_cases hj' : j = pos
          · subst hj'; exact heq
          · exact h3 hr j hj (by omega) (by rw [hrow, hrow'])

theorem oScan_eq (a : AdjList) (x : Nat) : ∀ (fuel pos : Nat),
    oScan a x fuel pos = (spScan a x fuel pos).map Option.isSome
  | 0, _ => rfl
  | fuel + 1, pos => by
    unfold oScan spScan
    cases hb : a.bitAt pos with
    | none => simp
    | some b =>
      cases hn : a.numAt pos with
      | none => simp
      | some n =>
        simp only [Option.bind_eq_bind, Option.bind_some]
        by_cases h : n = x
        · simp [h]
        · cases b
          · simp [h, oScan_eq a x fuel (pos + 1)]
          · simp [h]

theorem indexOf_spec {l : List Nat} {x i : Nat} (hl : SortedLt l) :
    indexOf l x = some i ↔ l[i]? = some x := by
  unfold indexOf
  constructor
  · intro h
    split at h
    · rename_i hx
      simp only [Option.some.injEq] at h
      subst h
      rw [List.getElem?_eq_getElem (List.idxOf_lt_length_of_mem hx), List.getElem_idxOf]
    · simp at h
  · intro h
    obtain ⟨hi, he⟩ := List.getElem?_eq_some_iff.1 h
    have hx : x ∈ l := List.mem_of_getElem? h
    rw [if_pos hx]
    congr 1
    rw [← he]
    exact List.Nodup.idxOf_getElem (hl.imp (fun h => Nat.ne_of_lt h)) i hi

namespace Core
variable {subjects : Option (List Nat)} {sp spo : AdjList} {ts : List Triple}
variable {Psp Pspo : List (Nat × Nat)}

/-- The positions of the triples with subject `s` and predicate `p`. -/
structure CellAt (subjects : Option (List Nat)) (Psp Pspo : List (Nat × Nat)) (ts : List Triple)
    (s p pos : Nat) : Prop where
  lt : pos < Pspo.length
  first : ∀ j (hj : j < Pspo.length), Pspo[j].1 = Pspo[pos].1 → pos ≤ j
  decode : ∀ q ∈ Pspo, q.1 = Pspo[pos].1 → dec subjects Psp q = some ⟨s, p, q.2⟩
  complete : ∀ q ∈ Pspo, ∀ t, dec subjects Psp q = some t → t.s = s → t.p = p → q.1 = Pspo[pos].1

theorem spoPosition_spec (h : Core subjects sp spo ts Psp Pspo) (s p : Nat) :
    ∃ r, spoPosition subjects sp spo s p = some r ∧
      (r = none → ∀ t ∈ ts, ¬ (t.s = s ∧ t.p = p)) ∧
      (∀ pos, r = some pos → CellAt subjects Psp Pspo ts s p pos) := by
  unfold spoPosition
  by_cases hz : s = 0 ∨ p = 0
  · rw [if_pos hz]
    refine ⟨none, rfl, ?_, by simp⟩
    intro _ t ht
    have := h.nonzero ht
    unfold Triple.Nonzero at this
    omega
  · rw [if_neg hz]
    -- the row of the subject
    have hrow : (∃ i, subjectRow subjects sp s = some i ∧ i < sp.leftCount ∧
          subjOf subjects (i + 1) = some s) ∨
        (subjectRow subjects sp s = none ∧ ∀ t ∈ ts, t.s ≠ s) := by
      unfold subjectRow
      cases hsub : subjects with
      | none =>
        by_cases hgt : s > sp.leftCount
        · right
          refine ⟨by simp [hgt], ?_⟩
          intro t ht
          obtain ⟨q, hq, hd⟩ := h.mem_ts.1 ht
          obtain ⟨hcc, hd1, _⟩ := h.dec_inv hq hd
          have hle := h.repSp.fst_le (List.getElem_mem hcc)
          rw [hsub] at hd1
          simp only [subjOf, Option.some.injEq] at hd1
          omega
        · left
          refine ⟨s - 1, by simp [hgt], by omega, ?_⟩
          simp only [subjOf, Option.some.injEq]; omega
      | some l =>
        obtain ⟨hl1, hl2, hl3⟩ := h.subj l hsub
        cases hi : indexOf l s with
        | some i =>
          left
          have := (indexOf_spec hl1).1 hi
          refine ⟨i, by simp [hi], ?_, by simpa [subjOf] using this⟩
          rw [← hl2]
          exact (List.getElem?_eq_some_iff.1 this).1
        | none =>
          right
          refine ⟨by simp [hi], ?_⟩
          intro t ht hts
          obtain ⟨q, hq, hd⟩ := h.mem_ts.1 ht
          obtain ⟨hcc, hd1, _⟩ := h.dec_inv hq hd
          rw [hsub] at hd1
          simp only [subjOf] at hd1
          have := List.mem_of_getElem? hd1
          rw [hts] at this
          simp [indexOf, this] at hi
    rcases hrow with ⟨i, hi1, hi2, hi3⟩ | ⟨hn1, hn2⟩
    · simp only [hi1]
      obtain ⟨a, ha, _, _⟩ := sp.offsetFor_spec (Nat.le_of_lt hi2)
      have ha1 := sp.offsetFor_ones (Nat.le_of_lt hi2) ha
      have ha2 := h.repSp.drop_offset (Nat.le_of_lt hi2) ha
      have halt := h.repSp.offset_lt hi2 ha
      have harow : Psp[a].1 = i + 1 := by rw [h.repSp.left a halt, ha1]
      obtain ⟨r, hr1, hr2, hr3⟩ := spScan_spec h.repSp p (sp.rightCount + 1) a halt
        (by rw [h.repSp.rightCount]; omega)
      simp only [ha, hr1, Option.bind_eq_bind, Option.bind_some]
      -- triples with this subject are in this row
      have hcell : ∀ q ∈ Pspo, ∀ t, dec subjects Psp q = some t → t.s = s →
          ∃ hcc : q.1 - 1 < Psp.length, a ≤ q.1 - 1 ∧ Psp[q.1 - 1].1 = i + 1 ∧
            Psp[q.1 - 1].2 = t.p := by
        intro q hq t hd hts
        obtain ⟨hcc, hd1, hd2, _⟩ := h.dec_inv hq hd
        have hpos := h.repSp.fst_pos (List.getElem_mem hcc)
        have h1 := h.subjOf_iff hpos (by omega) hd1 hi3
        have h2 := h.subjOf_iff (by omega) hpos hi3 hd1
        have hrow : Psp[q.1 - 1].1 = i + 1 := by omega
        exact ⟨hcc, (ha2.2 _ hcc).2 (by omega), hrow, hd2⟩
      cases r with
      | none =>
        refine ⟨none, rfl, ?_, by simp⟩
        rintro _ t ht ⟨hts, htp⟩
        obtain ⟨q, hq, hd⟩ := h.mem_ts.1 ht
        obtain ⟨hcc, h1, h2, h3⟩ := hcell q hq t hd hts
        exact hr3 rfl _ hcc h1 (by rw [h2, harow]) (by rw [h3, htp])
      | some c =>
        obtain ⟨hc1, hc2, hc3, hc4⟩ := hr2 c rfl
        have hal : c < spo.leftCount := by rw [h.spoLeft]; omega
        obtain ⟨b, hb, _, _⟩ := spo.offsetFor_spec (Nat.le_of_lt hal)
        have hb1 := spo.offsetFor_ones (Nat.le_of_lt hal) hb
        have hb2 := h.repSpo.drop_offset (Nat.le_of_lt hal) hb
        have hblt := h.repSpo.offset_lt hal hb
        have hbrow : Pspo[b].1 = c + 1 := by rw [h.repSpo.left b hblt, hb1]
        simp only [hb, Option.bind_some]
        refine ⟨some b, rfl, by simp, ?_⟩
        intro pos hpos
        simp only [Option.some.injEq] at hpos
        subst hpos
        refine ⟨hblt, ?_, ?_, ?_⟩
        · intro j hj hjr
          rw [hb2.2 j hj]; omega
        · intro q hq hqr
          obtain ⟨rp, hrp, hiff⟩ := h.stub q hq
          have hqc : q.1 - 1 = c := by omega
          rw [hqc, List.getElem?_eq_getElem hc2, Option.some.injEq] at hrp
          have hne : q.2 ≠ 0 := by
            intro hh
            have := hiff.2 hh
            rw [← hrp, hc4] at this
            omega
          have hsub : subjOf subjects Psp[c].1 = some s := by rw [hc3, harow]; exact hi3
          simp only [dec, if_neg hne, hqc, List.getElem?_eq_getElem hc2, Option.bind_some, hsub,
            Option.map_some, hc4]
        · intro q hq t hd hts htp
          obtain ⟨hcc, h1, h2, h3⟩ := hcell q hq t hd hts
          have hpos := h.repSpo.fst_pos hq
          rw [hbrow]
          by_contra hne
          rcases Nat.lt_or_gt_of_ne (show q.1 - 1 ≠ c by omega) with hlt | hlt
          · have := List.pairwise_iff_getElem.1 h.repSp.sorted _ _ hcc hc2 hlt
            unfold PLt at this
            omega
          · have := List.pairwise_iff_getElem.1 h.repSp.sorted _ _ hc2 hcc hlt
            unfold PLt at this
            omega
    · simp only [hn1]
      exact ⟨none, rfl, fun _ t ht hh => hn2 t ht hh.1, by simp⟩

theorem exists_spec (h : Core subjects sp spo ts Psp Pspo) (t : Triple) :
    layerTripleExists subjects sp spo t = some (decide (t ∈ ts)) := by
  unfold layerTripleExists
  by_cases hz : t.o = 0
  · rw [if_pos hz]
    have : ¬ t ∈ ts := fun ht => (h.nonzero ht).2.2 hz
    simp [this]
  · rw [if_neg hz]
    obtain ⟨r, hr1, hr2, hr3⟩ := h.spoPosition_spec t.s t.p
    simp only [hr1, Option.bind_eq_bind, Option.bind_some]
    cases r with
    | none =>
      have : ¬ t ∈ ts := fun ht => hr2 rfl t ht ⟨rfl, rfl⟩
      simp [this]
    | some pos =>
      have hcell := hr3 pos rfl
      simp only
      rw [oScan_eq]
      obtain ⟨r', h1, h2, h3⟩ := spScan_spec h.repSpo t.o (spo.rightCount + 1) pos hcell.lt
        (by rw [h.repSpo.rightCount]; omega)
      rw [h1]
      simp only [Option.map_some, Option.some.injEq]
      cases r' with
      | none =>
        have : ¬ t ∈ ts := by
          intro ht
          obtain ⟨q, hq, hd⟩ := h.mem_ts.1 ht
          have hrow := hcell.complete q hq t hd rfl rfl
          obtain ⟨j, hj, rfl⟩ := List.getElem_of_mem hq
          have hpj := hcell.first j hj hrow
          obtain ⟨_, _, _, h6, _⟩ := h.dec_inv hq hd
          exact h3 rfl j hj hpj hrow h6
        simp [this]
      | some c =>
        obtain ⟨_, hc, hc1, hc2⟩ := h2 c rfl
        have : t ∈ ts := by
          rw [h.mem_ts]
          refine ⟨_, List.getElem_mem hc, ?_⟩
          rw [hcell.decode _ (List.getElem_mem hc) hc1, hc2]
        simp [this]

end Core

end Verif
