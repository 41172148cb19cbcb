import Verif.Lemmas.SubjSeek

/-!
The predicate iterator and the triple count of a written index.
-/

namespace Verif

theorem waveletLookup_some {w : List Nat} {x : Nat} {L : List Nat}
    (h : waveletLookup w x = some L) :
    L = (List.range w.length).filter (fun i => w[i]? == some x) := by
  unfold waveletLookup at h
  split at h
  · simp at h
  · simp only [Option.some.injEq] at h; exact h.symm

theorem waveletLookup_none {w : List Nat} {x : Nat} (h : waveletLookup w x = none) :
    (List.range w.length).filter (fun i => w[i]? == some x) = [] := by
  unfold waveletLookup at h
  split at h
  · assumption
  · simp at h

theorem waveletLookup_length (w : List Nat) (x : Nat) :
    ((waveletLookup w x).map List.length).getD 0 = w.countP (fun y => y == x) := by
  have key : ((List.range w.length).filter (fun i => w[i]? == some x)).length
      = w.countP (fun y => y == x) := by
    rw [← List.countP_eq_length_filter]
    have : ∀ n, n ≤ w.length → (List.range n).countP (fun i => w[i]? == some x)
        = (w.take n).countP (fun y => y == x) := by
      intro n
      induction n with
      | zero => intro _; rfl
      | succ n ih =>
        intro hn
        rw [List.range_succ, List.countP_append, ih (by omega), List.take_add_one,
          List.countP_append, List.getElem?_eq_getElem (by omega)]
        simp [List.countP_cons, List.getElem?_eq_getElem (show n < w.length by omega)]
    rw [this _ (Nat.le_refl _), List.take_length]
  cases h : waveletLookup w x with
  | none => rw [← key, waveletLookup_none h]; rfl
  | some L => rw [← key, ← waveletLookup_some h]; rfl

namespace Core
variable {subjects : Option (List Nat)} {sp spo : AdjList} {ts : List Triple}
variable {Psp Pspo : List (Nat × Nat)}

/-- The stored entry count minus the stubs is the number of triples. -/
theorem length_eq (h : Core subjects sp spo ts Psp Pspo) :
    ts.length + Psp.countP (fun q => q.2 == 0) = Pspo.length := by
  rw [← h.zeros, ← h.decEq]
  have : ∀ P : List (Nat × Nat), (∀ q ∈ P, q.2 ≠ 0 → ∃ t, dec subjects Psp q = some t) →
      (P.filterMap (dec subjects Psp)).length + P.countP (fun q => q.2 == 0) = P.length := by
    intro P
    induction P with
    | nil => intro _; rfl
    | cons q P ih =>
      intro hP
      have ih' := ih (fun q hq => hP q (by simp [hq]))
      by_cases hz : q.2 = 0
      · rw [List.filterMap_cons_none (by simp [dec, hz]), List.countP_cons_of_pos (by simpa using hz),
          List.length_cons]
        omega
      · obtain ⟨t, ht⟩ := hP q (by simp) hz
        rw [List.filterMap_cons_some ht, List.countP_cons_of_neg (by simpa using hz),
          List.length_cons, List.length_cons]
        omega
  apply this
  intro q hq hne
  obtain ⟨rp, hrp, _⟩ := h.stub q hq
  obtain ⟨s, _, _, hd⟩ := h.dec_some hrp hne
  exact ⟨_, hd⟩

/-- The triples of one cell. -/
def cell (subjects : Option (List Nat)) (Psp Pspo : List (Nat × Nat)) (c : Nat) : List Triple :=
  (Pspo.filter (fun q => q.1 == c + 1)).filterMap (dec subjects Psp)

/-- The head of a list together with the directly following elements with the
same subject and predicate. -/
def sameKey : List Triple → List Triple
  | [] => []
  | t :: r => t :: r.takeWhile (fun u => (u.s, u.p) == (t.s, t.p))

/-- Entries of a cell decode to its subject and predicate. -/
theorem cell_key (h : Core subjects sp spo ts Psp Pspo) {c : Nat} (hc : c < Psp.length)
    {s : Nat} (hs : subjOf subjects Psp[c].1 = some s) {q : Nat × Nat} (hq : q ∈ Pspo)
    {t : Triple} (hd : dec subjects Psp q = some t) :
    (t.s, t.p) = (s, Psp[c].2) ↔ q.1 = c + 1 := by
  obtain ⟨hcc, h1, h2, _⟩ := h.dec_inv hq hd
  have hpos := h.repSpo.fst_pos hq
  constructor
  · intro heq
    simp only [Prod.mk.injEq] at heq
    have hr1 := h.repSp.fst_pos (List.getElem_mem hcc)
    have hr2 := h.repSp.fst_pos (List.getElem_mem hc)
    have hi1 := h.subjOf_iff hr1 hr2 h1 hs
    have hi2 := h.subjOf_iff hr2 hr1 hs h1
    have hrow : Psp[q.1 - 1].1 = Psp[c].1 := by omega
    by_contra hne
    rcases Nat.lt_or_gt_of_ne (show q.1 - 1 ≠ c by omega) with hlt | hlt
    · have := List.pairwise_iff_getElem.1 h.repSp.sorted _ _ hcc hc hlt
      unfold PLt at this
      omega
    · have := List.pairwise_iff_getElem.1 h.repSp.sorted _ _ hc hcc hlt
      unfold PLt at this
      omega
  · intro heq
    have hcq : q.1 - 1 = c := by omega
    simp only [hcq] at h1 h2
    rw [hs] at h1
    simp only [Option.some.injEq] at h1
    rw [h1, h2]

theorem filter_split (P : List (Nat × Nat)) (hP : P.Pairwise PLt) (c : Nat) :
    P.filter (fun q => decide (c < q.1)) =
      P.filter (fun q => q.1 == c + 1) ++ P.filter (fun q => decide (c + 1 < q.1)) := by
  induction P with
  | nil => rfl
  | cons q P ih =>
    rw [List.pairwise_cons] at hP
    have ih' := ih hP.2
    by_cases h1 : q.1 = c + 1
    · rw [List.filter_cons_of_pos (by simp; omega), List.filter_cons_of_pos (by simp; omega),
        List.filter_cons_of_neg (by simp; omega), ih']
      rfl
    · by_cases h2 : c + 1 < q.1
      · rw [List.filter_cons_of_pos (by simp; omega), List.filter_cons_of_neg (by simp; omega),
          List.filter_cons_of_pos (by simp; omega), ih']
        have : P.filter (fun q => q.1 == c + 1) = [] := by
          rw [List.filter_eq_nil_iff]
          intro q' hq'
          have := hP.1 q' hq'
          unfold PLt at this
          simp only [beq_iff_eq]
          omega
        rw [this]; rfl
      · rw [List.filter_cons_of_neg (by simp; omega), List.filter_cons_of_neg (by simp; omega),
          List.filter_cons_of_neg (by simp; omega), ih']

theorem takeWhile_append_of {α : Type _} {p : α → Bool} {l₁ l₂ : List α}
    (h₁ : ∀ x ∈ l₁, p x = true) (h₂ : ∀ x ∈ l₂, p x = false) :
    (l₁ ++ l₂).takeWhile p = l₁ := by
  induction l₁ with
  | nil =>
    cases l₂ with
    | nil => rfl
    | cons a l₂ => simp [h₂ a (by simp)]
  | cons a l₁ ih =>
    rw [List.cons_append, List.takeWhile_cons_of_pos (h₁ a (by simp)),
      ih (fun x hx => h₁ x (by simp [hx]))]

/-- Seeking a cell: its triples come first and are those with the same key. -/
theorem cell_seek (h : Core subjects sp spo ts Psp Pspo) {c : Nat} (hc : c < Psp.length)
    (hp : Psp[c].2 ≠ 0) :
    (Pspo.filter (fun q => c < q.1)).filterMap (dec subjects Psp) ≠ [] ∧
    sameKey ((Pspo.filter (fun q => c < q.1)).filterMap (dec subjects Psp)) =
      cell subjects Psp Pspo c := by
  rw [filter_split Pspo h.repSpo.sorted c, List.filterMap_append]
  change cell subjects Psp Pspo c ++ _ ≠ [] ∧ sameKey (cell subjects Psp Pspo c ++ _) = _
  obtain ⟨s, hs, _⟩ := h.subjOf_some (List.getElem_mem hc)
  -- the cell is not empty
  have hne : cell subjects Psp Pspo c ≠ [] := by
    have hal : c < spo.leftCount := by rw [h.spoLeft]; omega
    obtain ⟨b, hb, _, _⟩ := spo.offsetFor_spec (Nat.le_of_lt hal)
    have hb1 := spo.offsetFor_ones (Nat.le_of_lt hal) hb
    have hblt := h.repSpo.offset_lt hal hb
    have hbrow : Pspo[b].1 = c + 1 := by rw [h.repSpo.left b hblt, hb1]
    obtain ⟨rp, hrp, hiff⟩ := h.stub _ (List.getElem_mem hblt)
    have hne2 : Pspo[b].2 ≠ 0 := by
      intro hz
      have := hiff.2 hz
      rw [hbrow, Nat.add_sub_cancel, List.getElem?_eq_getElem hc, Option.some.injEq] at hrp
      rw [hrp] at hp
      exact hp this
    obtain ⟨s', _, _, hd⟩ := h.dec_some hrp hne2
    intro hnil
    unfold cell at hnil
    rw [List.filterMap_eq_nil_iff] at hnil
    have := hnil Pspo[b] (List.mem_filter.2 ⟨List.getElem_mem hblt, by simp [hbrow]⟩)
    rw [this] at hd
    simp at hd
  have hkey1 : ∀ t ∈ cell subjects Psp Pspo c, (t.s, t.p) = (s, Psp[c].2) := by
    intro t ht
    obtain ⟨q, hq, hd⟩ := List.mem_filterMap.1 ht
    obtain ⟨hq1, hq2⟩ := List.mem_filter.1 hq
    exact (h.cell_key hc hs hq1 hd).2 (by simpa using hq2)
  have hkey2 : ∀ t ∈ (Pspo.filter (fun q => decide (c + 1 < q.1))).filterMap (dec subjects Psp),
      (t.s, t.p) ≠ (s, Psp[c].2) := by
    intro t ht heq
    obtain ⟨q, hq, hd⟩ := List.mem_filterMap.1 ht
    obtain ⟨hq1, hq2⟩ := List.mem_filter.1 hq
    have := (h.cell_key hc hs hq1 hd).1 heq
    simp at hq2
    omega
  generalize (Pspo.filter (fun q => decide (c + 1 < q.1))).filterMap (dec subjects Psp) = rest
    at hkey2
  cases hcell : cell subjects Psp Pspo c with
  | nil => exact absurd hcell hne
  | cons t r =>
    rw [hcell] at hkey1
    refine ⟨by simp, ?_⟩
    rw [List.cons_append]
    simp only [sameKey]
    congr 1
    have hkt := hkey1 t (by simp)
    apply takeWhile_append_of
    · intro u hu
      rw [hkey1 u (by simp [hu]), hkt]; simp
    · intro u hu
      rw [hkt]
      simpa using hkey2 u hu

theorem head?_append_left {α : Type _} {l₁ : List α} (l₂ : List α) (h : l₁ ≠ []) :
    (l₁ ++ l₂).head? = l₁.head? := by
  cases l₁ with
  | nil => exact absurd rfl h
  | cons a l => rfl

/-- The relation of the predicate iterator to its remaining items. -/
def PredR (subjects : Option (List Nat)) (sp spo : AdjList) (Psp Pspo : List (Nat × Nat))
    (L : List Nat) (it : PredIter) (l : List Triple) : Prop :=
  it.lookup = L ∧ ∃ R, SubjR subjects sp spo Psp Pspo it.subj R ∧
    (it.spBoundary = false → R ≠ []) ∧
    l = it.peeked.toList ++ (if it.spBoundary then [] else sameKey R) ++
      (L.drop it.predPos).flatMap (cell subjects Psp Pspo)

theorem pred_nextItem (h : Core subjects sp spo ts Psp Pspo) {it : PredIter} {R : List Triple}
    (hR : SubjR subjects sp spo Psp Pspo it.subj R) (hne : R ≠ []) :
    ∃ it' R', it.nextItem = some ((sameKey R).head?, it') ∧ it'.lookup = it.lookup ∧
      it'.predPos = it.predPos ∧ it'.peeked = it.peeked ∧
      SubjR subjects sp spo Psp Pspo it'.subj R' ∧ (it'.spBoundary = false → R' ≠ []) ∧
      (if it'.spBoundary then [] else sameKey R') = (sameKey R).tail := by
  cases R with
  | nil => exact absurd rfl hne
  | cons t r =>
    obtain ⟨st, h1, h2⟩ := h.subj_next _ _ hR
    obtain ⟨st', h3, h4⟩ := h.subj_peek _ _ h2
    unfold PredIter.nextItem
    simp only [h1, h3, Option.bind_eq_bind, Option.bind_some]
    refine ⟨_, _, rfl, rfl, rfl, rfl, h4, ?_, ?_⟩
    · intro hb hr
      rw [hr] at hb
      simp at hb
    · simp only [List.head?_cons, List.tail_cons, sameKey, Option.map_some]
      cases r with
      | nil => simp
      | cons u r =>
        simp only [List.head?_cons, Option.isNone_some, Bool.false_or, Option.map_some]
        by_cases hk : (u.s, u.p) = (t.s, t.p)
        · rw [hk]
          simp only [bne_self_eq_false, Bool.false_eq_true, if_false]
          rw [List.takeWhile_cons_of_pos (by simpa using hk)]
        · rw [List.takeWhile_cons_of_neg (by simpa using hk), if_pos]
          simpa using hk

theorem pred_next (h : Core subjects sp spo ts Psp Pspo) {L : List Nat}
    (hL : ∀ c ∈ L, ∃ hc : c < Psp.length, Psp[c].2 ≠ 0) :
    NextSim PredIter.next (PredR subjects sp spo Psp Pspo L) := by
  rintro it l ⟨hlk, R, hR, hb, rfl⟩
  unfold PredIter.next
  cases hp : it.peeked with
  | some t =>
    exact ⟨{ it with peeked := none }, by simp, hlk, R, hR, hb, by simp⟩
  | none =>
    simp only [Option.toList_none, List.nil_append]
    by_cases hbd : it.spBoundary = true
    · rw [if_pos hbd]
      unfold PredIter.nextPos
      by_cases hend : it.predPos ≥ it.lookup.length
      · rw [if_pos hend]
        have hd : L.drop it.predPos = [] := by rw [← hlk]; exact List.drop_of_length_le hend
        simp only [Option.bind_eq_bind, Option.bind_some, hbd, if_true, hd, List.flatMap_nil,
          List.append_nil, Bool.false_eq_true, if_false]
        exact ⟨it, rfl, hlk, R, hR, hb, by simp [hp, hbd, hd]⟩
      · rw [if_neg hend]
        have hlt : it.predPos < L.length := by rw [← hlk]; omega
        have hdrop : L.drop it.predPos = L[it.predPos] :: L.drop (it.predPos + 1) :=
          List.drop_eq_getElem_cons hlt
        obtain ⟨hc, hpne⟩ := hL _ (List.getElem_mem hlt)
        obtain ⟨subj, hs1, hs2⟩ := h.seekSpPos_spec (it := it.subj) hR.1.1 hR.1.2 hR.1.3 hc
        rw [hlk, List.getElem?_eq_getElem hlt]
        obtain ⟨hc1, hc2⟩ := h.cell_seek hc hpne
        simp only [Option.bind_eq_bind, Option.bind_some, hs1]
        obtain ⟨it', R', h1, h2, h3, h4, h5, h6, h7⟩ := h.pred_nextItem
          (it := { it with subj := subj, predPos := it.predPos + 1 }) hs2 hc1
        rw [hc2] at h1 h7
        have hcne : cell subjects Psp Pspo L[it.predPos] ≠ [] := by
          rw [← hc2]
          revert hc1
          generalize (Pspo.filter _).filterMap _ = R
          intro hne
          cases R with
          | nil => exact absurd rfl hne
          | cons t r => simp [sameKey]
        refine ⟨it', ?_, by rw [h2]; exact hlk, R', h5, h6, ?_⟩
        · rw [hdrop, List.flatMap_cons, if_pos hbd, List.nil_append, head?_append_left _ hcne]
          simp only [hlk] at h1
          simp only [pure, Option.bind_some, if_true]
          exact h1
        · rw [h4, h3, h7, hdrop, List.flatMap_cons, if_pos hbd, List.nil_append,
            List.tail_append_of_ne_nil hcne]
          simp [hp]
    · rw [if_neg hbd]
      have hbf : it.spBoundary = false := by simpa using hbd
      have hne := hb hbf
      obtain ⟨it', R', h1, h2, h3, h4, h5, h6, h7⟩ := h.pred_nextItem hR hne
      have hcne : sameKey R ≠ [] := by
        cases R with
        | nil => exact absurd rfl hne
        | cons t r => simp [sameKey]
      refine ⟨it', ?_, by rw [h2]; exact hlk, R', h5, h6, ?_⟩
      · rw [if_neg hbd, head?_append_left _ hcne, h1]
      · rw [h4, h3, h7, if_neg hbd, List.tail_append_of_ne_nil hcne]
        simp [hp]

theorem pred_next_peeked {it it' : PredIter}
    {r : Option Triple} (hn : it.next = some (r, it')) : it'.peeked = none := by
  unfold PredIter.next at hn
  cases hp : it.peeked with
  | some t =>
    rw [hp] at hn
    simp only [Option.some.injEq, Prod.mk.injEq] at hn
    rw [← hn.2]
  | none =>
    rw [hp] at hn
    have item : ∀ {i i' : PredIter} {r}, i.peeked = none → i.nextItem = some (r, i') →
        i'.peeked = none := by
      intro i i' r hi hh
      unfold PredIter.nextItem at hh
      simp only [Option.bind_eq_bind, Option.bind_eq_some_iff] at hh
      obtain ⟨a, _, b, _, hh⟩ := hh
      simp only [pure, Option.some.injEq, Prod.mk.injEq] at hh
      rw [← hh.2]
      exact hi
    simp only at hn
    split at hn
    · simp only [Option.bind_eq_bind, Option.bind_eq_some_iff] at hn
      obtain ⟨⟨ok, i⟩, hh, hn⟩ := hn
      have hi : i.peeked = none := by
        unfold PredIter.nextPos at hh
        split at hh
        · simp only [Option.some.injEq, Prod.mk.injEq] at hh
          rw [← hh.2]; exact hp
        · simp only [Option.bind_eq_bind, Option.bind_eq_some_iff] at hh
          obtain ⟨a, _, b, _, hh⟩ := hh
          simp only [pure, Option.some.injEq, Prod.mk.injEq] at hh
          rw [← hh.2]; exact hp
      cases ok with
      | true => exact item hi (by simpa using hn)
      | false =>
        simp at hn
        rw [← hn.2]; exact hi
    · exact item hp hn

theorem pred_peek (h : Core subjects sp spo ts Psp Pspo) {L : List Nat}
    (hL : ∀ c ∈ L, ∃ hc : c < Psp.length, Psp[c].2 ≠ 0) :
    PeekSim PredIter.peek (PredR subjects sp spo Psp Pspo L) := by
  intro it l hR
  obtain ⟨it', h1, h2⟩ := h.pred_next hL it l hR
  have hp := pred_next_peeked h1
  unfold PredIter.peek
  simp only [h1, Option.bind_eq_bind, Option.bind_some]
  refine ⟨_, rfl, ?_⟩
  obtain ⟨hlk, R, hR', hb, heq⟩ := h2
  refine ⟨hlk, R, hR', hb, ?_⟩
  simp only
  rw [hp, Option.toList_none, List.nil_append] at heq
  rw [List.append_assoc, ← heq]
  cases l <;> simp

/-- The cells of a predicate hold exactly its triples, in order. -/
theorem cells_eq (h : Core subjects sp spo ts Psp Pspo) (p : Nat) :
    ((List.range sp.nums.length).filter (fun i => sp.nums[i]? == some p)).flatMap
      (cell subjects Psp Pspo) = ts.filter (fun t => t.p == p) := by
  have hnum : ∀ c, sp.nums[c]? = some p ↔ ∃ hc : c < Psp.length, Psp[c].2 = p := by
    intro c
    rw [h.repSp.nums, List.getElem?_map]
    constructor
    · intro hh
      obtain ⟨q, hq1, hq2⟩ := Option.map_eq_some_iff.1 hh
      obtain ⟨hc, he⟩ := List.getElem?_eq_some_iff.1 hq1
      exact ⟨hc, by rw [he]; exact hq2⟩
    · rintro ⟨hc, he⟩
      rw [List.getElem?_eq_getElem hc, ← he]; rfl
  apply SortedLt.ext
  · unfold SortedLt
    rw [List.pairwise_flatMap]
    constructor
    · intro c _
      unfold cell
      rw [List.pairwise_filterMap]
      refine List.Pairwise.imp_of_mem ?_ (h.repSpo.sorted.filter _)
      intro a b ha hb hlt t ht t' ht'
      exact h.dec_lt (List.mem_filter.1 ha).1 (List.mem_filter.1 hb).1 hlt ht ht'
    · refine List.Pairwise.imp ?_ (List.Pairwise.filter _ List.pairwise_lt_range)
      intro c c' hlt t ht t' ht'
      obtain ⟨q, hq, hd⟩ := List.mem_filterMap.1 ht
      obtain ⟨q', hq', hd'⟩ := List.mem_filterMap.1 ht'
      obtain ⟨h1, h2⟩ := List.mem_filter.1 hq
      obtain ⟨h1', h2'⟩ := List.mem_filter.1 hq'
      simp only [beq_iff_eq] at h2 h2'
      refine h.dec_lt h1 h1' ?_ hd hd'
      unfold PLt
      omega
  · exact h.sorted_ts.filter _
  · intro t
    rw [List.mem_flatMap, List.mem_filter, h.mem_ts]
    constructor
    · rintro ⟨c, hc, ht⟩
      obtain ⟨q, hq, hd⟩ := List.mem_filterMap.1 ht
      obtain ⟨hq1, hq2⟩ := List.mem_filter.1 hq
      refine ⟨⟨q, hq1, hd⟩, ?_⟩
      obtain ⟨hcc, hpe⟩ := (hnum c).1 (by simpa using (List.mem_filter.1 hc).2)
      obtain ⟨s, hs, _⟩ := h.subjOf_some (List.getElem_mem hcc)
      have := (h.cell_key hcc hs hq1 hd).2 (by simpa using hq2)
      simp only [Prod.mk.injEq] at this
      simp [this.2, hpe]
    · rintro ⟨⟨q, hq, hd⟩, htp⟩
      obtain ⟨hcc, h1, h2, _⟩ := h.dec_inv hq hd
      have hpos := h.repSpo.fst_pos hq
      refine ⟨q.1 - 1, ?_, List.mem_filterMap.2 ⟨q, List.mem_filter.2 ⟨hq, ?_⟩, hd⟩⟩
      · rw [List.mem_filter, List.mem_range]
        refine ⟨by rw [h.repSp.nums, List.length_map]; exact hcc, ?_⟩
        simp only [beq_iff_eq]
        exact (hnum _).2 ⟨hcc, by rw [h2]; simpa using htp⟩
      · simp only [beq_iff_eq]; omega

/-- A fresh predicate iterator stands for all triples with the predicate. -/
theorem pred_new (h : Core subjects sp spo ts Psp Pspo) {p : Nat} (hp : p ≠ 0) {L : List Nat}
    (hL : waveletLookup sp.nums p = some L) :
    (∀ c ∈ L, ∃ hc : c < Psp.length, Psp[c].2 ≠ 0) ∧
    PredR subjects sp spo Psp Pspo L (PredIter.new L subjects sp spo)
      (ts.filter (fun t => t.p == p)) := by
  have hLe := waveletLookup_some hL
  constructor
  · intro c hc
    rw [hLe, List.mem_filter] at hc
    have hh := hc.2
    simp only [beq_iff_eq] at hh
    rw [h.repSp.nums, List.getElem?_map] at hh
    obtain ⟨q, hq1, hq2⟩ := Option.map_eq_some_iff.1 hh
    obtain ⟨hc, he⟩ := List.getElem?_eq_some_iff.1 hq1
    exact ⟨hc, by rw [he, hq2]; exact hp⟩
  · refine ⟨rfl, _, h.subj_new, by simp [PredIter.new], ?_⟩
    rw [← h.cells_eq p, ← hLe]
    simp [PredIter.new]

theorem pred_none (h : Core subjects sp spo ts Psp Pspo) {p : Nat}
    (hL : waveletLookup sp.nums p = none) : ts.filter (fun t => t.p == p) = [] := by
  rw [← h.cells_eq p, waveletLookup_none hL]; rfl

end Core
end Verif
