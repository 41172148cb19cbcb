import Verif.Lemmas.PredIter

/-!
The object index of a written layer and the object iterator.
-/

namespace Verif

/-- The meaning of an entry of the object index: the object and the cell. -/
def decP (objects : Option (List Nat)) (q : Nat × Nat) : Option (Nat × Nat) :=
  if q.2 = 0 then none else (subjOf objects q.1).map (fun o => (o, q.2))

/-- The triple of an object and a cell. -/
def cellTriple (subjects : Option (List Nat)) (Psp : List (Nat × Nat)) (d : Nat × Nat) :
    Option Triple :=
  (Psp[d.2 - 1]?).bind fun rp => (subjOf subjects rp.1).map fun s => ⟨s, rp.2, d.1⟩

/-- The triple of an entry of the object index. -/
def decO (subjects objects : Option (List Nat)) (Psp : List (Nat × Nat)) (q : Nat × Nat) :
    Option Triple :=
  (decP objects q).bind (cellTriple subjects Psp)

/-- The object side of a written index. `lo` are the triples ordered by object. -/
structure OCore (subjects objects : Option (List Nat)) (ops : AdjList) (lo : List Triple)
    (Psp Pops : List (Nat × Nat)) : Prop where
  repOps : AdjRep ops Pops
  decEq : Pops.filterMap (decO subjects objects Psp) = lo
  cellLt : ∀ q ∈ Pops, q.2 - 1 < Psp.length ∨ q.2 = 0
  obj : ∀ l, objects = some l → SortedLt l ∧ l.length = ops.leftCount ∧ (∀ x ∈ l, 1 ≤ x)
  noStub : objects.isSome → ∀ q ∈ Pops, q.2 ≠ 0

/-! ### Writing the object index -/

/-- The dense variant: gaps become stubs. -/
theorem pushAll_spec : ∀ (D : List (Nat × Nat)) (b : AdjBuilder) (P D0 : List (Nat × Nat)),
    BInv b P → P.filterMap (decP none) = D0 → D.Pairwise PLt →
    (∀ d ∈ D, 1 ≤ d.1 ∧ 1 ≤ d.2) →
    (∀ d ∈ D, b.lastLeft < d.1 ∨ (b.lastLeft = d.1 ∧ b.lastRight < d.2)) →
    (∀ q ∈ P, q.2 = 0 ∨ q ∈ D0) →
    ∃ b' P', b.pushAll D = some b' ∧ BInv b' P' ∧ P'.filterMap (decP none) = D0 ++ D ∧
      (∀ q ∈ P', q.2 = 0 ∨ q ∈ D0 ++ D)
  | [], b, P, D0, hb, hP, _, _, _, hm => ⟨b, P, rfl, hb, by simpa using hP, by simpa using hm⟩
  | d :: D, b, P, D0, hb, hP, hs, hpos, hlt, hm => by
    rw [List.pairwise_cons] at hs
    obtain ⟨b1, h1, h2, h3, h4⟩ := hb.push (hpos d (by simp)).1 (hlt d (by simp))
    have hd : decP none (d.1, d.2) = some d := by
      have := (hpos d (by simp)).2
      simp [decP, subjOf]; omega
    have hst : (stubs b.lastLeft d.1).filterMap (decP none) = [] := by
      rw [List.filterMap_eq_nil_iff]
      intro q hq
      simp [decP, (mem_stubs.1 hq).2.2]
    obtain ⟨b', P', h5, h6, h7, h8⟩ := pushAll_spec D b1 _ (D0 ++ [d]) h2
      (by rw [List.filterMap_append, List.filterMap_append, hP, hst]; simp [hd]) hs.2
      (fun e he => hpos e (by simp [he]))
      (fun e he => by
        rw [h3, h4]
        exact hs.1 e he)
      (by
        intro q hq
        simp only [List.mem_append, List.mem_singleton] at hq ⊢
        rcases hq with (hq | hq) | hq
        · rcases hm q hq with h | h
          · exact Or.inl h
          · exact Or.inr (Or.inl h)
        · exact Or.inl (mem_stubs.1 hq).2.2
        · exact Or.inr (Or.inr hq))
    refine ⟨b', P', ?_, h6, ?_, ?_⟩
    · simp only [AdjBuilder.pushAll, h1, Option.bind_eq_bind, Option.bind_some, h5]
    · rw [h7]; simp
    · simpa using h8

/-- The sparse variant: objects are renumbered. -/
theorem sparseObjLoop_spec : ∀ (D : List (Nat × Nat)) (st : ObjIndexState)
    (P D0 : List (Nat × Nat)),
    BInv st.builder P → P.filterMap (decP (some st.objects)) = D0 → D.Pairwise PLt →
    (∀ d ∈ D, 1 ≤ d.1 ∧ 1 ≤ d.2) →
    (∀ d ∈ D, st.lastObject < d.1 ∨ (st.lastObject = d.1 ∧ st.builder.lastRight < d.2)) →
    (∀ q ∈ P, q.2 ≠ 0 ∧ q.2 ∈ D0.map Prod.snd) →
    st.objectIx = st.builder.lastLeft → st.objects.length = st.objectIx →
    SortedLt st.objects → (∀ x ∈ st.objects, 1 ≤ x ∧ x ≤ st.lastObject) →
    (st.objects.getLast?.getD 0 = st.lastObject) →
    ∃ st' P', sparseObjLoop st D = some st' ∧ BInv st'.builder P' ∧
      P'.filterMap (decP (some st'.objects)) = D0 ++ D ∧
      (∀ q ∈ P', q.2 ≠ 0 ∧ q.2 ∈ (D0 ++ D).map Prod.snd) ∧
      st'.objects.length = st'.builder.lastLeft ∧ SortedLt st'.objects ∧
      (∀ x ∈ st'.objects, 1 ≤ x)
  | [], st, P, D0, hb, hP, _, _, _, hm, h1, h2, h3, h4, _ =>
    ⟨st, P, rfl, hb, by simpa using hP, by simpa using hm, by rw [h2, h1], h3,
      fun x hx => (h4 x hx).1⟩
  | d :: D, st, P, D0, hb, hP, hs, hpos, hlt, hm, h1, h2, h3, h4, h5 => by
    rw [List.pairwise_cons] at hs
    have hd1 := hpos d (by simp)
    unfold sparseObjLoop
    by_cases hgt : d.1 > st.lastObject
    · -- a new object
      obtain ⟨b1, g1, g2, g3, g4⟩ := hb.push (l := st.objectIx + 1) (r := d.2) (by omega)
        (Or.inl (by omega))
      have hst : stubs st.builder.lastLeft (st.objectIx + 1) = [] := by
        rw [h1]; exact stubs_succ _
      rw [hst, List.append_nil] at g2
      have hdec : decP (some (st.objects ++ [d.1])) (st.objectIx + 1, d.2) = some d := by
        simp only [decP, subjOf]
        rw [if_neg (by omega), Nat.add_sub_cancel, ← h2, List.getElem?_concat_length]
        rfl
      have hold : P.filterMap (decP (some (st.objects ++ [d.1]))) = D0 := by
        rw [← hP]
        apply filterMap_congr'
        intro q hq
        have hq1 := hb.bound q hq
        have hq2 : 1 ≤ q.1 := by
          obtain ⟨k, hk, rfl⟩ := List.getElem_of_mem hq
          have := hb.left k _ (List.getElem?_eq_getElem hk)
          omega
        simp only [decP, subjOf]
        rw [List.getElem?_append_left (by omega)]
      obtain ⟨st', P', k1, k2, k3, k4, k5, k6, k7⟩ := sparseObjLoop_spec D
        { objects := st.objects ++ [d.1], lastObject := d.1, objectIx := st.objectIx + 1,
          builder := b1 } _ (D0 ++ [d]) g2
        (by simp [List.filterMap_append, hold, hdec]) hs.2 (fun e he => hpos e (by simp [he]))
        (fun e he => by simp only [g4]; exact hs.1 e he)
        (by
          intro q hq
          rcases List.mem_append.1 hq with hq | hq
          · have := hm q hq
            refine ⟨this.1, ?_⟩
            rw [List.map_append]
            exact List.mem_append.2 (Or.inl this.2)
          · rw [List.mem_singleton] at hq
            subst hq
            exact ⟨by simp only; omega, by simp⟩)
        (by simp only [g3]) (by simp [h2])
        (by
          unfold SortedLt at h3 ⊢
          rw [List.pairwise_append]
          refine ⟨h3, by simp, ?_⟩
          intro x hx y hy
          rw [List.mem_singleton] at hy
          subst hy
          have := (h4 x hx).2
          omega)
        (by
          intro x hx
          rcases List.mem_append.1 hx with hx | hx
          · have := h4 x hx
            simp only; omega
          · rw [List.mem_singleton] at hx
            subst hx
            simp only; omega)
        (by simp)
      refine ⟨st', P', ?_, k2, ?_, ?_, k5, k6, k7⟩
      · rw [if_pos hgt]
        simp only [g1, Option.bind_eq_bind, Option.bind_some]
        exact k1
      · rw [k3]; simp
      · simpa using k4
    · -- the same object again
      have hlast := hlt d (by simp)
      have heq : st.lastObject = d.1 ∧ st.builder.lastRight < d.2 := by omega
      have hne : st.objects ≠ [] := by
        intro hh
        rw [hh] at h5
        simp at h5
        omega
      have hpos1 : 1 ≤ st.objectIx := by
        rw [← h2]; exact List.length_pos_iff.2 hne
      obtain ⟨b1, g1, g2, g3, g4⟩ := hb.push (l := st.objectIx) (r := d.2) hpos1
        (Or.inr ⟨by omega, heq.2⟩)
      have hst : stubs st.builder.lastLeft st.objectIx = [] := by
        rw [h1]; exact stubs_self _
      rw [hst, List.append_nil] at g2
      have hdec : decP (some st.objects) (st.objectIx, d.2) = some d := by
        simp only [decP, subjOf]
        rw [if_neg (by omega), ← h2]
        rw [List.getLast?_eq_getElem?] at h5
        have hl : st.objects.length - 1 < st.objects.length := by omega
        rw [List.getElem?_eq_getElem hl] at h5 ⊢
        simp only [Option.getD_some] at h5
        simp only [Option.map_some, h5, heq.1]
      obtain ⟨st', P', k1, k2, k3, k4, k5, k6, k7⟩ := sparseObjLoop_spec D
        { st with builder := b1 } _ (D0 ++ [d]) g2
        (by simp [List.filterMap_append, hP, hdec]) hs.2 (fun e he => hpos e (by simp [he]))
        (fun e he => by
          have := hs.1 e he
          unfold PLt at this
          simp only [g4]; omega)
        (by
          intro q hq
          rcases List.mem_append.1 hq with hq | hq
          · have := hm q hq
            refine ⟨this.1, ?_⟩
            rw [List.map_append]
            exact List.mem_append.2 (Or.inl this.2)
          · rw [List.mem_singleton] at hq
            subst hq
            exact ⟨by simp only; omega, by simp⟩)
        (by simp only [g3]) h2 h3 h4 h5
      refine ⟨st', P', ?_, k2, ?_, ?_, k5, k6, k7⟩
      · rw [if_neg hgt]
        simp only [g1, Option.bind_eq_bind, Option.bind_some]
        exact k1
      · rw [k3]; simp
      · simpa using k4

theorem streamPairs_eq {a : AdjList} {P : List (Nat × Nat)} (h : AdjRep a P) :
    streamPairs a = P.filter (fun q => q.2 != 0) := by
  unfold streamPairs
  congr 1
  rw [h.nums, List.length_map]
  have : ∀ n, n ≤ P.length → (List.range n).filterMap a.pairAt = P.take n := by
    intro n
    induction n with
    | zero => intro _; rfl
    | succ n ih =>
      intro hn
      rw [List.range_succ, List.filterMap_append, ih (by omega), List.take_add_one,
        List.getElem?_eq_getElem (by omega)]
      simp [h.pairAt (show n < P.length by omega)]
  rw [this _ (Nat.le_refl _), List.take_length]

theorem objectPairs_sorted {a : AdjList} {P : List (Nat × Nat)} (h : AdjRep a P) :
    (objectPairs a).Pairwise PLt := by
  unfold objectPairs
  rw [streamPairs_eq h, List.pairwise_map]
  have hnd : ((P.filter (fun q => q.2 != 0)).map (fun q => NPair.mk q.2 q.1)).Nodup := by
    unfold List.Nodup
    rw [List.pairwise_map]
    refine List.Pairwise.imp ?_ (h.sorted.filter _)
    intro x y hxy heq
    rw [NPair.eq_iff] at heq
    unfold PLt at hxy
    simp only at heq
    omega
  refine List.Pairwise.imp ?_ (isort_sortedLt hnd)
  intro x y hxy
  rw [NPair.lt_def] at hxy
  exact hxy

theorem mem_objectPairs {a : AdjList} {P : List (Nat × Nat)} (h : AdjRep a P) {d : Nat × Nat} :
    d ∈ objectPairs a ↔ (d.2, d.1) ∈ P ∧ d.1 ≠ 0 := by
  unfold objectPairs
  rw [streamPairs_eq h]
  simp only [List.mem_map, mem_isort, List.mem_filter]
  constructor
  · rintro ⟨x, ⟨q, ⟨hq1, hq2⟩, rfl⟩, rfl⟩
    exact ⟨hq1, by simpa using hq2⟩
  · rintro ⟨h1, h2⟩
    exact ⟨⟨d.1, d.2⟩, ⟨(d.2, d.1), ⟨h1, by simpa using h2⟩, rfl⟩, rfl⟩

/-- Strictly increasing in the order of objects, subjects, predicates. -/
def RotSorted (l : List Triple) : Prop := l.Pairwise (fun a b => a.rot < b.rot)

theorem Core.buildObjectIndex {subjects : Option (List Nat)} {sp spo : AdjList}
    {ts : List Triple} {Psp Pspo : List (Nat × Nat)} (h : Core subjects sp spo ts Psp Pspo)
    (sparse : Bool) :
    ∃ objects ops lo Pops, Verif.buildObjectIndex spo sparse = some (objects, ops) ∧
      OCore subjects objects ops lo Psp Pops ∧ objects.isSome = sparse ∧
      RotSorted lo ∧ ∀ t, t ∈ lo ↔ t ∈ ts := by
  have hsorted := objectPairs_sorted h.repSpo
  have hmem := fun d => mem_objectPairs h.repSpo (d := d)
  have hpos : ∀ d ∈ objectPairs spo, 1 ≤ d.1 ∧ 1 ≤ d.2 := by
    intro d hd
    obtain ⟨h1, h2⟩ := (hmem d).1 hd
    have := h.repSpo.fst_pos h1
    simp only at this
    omega
  have hcell : ∀ d ∈ objectPairs spo, d.2 - 1 < Psp.length := by
    intro d hd
    exact h.cell_lt ((hmem d).1 hd).1
  have hct : ∀ d ∈ objectPairs spo, cellTriple subjects Psp d = dec subjects Psp (d.2, d.1) := by
    intro d hd
    have := ((hmem d).1 hd).2
    simp [cellTriple, dec, this]
  -- the list of triples
  have hlo1 : RotSorted ((objectPairs spo).filterMap (cellTriple subjects Psp)) := by
    unfold RotSorted
    rw [List.pairwise_filterMap]
    refine List.Pairwise.imp_of_mem ?_ hsorted
    intro a b ha hb hlt t ht t' ht'
    rw [hct a ha] at ht
    rw [hct b hb] at ht'
    obtain ⟨ha1, _⟩ := (hmem a).1 ha
    obtain ⟨hb1, _⟩ := (hmem b).1 hb
    obtain ⟨_, _, _, e1, _⟩ := h.dec_inv ha1 ht
    obtain ⟨_, _, _, e2, _⟩ := h.dec_inv hb1 ht'
    simp only at e1 e2
    rw [Triple.lt_def]
    simp only [Triple.rot]
    unfold PLt at hlt
    rcases hlt with hlt | ⟨hl1, hl2⟩
    · omega
    · have : t < t' := by
        by_contra hn
        -- same object, smaller cell
        have hc1 := h.dec_inv ha1 ht
        have hc2 := h.dec_inv hb1 ht'
        obtain ⟨hx, hx1, hx2, _⟩ := hc1
        obtain ⟨hy, hy1, hy2, _⟩ := hc2
        have := h.dec_lt ha1 hb1 (by unfold PLt; simp only; omega) ht ht'
        exact hn this
      rw [Triple.lt_def] at this
      omega
  have hlo2 : ∀ t, t ∈ (objectPairs spo).filterMap (cellTriple subjects Psp) ↔ t ∈ ts := by
    intro t
    rw [List.mem_filterMap, h.mem_ts]
    constructor
    · rintro ⟨d, hd, ht⟩
      rw [hct d hd] at ht
      exact ⟨_, ((hmem d).1 hd).1, ht⟩
    · rintro ⟨q, hq, ht⟩
      have hne : q.2 ≠ 0 := by intro hz; simp [dec, hz] at ht
      have hd : (q.2, q.1) ∈ objectPairs spo := (hmem _).2 ⟨hq, hne⟩
      exact ⟨_, hd, by rw [hct _ hd]; exact ht⟩
  cases sparse with
  | false =>
    obtain ⟨b, P, h1, h2, h3, h4⟩ := pushAll_spec (objectPairs spo) {} [] [] BInv.nil rfl hsorted
      hpos (fun d hd => Or.inl (hpos d hd).1) (by simp)
    refine ⟨none, b.finalize, _, P, ?_, ⟨h2.finalize, rfl, ?_, by simp, by simp⟩, rfl, ?_, ?_⟩
    · simp [Verif.buildObjectIndex, h1]
    · intro q hq
      rcases h4 q hq with h | h
      · exact Or.inr h
      · rw [List.nil_append] at h
        exact Or.inl (hcell q h)
    all_goals
      have : P.filterMap (decO subjects none Psp) =
          (objectPairs spo).filterMap (cellTriple subjects Psp) := by
        rw [List.nil_append] at h3
        rw [← h3, List.filterMap_filterMap]
        rfl
      rw [this]
    · exact hlo1
    · exact hlo2
  | true =>
    obtain ⟨st, P, h1, h2, h3, h4, h5, h6, h7⟩ := sparseObjLoop_spec (objectPairs spo) {} [] []
      BInv.nil rfl hsorted hpos (fun d hd => Or.inl (hpos d hd).1) (by simp) rfl rfl
      List.Pairwise.nil (by simp) rfl
    refine ⟨some st.objects, st.builder.finalize, _, P, ?_,
      ⟨h2.finalize, rfl, ?_, ?_, fun _ q hq => (h4 q hq).1⟩, rfl, ?_, ?_⟩
    · simp [Verif.buildObjectIndex, h1]
    · intro q hq
      obtain ⟨_, h9⟩ := h4 q hq
      rw [List.nil_append] at h9
      obtain ⟨d, hd, he⟩ := List.mem_map.1 h9
      left
      rw [← he]
      exact hcell d hd
    · intro l hl
      simp only [Option.some.injEq] at hl
      subst hl
      refine ⟨h6, ?_, h7⟩
      by_cases hP : P = []
      · rw [h5, (h2.empty hP).2.1]
        have := h2.finalize
        rw [hP] at this
        rw [this.leftCount_nil]
      · rw [h5, h2.finalize.leftCount hP, h2.last hP]
    all_goals
      have : P.filterMap (decO subjects (some st.objects) Psp) =
          (objectPairs spo).filterMap (cellTriple subjects Psp) := by
        rw [List.nil_append] at h3
        rw [← h3, List.filterMap_filterMap]
        rfl
      rw [this]
    · exact hlo1
    · exact hlo2

end Verif
