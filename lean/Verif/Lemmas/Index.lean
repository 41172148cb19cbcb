import Verif.Lemmas.ObjSeek

/-!
Everything that is needed to know about one written side of a layer.
-/

namespace Verif

/-- `x` is the written form of the strictly increasing list `ts`; `lo` are the
same triples ordered by object. -/
def IdxRep (x : TripleIndex) (ts lo : List Triple) (Psp Pspo Pops : List (Nat × Nat)) : Prop :=
  Core x.subjects x.sp x.spo ts Psp Pspo ∧
  OCore x.subjects x.objects x.ops lo Psp Pops ∧
  x.wavelet = x.sp.nums ∧ RotSorted lo ∧ (∀ t, t ∈ lo ↔ t ∈ ts) ∧
  x.subjects.isSome = x.objects.isSome

/-- `x` is the written form of the strictly increasing list `ts`. -/
def Stored (x : TripleIndex) (ts : List Triple) : Prop :=
  ∃ lo Psp Pspo Pops, IdxRep x ts lo Psp Pspo Pops

theorem buildIndex_stored (sparse : Bool) {ts : List Triple} (hz : ∀ t ∈ ts, t.Nonzero)
    (hs : SortedLt ts) :
    ∃ x, buildIndex sparse ts = some x ∧ Stored x ts ∧ x.subjects.isSome = sparse := by
  obtain ⟨b, Psp, Pspo, h1, h2, h3⟩ := (TInv.new sparse).addAll ts hz hs (by simp)
  rw [List.nil_append] at h2
  have hsp : b.subjects.isSome = sparse := by
    rw [h3]; cases sparse <;> rfl
  obtain ⟨objects, ops, lo, Pops, h4, h5, h6, h7, h8⟩ := h2.core.buildObjectIndex sparse
  refine ⟨⟨b.subjects, objects, b.sp.finalize, b.spo.finalize, ops, b.sp.finalize.nums⟩,
    ?_, ⟨lo, Psp, Pspo, Pops, h2.core, h5, rfl, h7, h8, ?_⟩, hsp⟩
  · simp only [buildIndex, h1, Option.bind_eq_bind, Option.bind_some, TripleBuilder.finish, hsp, h4]
    rfl
  · rw [hsp, h6]

namespace Stored
variable {x : TripleIndex} {ts : List Triple}

theorem sorted (h : Stored x ts) : SortedLt ts := by
  obtain ⟨_, _, _, _, hc, _⟩ := h
  exact hc.sorted_ts

theorem nonzero (h : Stored x ts) : ∀ t ∈ ts, t.Nonzero := by
  obtain ⟨_, _, _, _, hc, _⟩ := h
  exact fun t ht => hc.nonzero ht

theorem contains (h : Stored x ts) (t : Triple) : x.contains t = some (decide (t ∈ ts)) := by
  obtain ⟨_, _, _, _, hc, _⟩ := h
  exact hc.exists_spec t

theorem length_le (h : Stored x ts) : ts.length ≤ x.spo.rightCount := by
  obtain ⟨_, _, _, _, hc, _⟩ := h
  rw [hc.repSpo.rightCount, ← hc.length_eq]
  omega

theorem count (h : Stored x ts) : x.count = some ts.length := by
  obtain ⟨_, Psp, _, _, hc, _, hw, _⟩ := h
  have hlen := hc.length_eq
  unfold TripleIndex.count
  simp only
  rw [hw, waveletLookup_length, hc.repSpo.rightCount]
  have : x.sp.nums.countP (fun y => y == 0) = Psp.countP (fun q => q.2 == 0) := by
    rw [hc.repSp.nums, List.countP_map]; rfl
  rw [this]
  rw [if_pos (by omega)]
  congr 1
  omega

/-- Collecting a subject iterator. -/
theorem collect_subj {Psp Pspo : List (Nat × Nat)}
    (hc : Core x.subjects x.sp x.spo ts Psp Pspo) {it : SubjIter} {l : List Triple}
    (hR : SubjR x.subjects x.sp x.spo Psp Pspo it l) (hp : it.peeked = none) :
    it.collect = some l := by
  unfold SubjIter.collect
  refine collectN_eq hc.subj_next _ _ _ hR ?_
  rw [hR.2, hR.1.spo_eq, hc.repSpo.rightCount]
  unfold SubjIter.rem
  rw [hp, Option.toList_none, List.nil_append]
  have := List.length_filterMap_le (dec it.subjects Psp) (Pspo.drop it.spoPos)
  rw [List.length_drop] at this
  omega

theorem triples (h : Stored x ts) : x.triples = some ts := by
  obtain ⟨_, _, _, _, hc, _⟩ := h
  exact collect_subj hc hc.subj_new' rfl

theorem takeWhile_eq_filter {l : List Triple} {k : Triple → Triple → Prop} {p : Triple → Bool}
    (hs : l.Pairwise k)
    (hdown : ∀ a ∈ l, ∀ b ∈ l, k a b → p b = true → p a = true) :
    l.takeWhile p = l.filter p := by
  induction l with
  | nil => rfl
  | cons a l ih =>
    rw [List.pairwise_cons] at hs
    have ih' := ih hs.2 (fun a ha b hb => hdown a (by simp [ha]) b (by simp [hb]))
    by_cases hp : p a = true
    · rw [List.takeWhile_cons_of_pos hp, List.filter_cons_of_pos hp, ih']
    · rw [List.takeWhile_cons_of_neg hp, List.filter_cons_of_neg hp]
      symm
      rw [List.filter_eq_nil_iff]
      intro b hb hpb
      exact hp (hdown a (by simp) b (by simp [hb]) (hs.1 b hb) hpb)

theorem triplesS (h : Stored x ts) (s : Nat) :
    x.triplesS s = some (ts.filter (fun t => t.s == s)) := by
  have hsort := h.sorted
  obtain ⟨_, Psp, Pspo, _, hc, _⟩ := h
  obtain ⟨it, h1, h2⟩ := hc.seekSubject_spec (it := x.iter) rfl rfl rfl s
  have hp : it.peeked = none := by
    unfold SubjIter.seekSubject at h1
    split at h1
    · simp only [Option.some.injEq] at h1; rw [← h1]
    · simp only at h1
      split at h1
      · simp only [Option.some.injEq] at h1; rw [← h1]
      · simp only [Option.bind_eq_bind, Option.bind_eq_some_iff] at h1
        obtain ⟨_, _, _, _, h1⟩ := h1
        simp only [pure, Option.some.injEq] at h1; rw [← h1]
  unfold TripleIndex.triplesS
  simp only [h1, collect_subj hc h2 hp, Option.bind_eq_bind, Option.bind_some, pure,
    Option.some.injEq]
  rw [takeWhile_eq_filter (k := (· < ·)) (hsort.filter _), List.filter_filter]
  · congr 1
    funext t
    by_cases ht : t.s = s <;> simp [ht]
  · intro a ha b hb hab hbs
    have h1 := (List.mem_filter.1 ha).2
    rw [Triple.lt_def] at hab
    simp only [decide_eq_true_eq, beq_iff_eq] at h1 hbs ⊢
    omega

theorem triplesSP (h : Stored x ts) (s p : Nat) :
    x.triplesSP s p = some (ts.filter (fun t => t.s == s && t.p == p)) := by
  have hsort := h.sorted
  obtain ⟨_, Psp, Pspo, _, hc, _⟩ := h
  obtain ⟨it, l, h1, h2, g, rfl, h3, h4⟩ :=
    hc.seekSubjectPredicate_spec (it := x.iter) rfl rfl rfl s p
  have hp : it.peeked = none := by
    unfold SubjIter.seekSubjectPredicate at h1
    split at h1
    · unfold SubjIter.seekSubject at h1
      split at h1
      · simp only [Option.some.injEq] at h1; rw [← h1]
      · simp only at h1
        split at h1
        · simp only [Option.some.injEq] at h1; rw [← h1]
        · simp only [Option.bind_eq_bind, Option.bind_eq_some_iff] at h1
          obtain ⟨_, _, _, _, h1⟩ := h1
          simp only [pure, Option.some.injEq] at h1; rw [← h1]
    · split at h1
      · simp only [Option.some.injEq] at h1; rw [← h1]
      · simp only at h1
        split at h1
        · simp only [Option.some.injEq] at h1; rw [← h1]
        · simp only [Option.bind_eq_bind, Option.bind_eq_some_iff] at h1
          obtain ⟨_, _, _, _, _, _, h1⟩ := h1
          simp only [pure, Option.some.injEq] at h1; rw [← h1]
  unfold TripleIndex.triplesSP
  simp only [h1, collect_subj hc h2 hp, Option.bind_eq_bind, Option.bind_some, pure,
    Option.some.injEq]
  rw [takeWhile_eq_filter (k := (· < ·)) (hsort.filter _), List.filter_filter]
  · apply List.filter_congr
    intro t ht
    by_cases hts : t.s = s
    · by_cases htp : t.p = p
      · have := h4 t ht hts htp
        rw [this]; simp [hts, htp]
      · have : (t.p == p) = false := by simpa using htp
        simp only [this, Bool.and_false, Bool.false_and]
    · have : (t.s == s) = false := by simpa using hts
      simp only [this, Bool.and_false, Bool.false_and]
  · intro a ha b hb hab hbs
    obtain ⟨ha1, ha2⟩ := List.mem_filter.1 ha
    have h1 := h3 a ha1 ha2
    rw [Triple.lt_def] at hab
    simp only [Bool.and_eq_true, beq_iff_eq] at hbs ⊢
    omega

theorem triplesP (h : Stored x ts) {p : Nat} (hp : p ≠ 0) :
    x.triplesP p = some (ts.filter (fun t => t.p == p)) := by
  have hle := h.length_le
  obtain ⟨_, Psp, Pspo, _, hc, _, hw, _⟩ := h
  unfold TripleIndex.triplesP TripleIndex.predIter
  rw [hw]
  cases hL : waveletLookup x.sp.nums p with
  | none =>
    simp only [Option.map_none, Option.some.injEq]
    exact (hc.pred_none hL).symm
  | some L =>
    obtain ⟨h1, h2⟩ := hc.pred_new hp hL
    simp only [Option.map_some]
    unfold PredIter.collect
    refine collectN_eq (hc.pred_next h1) _ _ _ h2 ?_
    have := List.length_filter_le (fun t : Triple => t.p == p) ts
    have : (PredIter.new L x.subjects x.sp x.spo).subj.spo.rightCount = x.spo.rightCount := rfl
    omega

/-! Queries by object -/

theorem collect_obj {Psp Pspo Pops : List (Nat × Nat)} {lo : List Triple}
    (hc : Core x.subjects x.sp x.spo ts Psp Pspo)
    (ho : OCore x.subjects x.objects x.ops lo Psp Pops) {it : ObjIter} {l : List Triple}
    (hR : ObjR x.subjects x.objects x.ops x.sp Psp Pops it l) (hp : it.peeked = none) :
    it.collect = some l := by
  unfold ObjIter.collect
  refine collectN_eq (OCore.obj_next hc ho) _ _ _ hR ?_
  rw [hR.2, hR.1.ops_eq, ho.repOps.rightCount]
  unfold ObjIter.rem
  rw [hp, Option.toList_none, List.nil_append]
  have h1 := List.length_filterMap_le (decO x.subjects x.objects Psp) (it.remP Pops)
  have h2 : (it.remP Pops).length ≤ Pops.length := by
    unfold ObjIter.remP
    split
    · split
      · simp
      · have := List.length_filter_le (fun q : Nat × Nat => q.1 == it.oPos + 1)
          (Pops.drop it.opsPos)
        rw [List.length_drop] at this
        omega
    · rw [List.length_drop]; omega
  omega

theorem seekObject_peeked {it it' : ObjIter} {o : Nat} (h1 : it.seekObject o = some it') :
    it'.peeked = none := by
  unfold ObjIter.seekObject at h1
  split at h1
  · simp only [Option.some.injEq] at h1; rw [← h1]
  · simp only at h1
    split at h1
    · simp only [Option.some.injEq] at h1; rw [← h1]
    · simp only [Option.bind_eq_bind, Option.bind_eq_some_iff] at h1
      obtain ⟨_, _, h1⟩ := h1
      simp only [pure, Option.some.injEq] at h1; rw [← h1]

/-- Setting the boundary flag after the seek is the same as before it. -/
theorem seekObject_flag (subjects objects : Option (List Nat)) (ops sp : AdjList) (o : Nat)
    {it : ObjIter} (h : (ObjIter.new subjects objects ops sp true).seekObject o = some it) :
    ∃ it', (ObjIter.new subjects objects ops sp false).seekObject o = some it' ∧
      ({ it' with stopAtBoundary := true } : ObjIter) = it := by
  unfold ObjIter.seekObject at h ⊢
  by_cases ho : o = 0
  · rw [if_pos ho] at h ⊢
    simp only [Option.some.injEq] at h
    exact ⟨_, rfl, by rw [← h]; rfl⟩
  · rw [if_neg ho] at h ⊢
    simp only [ObjIter.new] at h ⊢
    by_cases hc : ObjIter.objPos objects o ≥ ops.leftCount
    · simp only [hc, if_true] at h ⊢
      simp only [Option.some.injEq] at h
      exact ⟨_, rfl, by rw [← h]⟩
    · simp only [hc, if_false] at h ⊢
      simp only [Option.bind_eq_bind, Option.bind_eq_some_iff] at h
      obtain ⟨a, ha, h⟩ := h
      simp only [pure, Option.some.injEq] at h
      simp only [ha, Option.bind_eq_bind, Option.bind_some]
      exact ⟨_, rfl, by rw [← h]⟩

/-- `lo` is the list of triples ordered by object, filtered by one object. -/
theorem filter_obj {lo ts : List Triple} (h1 : RotSorted lo) (h2 : ∀ t, t ∈ lo ↔ t ∈ ts)
    (hs : SortedLt ts) (o : Nat) :
    lo.filter (fun t => t.o == o) = ts.filter (fun t => t.o == o) := by
  apply SortedLt.ext
  · refine List.Pairwise.imp_of_mem ?_ (List.Pairwise.filter _ h1)
    intro a b ha hb hab
    have ha' := (List.mem_filter.1 ha).2
    have hb' := (List.mem_filter.1 hb).2
    simp only [beq_iff_eq] at ha' hb'
    rw [Triple.lt_def] at hab ⊢
    simp only [Triple.rot] at hab
    omega
  · exact hs.filter _
  · intro t
    rw [List.mem_filter, List.mem_filter, h2]

/-- By object on a stored layer, for every object. -/
theorem storedTriplesO (h : Stored x ts) (o : Nat) :
    x.storedTriplesO o = some (ts.filter (fun t => t.o == o)) := by
  have hsort := h.sorted
  have hnz := h.nonzero
  obtain ⟨lo, Psp, Pspo, Pops, hc, ho, _, h1, h2, _⟩ := h
  unfold TripleIndex.storedTriplesO
  by_cases hz : o = 0
  · subst hz
    have hemp : ts.filter (fun t => t.o == 0) = [] := by
      rw [List.filter_eq_nil_iff]
      intro t ht
      have := (hnz t ht).2.2
      simpa using this
    rw [hemp]
    -- the iterator starts at the first object
    have hseek : (ObjIter.new x.subjects x.objects x.ops x.sp true).seekObject 0 =
        some (ObjIter.new x.subjects x.objects x.ops x.sp true) := rfl
    have hR : ObjR x.subjects x.objects x.ops x.sp Psp Pops
        (ObjIter.new x.subjects x.objects x.ops x.sp true) _ :=
      ⟨⟨rfl, rfl, rfl, rfl, Or.inr (by simp [ObjIter.new, ones_zero])⟩, rfl⟩
    rw [hseek]
    simp only [Option.bind_eq_bind, Option.bind_some, collect_obj hc ho hR rfl, pure,
      Option.some.injEq]
    have hne : ∀ t ∈ (ObjIter.new x.subjects x.objects x.ops x.sp true).rem x.subjects x.objects
        Psp Pops, t.o ≠ 0 := by
      intro t ht
      simp only [ObjIter.rem, ObjIter.remP, ObjIter.new, Option.toList_none, List.nil_append,
        List.drop_zero, if_true, Bool.false_eq_true, if_false] at ht
      obtain ⟨q, hq, hd⟩ := List.mem_filterMap.1 ht
      exact (OCore.dec_inv hc ho (List.mem_filter.1 hq).1 hd).2.2
    generalize ObjIter.rem _ _ _ _ _ = l at hne
    cases l with
    | nil => rfl
    | cons t l => rw [List.takeWhile_cons_of_neg]; simpa using hne t (by simp)
  · obtain ⟨it, g1, l, g2, g3⟩ := OCore.seekObject_stop hc ho hz
    have hp := seekObject_peeked g1
    simp only [g1, collect_obj hc ho g2 hp, Option.bind_eq_bind, Option.bind_some, pure,
      Option.some.injEq]
    rw [← filter_obj h1 h2 hsort]
    rcases g3 with ⟨o', k1, k2, k3, k4, rfl⟩ | ⟨rfl, k2⟩
    · by_cases heq : o' = o
      · subst heq
        rw [takeWhile_eq_filter (k := fun a b => a.rot < b.rot) (List.Pairwise.filter _ h1),
          List.filter_filter]
        · simp
        · intro a ha _ _ _ _
          exact (List.mem_filter.1 ha).2
      · have e1 : lo.filter (fun t => t.o == o) = [] := by
          rw [List.filter_eq_nil_iff]
          intro t ht hto
          have : t.o = o := by simpa using hto
          have := k3 t ht (by omega)
          omega
        rw [e1]
        have hne : ∀ t ∈ lo.filter (fun t => t.o == o'), t.o ≠ o := by
          intro t ht
          have := (List.mem_filter.1 ht).2
          simp only [beq_iff_eq] at this
          omega
        generalize lo.filter (fun t => t.o == o') = l at hne
        cases l with
        | nil => rfl
        | cons t l => rw [List.takeWhile_cons_of_neg]; simpa using hne t (by simp)
    · symm
      rw [List.filter_eq_nil_iff.2]
      · rfl
      · intro t ht hto
        have := k2 t ht
        have : t.o = o := by simpa using hto
        omega

/-- By object on a loaded layer: right for every object of a dense index, and
for the objects that occur in a sparse one. -/
theorem triplesO (h : Stored x ts) {o : Nat} (hz : o ≠ 0)
    (hd : x.subjects = none ∨ (∃ t ∈ ts, t.o = o) ∨ ∀ t ∈ ts, t.o < o) :
    x.triplesO o = some (ts.filter (fun t => t.o == o)) := by
  have hsort := h.sorted
  obtain ⟨lo, Psp, Pspo, Pops, hc, ho, _, h1, h2, h3⟩ := h
  obtain ⟨it, g1, l, g2, g3⟩ := OCore.seekObject_stop hc ho hz
  have hp := seekObject_peeked g1
  obtain ⟨it', g4, g5⟩ := seekObject_flag _ _ _ _ _ g1
  unfold TripleIndex.triplesO TripleIndex.objIter
  simp only [g4, g5, collect_obj hc ho g2 hp, Option.bind_eq_bind, Option.bind_some,
    Option.some.injEq]
  rw [← filter_obj h1 h2 hsort]
  rcases g3 with ⟨o', k1, k2, k3, k4, rfl⟩ | ⟨rfl, k2⟩
  · rcases hd with hd | ⟨t, ht, hto⟩ | hd
    · have : x.objects = none := by
        rw [hd] at h3
        simpa using h3.symm
      rw [k2 this]
    · have := k3 t ((h2 t).2 ht) (by omega)
      have : o' = o := by omega
      rw [this]
    · rw [List.filter_eq_nil_iff.2, List.filter_eq_nil_iff.2]
      · intro t ht hto
        have := hd t ((h2 t).1 ht)
        have : t.o = o := by simpa using hto
        omega
      · intro t ht hto
        have := hd t ((h2 t).1 ht)
        have : t.o = o' := by simpa using hto
        omega
  · symm
    rw [List.filter_eq_nil_iff]
    intro t ht hto
    have := k2 t ht
    have : t.o = o := by simpa using hto
    omega

end Stored
end Verif
