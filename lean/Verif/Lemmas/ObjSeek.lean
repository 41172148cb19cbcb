import Verif.Lemmas.ObjIter

/-!
The object iterator of a written index.
-/

namespace Verif

structure ObjIter.Valid (it : ObjIter) (subjects objects : Option (List Nat)) (ops sp : AdjList)
    (Pops : List (Nat × Nat)) : Prop where
  subjects_eq : it.subjects = subjects
  objects_eq : it.objects = objects
  ops_eq : it.ops = ops
  sp_eq : it.sp = sp
  pos : Pops.length ≤ it.opsPos ∨ it.oPos = ones ops.bits it.opsPos

/-- The entries the iterator still visits. -/
def ObjIter.remP (it : ObjIter) (Pops : List (Nat × Nat)) : List (Nat × Nat) :=
  if it.stopAtBoundary then
    if it.hitBoundary then [] else (Pops.drop it.opsPos).filter (fun q => q.1 == it.oPos + 1)
  else Pops.drop it.opsPos

/-- One step past an entry whose last bit is `bit`. -/
def ObjIter.adv (it : ObjIter) (bit : Bool) : ObjIter :=
  { it with oPos := if bit then it.oPos + 1 else it.oPos,
            hitBoundary := if bit && it.stopAtBoundary then true else it.hitBoundary,
            opsPos := it.opsPos + 1 }

/-- What the iterator still yields. -/
def ObjIter.rem (it : ObjIter) (subjects objects : Option (List Nat)) (Psp Pops : List (Nat × Nat)) :
    List Triple :=
  it.peeked.toList ++ (it.remP Pops).filterMap (decO subjects objects Psp)

def ObjR (subjects objects : Option (List Nat)) (ops sp : AdjList) (Psp Pops : List (Nat × Nat))
    (it : ObjIter) (l : List Triple) : Prop :=
  it.Valid subjects objects ops sp Pops ∧ l = it.rem subjects objects Psp Pops

theorem unmapSubject_eq (subjects : Option (List Nat)) (r : Nat) :
    ObjIter.unmapSubject subjects r = subjOf subjects r := by cases subjects <;> rfl

theorem unmapObject_eq (objects : Option (List Nat)) (r : Nat) :
    ObjIter.unmapObject objects r = subjOf objects (r + 1) := by
  cases objects <;> simp [ObjIter.unmapObject, subjOf]

namespace OCore
variable {subjects objects : Option (List Nat)} {sp spo ops : AdjList} {ts lo : List Triple}
variable {Psp Pspo Pops : List (Nat × Nat)}

/-- Rows of the object index have objects. -/
theorem objOf_some (h : OCore subjects objects ops lo Psp Pops) {q : Nat × Nat} (hq : q ∈ Pops) :
    ∃ o, subjOf objects q.1 = some o ∧ 1 ≤ o := by
  have h1 := h.repOps.fst_pos hq
  have h2 := h.repOps.fst_le hq
  unfold subjOf
  cases hs : objects with
  | none => exact ⟨q.1, rfl, h1⟩
  | some l =>
    obtain ⟨_, h4, h5⟩ := h.obj l hs
    have : q.1 - 1 < l.length := by omega
    exact ⟨l[q.1 - 1], List.getElem?_eq_getElem this, h5 _ (List.getElem_mem this)⟩

theorem dec_some (hc : Core subjects sp spo ts Psp Pspo)
    (h : OCore subjects objects ops lo Psp Pops) {q : Nat × Nat} (hq : q ∈ Pops)
    (hne : q.2 ≠ 0) :
    ∃ (hcc : q.2 - 1 < Psp.length) (s o : Nat), subjOf subjects Psp[q.2 - 1].1 = some s ∧
      subjOf objects q.1 = some o ∧ 1 ≤ o ∧
      decO subjects objects Psp q = some ⟨s, Psp[q.2 - 1].2, o⟩ := by
  have hcc : q.2 - 1 < Psp.length := by
    rcases h.cellLt q hq with h | h
    · exact h
    · exact absurd h hne
  obtain ⟨s, hs, _⟩ := hc.subjOf_some (List.getElem_mem hcc)
  obtain ⟨o, ho, hpos⟩ := h.objOf_some hq
  refine ⟨hcc, s, o, hs, ho, hpos, ?_⟩
  simp only [decO, decP, if_neg hne, ho, Option.map_some, Option.bind_some, cellTriple,
    List.getElem?_eq_getElem hcc, hs]

theorem remP_step (h : OCore subjects objects ops lo Psp Pops) {it : ObjIter}
    (hv : it.Valid subjects objects ops sp Pops) (hk : it.opsPos < Pops.length)
    (hhit : ¬ (it.stopAtBoundary && it.hitBoundary) = true) {bit : Bool}
    (hones : ones ops.bits (it.opsPos + 1) = ones ops.bits it.opsPos + (if bit then 1 else 0)) :
    it.remP Pops = Pops[it.opsPos] ::
      (it.adv bit).remP Pops := by
  have hdrop : Pops.drop it.opsPos = Pops[it.opsPos] :: Pops.drop (it.opsPos + 1) :=
    List.drop_eq_getElem_cons hk
  have hpos : it.oPos = ones ops.bits it.opsPos := by
    rcases hv.pos with h | h
    · omega
    · exact h
  have hleft : Pops[it.opsPos].1 = it.oPos + 1 := by rw [h.repOps.left _ hk, hpos]
  unfold ObjIter.remP ObjIter.adv
  cases hst : it.stopAtBoundary with
  | false => simp only [Bool.false_eq_true, if_false, hdrop]
  | true =>
    have hh : it.hitBoundary = false := by
      simpa [hst] using hhit
    simp only [if_true, hh, Bool.false_eq_true, if_false, Bool.and_true]
    rw [hdrop, List.filter_cons_of_pos (by simpa using hleft)]
    cases bit with
    | false => simp
    | true =>
      simp only [if_true, List.cons.injEq, true_and, List.filter_eq_nil_iff]
      intro q hq
      obtain ⟨j, hj, rfl⟩ := List.getElem_of_mem hq
      rw [List.getElem_drop]
      rw [List.length_drop] at hj
      rw [h.repOps.left _ (by omega)]
      have := ones_mono ops.bits (show it.opsPos + 1 ≤ it.opsPos + 1 + j by omega)
      simp only [if_true] at hones
      simp only [beq_iff_eq]
      omega

theorem nextLoop_spec (hc : Core subjects sp spo ts Psp Pspo)
    (h : OCore subjects objects ops lo Psp Pops) : ∀ (fuel : Nat) (it : ObjIter),
    it.Valid subjects objects ops sp Pops → it.peeked = none → Pops.length - it.opsPos < fuel →
    ∃ it', it.nextLoop fuel = some ((it.rem subjects objects Psp Pops).head?, it') ∧
      it'.Valid subjects objects ops sp Pops ∧ it'.peeked = none ∧
      it'.rem subjects objects Psp Pops = (it.rem subjects objects Psp Pops).tail := by
  intro fuel
  induction fuel with
  | zero => intro it _ _ hf; omega
  | succ fuel ih =>
    intro it hv hp hf
    have hrem : it.rem subjects objects Psp Pops =
        (it.remP Pops).filterMap (decO subjects objects Psp) := by
      simp [ObjIter.rem, hp]
    unfold ObjIter.nextLoop
    by_cases hhit : (it.stopAtBoundary && it.hitBoundary) = true
    · rw [if_pos hhit]
      have : it.rem subjects objects Psp Pops = [] := by
        simp only [Bool.and_eq_true] at hhit
        rw [hrem]; simp [ObjIter.remP, hhit]
      exact ⟨it, by rw [this]; rfl, hv, hp, by rw [this]; rfl⟩
    · rw [if_neg hhit, hv.ops_eq, h.repOps.rightCount]
      by_cases hend : it.opsPos ≥ Pops.length
      · rw [if_pos hend]
        have : it.rem subjects objects Psp Pops = [] := by
          rw [hrem]; simp [ObjIter.remP, List.drop_of_length_le hend]
        exact ⟨it, by rw [this]; rfl, hv, hp, by rw [this]; rfl⟩
      · rw [if_neg hend]
        have hk : it.opsPos < Pops.length := by omega
        have hpos : it.oPos = ones ops.bits it.opsPos := by
          rcases hv.pos with h | h
          · omega
          · exact h
        have hleft : Pops[it.opsPos].1 = it.oPos + 1 := by rw [h.repOps.left _ hk, hpos]
        obtain ⟨bit, hbit, hones⟩ := h.repOps.bitAt hk
        have hnum := h.repOps.numAt hk
        have hstep := h.remP_step hv hk hhit hones
        simp only [hbit, hnum, Option.bind_eq_bind, Option.bind_some]
        have hv' : (it.adv bit).Valid subjects objects ops sp Pops := by
          refine ⟨hv.1, hv.2, hv.3, hv.4, ?_⟩
          right
          simp only [ObjIter.adv]
          rw [hones, ← hpos]
          cases bit <;> simp
        by_cases hz : Pops[it.opsPos].2 = 0
        · rw [if_pos hz]
          obtain ⟨it', h1, h2, h3, h4⟩ := ih _ hv' hp (by simp only [ObjIter.adv]; omega)
          have hr : (it.adv bit).rem subjects objects Psp Pops =
              it.rem subjects objects Psp Pops := by
            rw [hrem, hstep, List.filterMap_cons_none (by simp [decO, decP, hz])]
            simp [ObjIter.rem, ObjIter.adv, hp]
          rw [hr] at h1 h4
          refine ⟨it', ?_, h2, h3, h4⟩
          rw [← h1]
          unfold ObjIter.adv
          rw [hv.ops_eq]
        · rw [if_neg hz]
          obtain ⟨hcc, s, o, hs, ho, _, hd⟩ := dec_some hc h (List.getElem_mem hk) hz
          rw [hv.sp_eq, hc.repSp.pairAt hcc]
          have hrem' : it.rem subjects objects Psp Pops = ⟨s, Psp[Pops[it.opsPos].2 - 1].2, o⟩ ::
              (it.adv bit).rem subjects objects Psp Pops := by
            rw [hrem, hstep, List.filterMap_cons_some hd]
            simp [ObjIter.rem, ObjIter.adv, hp]
          refine ⟨_, ?_, hv', hp, by rw [hrem']; rfl⟩
          rw [hrem', hv.subjects_eq, hv.objects_eq]
          simp only [Option.bind_some, List.head?_cons]
          have e1 : ObjIter.unmapSubject subjects Psp[Pops[it.opsPos].2 - 1].1 = some s := by
            rw [unmapSubject_eq]; exact hs
          have e2 : ObjIter.unmapObject objects it.oPos = some o := by
            rw [unmapObject_eq, ← hleft]; exact ho
          simp [e1, e2, ObjIter.adv, hv.ops_eq, hv.sp_eq, hv.subjects_eq, hv.objects_eq]

theorem obj_next (hc : Core subjects sp spo ts Psp Pspo)
    (h : OCore subjects objects ops lo Psp Pops) :
    NextSim ObjIter.next (ObjR subjects objects ops sp Psp Pops) := by
  rintro it l ⟨hv, rfl⟩
  unfold ObjIter.next
  cases hp : it.peeked with
  | some t =>
    refine ⟨{ it with peeked := none }, ?_, ⟨⟨hv.1, hv.2, hv.3, hv.4, hv.5⟩, ?_⟩⟩
    · simp [ObjIter.rem, hp]
    · simp [ObjIter.rem, ObjIter.remP, hp]
  | none =>
    obtain ⟨it', h1, h2, h3, h4⟩ := nextLoop_spec hc h (it.ops.rightCount + 1) it hv hp
      (by rw [hv.ops_eq, h.repOps.rightCount]; omega)
    exact ⟨it', h1, h2, h4.symm⟩

theorem obj_peek (hc : Core subjects sp spo ts Psp Pspo)
    (h : OCore subjects objects ops lo Psp Pops) :
    PeekSim ObjIter.peek (ObjR subjects objects ops sp Psp Pops) := by
  rintro it l ⟨hv, rfl⟩
  unfold ObjIter.peek ObjIter.next
  cases hp : it.peeked with
  | some t =>
    refine ⟨it, ?_, ⟨hv, rfl⟩⟩
    simp only [Option.bind_eq_bind, Option.bind_some, ObjIter.rem, hp]
    cases it; simp_all
  | none =>
    obtain ⟨it', h1, h2, h3, h4⟩ := nextLoop_spec hc h (it.ops.rightCount + 1) it hv hp
      (by rw [hv.ops_eq, h.repOps.rightCount]; omega)
    simp only [h1, Option.bind_eq_bind, Option.bind_some]
    refine ⟨_, rfl, ⟨⟨h2.1, h2.2, h2.3, h2.4, h2.5⟩, ?_⟩⟩
    have h5 : (it'.remP Pops).filterMap (decO subjects objects Psp) =
        (it.rem subjects objects Psp Pops).tail := by
      rw [← h4]; simp [ObjIter.rem, h3]
    have h6 : ({ it' with peeked := (it.rem subjects objects Psp Pops).head? } : ObjIter).remP Pops
        = it'.remP Pops := rfl
    generalize it.rem subjects objects Psp Pops = l at h5 h6 ⊢
    simp only [ObjIter.rem, h6]
    rw [h5]
    cases l <;> simp

theorem obj_new (h : OCore subjects objects ops lo Psp Pops) :
    ObjR subjects objects ops sp Psp Pops (ObjIter.new subjects objects ops sp false) lo := by
  refine ⟨⟨rfl, rfl, rfl, rfl, ?_⟩, ?_⟩
  · right; simp [ObjIter.new, ones_zero]
  · simp [ObjIter.rem, ObjIter.remP, ObjIter.new, h.decEq]

/-- Objects follow the row order. -/
theorem objOf_lt (h : OCore subjects objects ops lo Psp Pops) {r r' s s' : Nat} (hr : 1 ≤ r)
    (hs : subjOf objects r = some s) (hs' : subjOf objects r' = some s') (hlt : r < r') :
    s < s' := by
  unfold subjOf at hs hs'
  cases hsub : objects with
  | none =>
    rw [hsub] at hs hs'
    simp at hs hs'
    omega
  | some l =>
    rw [hsub] at hs hs'
    simp only at hs hs'
    obtain ⟨h1, h2⟩ := List.getElem?_eq_some_iff.1 hs
    obtain ⟨h3, h4⟩ := List.getElem?_eq_some_iff.1 hs'
    rw [← h2, ← h4]
    exact List.pairwise_iff_getElem.1 (h.obj l hsub).1 _ _ h1 h3 (by omega)

theorem dec_inv (hc : Core subjects sp spo ts Psp Pspo)
    (h : OCore subjects objects ops lo Psp Pops) {q : Nat × Nat} (hq : q ∈ Pops) {t : Triple}
    (hd : decO subjects objects Psp q = some t) :
    q.2 ≠ 0 ∧ subjOf objects q.1 = some t.o ∧ t.o ≠ 0 := by
  have hne : q.2 ≠ 0 := by intro hz; simp [decO, decP, hz] at hd
  obtain ⟨hcc, s, o, h1, h2, h3, h4⟩ := dec_some hc h hq hne
  rw [h4, Option.some.injEq] at hd
  subst hd
  exact ⟨hne, h2, by simp only; omega⟩

theorem objPos_spec (h : OCore subjects objects ops lo Psp Pops) {o : Nat} {q : Nat × Nat}
    (hq : q ∈ Pops) {o' : Nat} (ho' : subjOf objects q.1 = some o') :
    ObjIter.objPos objects o < q.1 ↔ o ≤ o' := by
  have hpos := h.repOps.fst_pos hq
  unfold subjOf at ho'
  unfold ObjIter.objPos
  cases hsub : objects with
  | none =>
    rw [hsub] at ho'
    simp at ho'
    simp only
    omega
  | some l =>
    rw [hsub] at ho'
    simp only at ho' ⊢
    obtain ⟨hlt, heq⟩ := List.getElem?_eq_some_iff.1 ho'
    have := nearestIndexOf_spec (h.obj l hsub).1 o (q.1 - 1) hlt
    rw [heq] at this
    omega

/-- Seeking without the boundary flag. -/
theorem seekObject_spec (hc : Core subjects sp spo ts Psp Pspo)
    (h : OCore subjects objects ops lo Psp Pops) (o : Nat) :
    ∃ it', (ObjIter.new subjects objects ops sp false).seekObject o = some it' ∧
      ObjR subjects objects ops sp Psp Pops it' (lo.filter (fun t => o ≤ t.o)) := by
  unfold ObjIter.seekObject
  by_cases ho : o = 0
  · rw [if_pos ho]
    refine ⟨_, rfl, ⟨⟨rfl, rfl, rfl, rfl, ?_⟩, ?_⟩⟩
    · right; simp [ones_zero]
    · rw [ho]; simp [ObjIter.rem, ObjIter.remP, ObjIter.new, h.decEq]
  · rw [if_neg ho]
    have hop : ObjIter.objPos (ObjIter.new subjects objects ops sp false).objects o =
      ObjIter.objPos objects o := rfl
    simp only [hop]
    by_cases hend : ObjIter.objPos objects o ≥ ops.leftCount
    · rw [if_pos (show ObjIter.objPos objects o ≥ (ObjIter.new subjects objects ops sp false).ops.leftCount
        from hend)]
      refine ⟨_, rfl, ⟨⟨rfl, rfl, rfl, rfl, ?_⟩, ?_⟩⟩
      · left; simp [ObjIter.new, h.repOps.rightCount]
      · have : lo.filter (fun t => decide (o ≤ t.o)) = [] := by
          rw [List.filter_eq_nil_iff]
          intro t ht
          rw [← h.decEq] at ht
          obtain ⟨q, hq, hd⟩ := List.mem_filterMap.1 ht
          have h1 := dec_inv hc h hq hd
          have h2 := h.objPos_spec (o := o) hq h1.2.1
          have h3 := h.repOps.fst_le hq
          simp only [decide_eq_true_eq]; omega
        rw [this]
        simp [ObjIter.rem, ObjIter.remP, ObjIter.new, h.repOps.rightCount]
    · rw [if_neg (show ¬ ObjIter.objPos objects o ≥ (ObjIter.new subjects objects ops sp false).ops.leftCount
        from hend)]
      have hlt : ObjIter.objPos objects o < ops.leftCount := by omega
      obtain ⟨a, ha, _, _⟩ := ops.offsetFor_spec (Nat.le_of_lt hlt)
      have ha1 := ops.offsetFor_ones (Nat.le_of_lt hlt) ha
      have ha2 := h.repOps.drop_offset (Nat.le_of_lt hlt) ha
      have : (ObjIter.new subjects objects ops sp false).ops.offsetFor (ObjIter.objPos objects o + 1)
          = some a := ha
      simp only [this, Option.bind_eq_bind, Option.bind_some]
      refine ⟨_, rfl, ⟨⟨rfl, rfl, rfl, rfl, ?_⟩, ?_⟩⟩
      · right; exact ha1.symm
      · simp only [ObjIter.rem, ObjIter.remP, ObjIter.new, Option.toList_none, List.nil_append,
          Bool.false_eq_true, if_false]
        rw [drop_filterMap_eq _ (fun t => decide (o ≤ t.o)), h.decEq]
        intro j hj t ht
        rw [ha2.2 j hj, h.objPos_spec (List.getElem_mem hj) (dec_inv hc h (List.getElem_mem hj) ht).2.1]
        simp

/-- Seeking with the boundary flag, for a non-zero object: the triples of the
object the seek landed on, which is the first present object not smaller than the
one asked for. -/
theorem seekObject_stop (hc : Core subjects sp spo ts Psp Pspo)
    (h : OCore subjects objects ops lo Psp Pops) {o : Nat} (ho : o ≠ 0) :
    ∃ it' : ObjIter, (ObjIter.new subjects objects ops sp true).seekObject o = some it' ∧
      ∃ l, ObjR subjects objects ops sp Psp Pops it' l ∧
      ((∃ o', o ≤ o' ∧ (objects = none → o' = o) ∧ (∀ t ∈ lo, o ≤ t.o → o' ≤ t.o) ∧
          (objects.isSome → ∃ t ∈ lo, t.o = o') ∧
          l = lo.filter (fun t => t.o == o')) ∨
        (l = [] ∧ ∀ t ∈ lo, t.o < o)) := by
  unfold ObjIter.seekObject
  rw [if_neg ho]
  have hop : ObjIter.objPos (ObjIter.new subjects objects ops sp true).objects o =
    ObjIter.objPos objects o := rfl
  simp only [hop]
  by_cases hend : ObjIter.objPos objects o ≥ ops.leftCount
  · rw [if_pos (show ObjIter.objPos objects o ≥ (ObjIter.new subjects objects ops sp true).ops.leftCount
      from hend)]
    refine ⟨_, rfl, [], ⟨⟨rfl, rfl, rfl, rfl, ?_⟩, ?_⟩, Or.inr ⟨rfl, ?_⟩⟩
    · left; simp [ObjIter.new, h.repOps.rightCount]
    · simp [ObjIter.rem, ObjIter.remP, ObjIter.new, h.repOps.rightCount]
    · intro t ht
      rw [← h.decEq] at ht
      obtain ⟨q, hq, hd⟩ := List.mem_filterMap.1 ht
      have h1 := dec_inv hc h hq hd
      have h2 := h.objPos_spec (o := o) hq h1.2.1
      have h3 := h.repOps.fst_le hq
      omega
  · rw [if_neg (show ¬ ObjIter.objPos objects o ≥ (ObjIter.new subjects objects ops sp true).ops.leftCount
      from hend)]
    have hlt : ObjIter.objPos objects o < ops.leftCount := by omega
    obtain ⟨a, ha, _, _⟩ := ops.offsetFor_spec (Nat.le_of_lt hlt)
    have ha1 := ops.offsetFor_ones (Nat.le_of_lt hlt) ha
    have ha2 := h.repOps.drop_offset (Nat.le_of_lt hlt) ha
    have hal := h.repOps.offset_lt hlt ha
    have harow : Pops[a].1 = ObjIter.objPos objects o + 1 := by rw [h.repOps.left a hal, ha1]
    obtain ⟨o', ho', hpos'⟩ := h.objOf_some (List.getElem_mem hal)
    have : (ObjIter.new subjects objects ops sp true).ops.offsetFor (ObjIter.objPos objects o + 1)
        = some a := ha
    simp only [this, Option.bind_eq_bind, Option.bind_some]
    have hle : o ≤ o' := (h.objPos_spec (o := o) (List.getElem_mem hal) ho').1 (by omega)
    refine ⟨_, rfl, _, ⟨⟨rfl, rfl, rfl, rfl, ?_⟩, rfl⟩, Or.inl ⟨o', hle, ?_, ?_, ?_, ?_⟩⟩
    · right; exact ha1.symm
    · intro hn
      rw [hn] at ho' harow
      simp only [subjOf, Option.some.injEq, ObjIter.objPos] at ho' harow
      omega
    · intro t ht hot
      rw [← h.decEq] at ht
      obtain ⟨q, hq, hd⟩ := List.mem_filterMap.1 ht
      have h1 := dec_inv hc h hq hd
      have h2 := (h.objPos_spec (o := o) hq h1.2.1).2 hot
      by_contra hlt'
      rcases Nat.lt_or_ge Pops[a].1 q.1 with hh | hh
      · have := h.objOf_lt (h.repOps.fst_pos (List.getElem_mem hal)) ho' h1.2.1 hh
        omega
      · have heq : q.1 = Pops[a].1 := by omega
        have := h1.2.1
        rw [heq, ho'] at this
        simp only [Option.some.injEq] at this
        omega
    · intro hsome
      have hne := h.noStub hsome _ (List.getElem_mem hal)
      obtain ⟨hcc, s, o2, _, h6, _, h8⟩ := dec_some hc h (List.getElem_mem hal) hne
      rw [ho', Option.some.injEq] at h6
      subst h6
      refine ⟨⟨s, Psp[Pops[a].2 - 1].2, o'⟩, ?_, rfl⟩
      rw [← h.decEq]
      exact List.mem_filterMap.2 ⟨_, List.getElem_mem hal, h8⟩
    · simp only [ObjIter.rem, ObjIter.remP, ObjIter.new, Option.toList_none, List.nil_append,
        Bool.false_eq_true, if_false, if_true]
      have hd : Pops.drop a = Pops.filter (fun q => decide (ObjIter.objPos objects o < q.1)) :=
        drop_eq_filter _ _ _ (fun j hj => by rw [ha2.2 j hj]; simp)
      rw [hd, List.filter_filter, ← h.decEq]
      have : ∀ P : List (Nat × Nat), (∀ q ∈ P, q ∈ Pops) →
          (P.filter (fun q => (q.1 == ObjIter.objPos objects o + 1) && decide (ObjIter.objPos objects o < q.1))).filterMap
            (decO subjects objects Psp) =
          (P.filterMap (decO subjects objects Psp)).filter (fun t => t.o == o') := by
        intro P
        induction P with
        | nil => intro _; rfl
        | cons q P ih =>
          intro hP
          have ih' := ih (fun q hq => hP q (by simp [hq]))
          have hq := hP q (by simp)
          by_cases hq1 : q.1 = ObjIter.objPos objects o + 1
          · rw [List.filter_cons_of_pos (by simp [hq1])]
            cases hdq : decO subjects objects Psp q with
            | none => rw [List.filterMap_cons_none hdq, List.filterMap_cons_none hdq, ih']
            | some t =>
              rw [List.filterMap_cons_some hdq, List.filterMap_cons_some hdq,
                List.filter_cons_of_pos, ih']
              have h1 := (dec_inv hc h hq hdq).2.1
              rw [hq1, ← harow, ho', Option.some.injEq] at h1
              simp [h1]
          · rw [List.filter_cons_of_neg (by simp [hq1])]
            cases hdq : decO subjects objects Psp q with
            | none => rw [List.filterMap_cons_none hdq, ih']
            | some t =>
              rw [List.filterMap_cons_some hdq, List.filter_cons_of_neg, ih']
              have h1 := (dec_inv hc h hq hdq).2.1
              intro heq
              simp only [beq_iff_eq] at heq
              rw [heq] at h1
              rcases Nat.lt_or_gt_of_ne (show q.1 ≠ Pops[a].1 by omega) with hh | hh
              · have := h.objOf_lt (h.repOps.fst_pos hq) h1 ho' hh
                omega
              · have := h.objOf_lt (h.repOps.fst_pos (List.getElem_mem hal)) ho' h1 hh
                omega
      exact this Pops (fun q hq => hq)

end OCore
end Verif
