import Verif.Lemmas.SpScan
import Verif.Lemmas.MergeSpec

/-!
Queries over a stack of layers whose triple structures were written by the
builders.
-/

namespace Verif

/-- The removals of a layer are the written form of `N`; a base layer has none. -/
def NegStored : Option TripleIndex → List Triple → Prop
  | none, N => N = []
  | some x, N => Stored x N

variable {K V : Type}

/-- The additions and removals stored in each layer of a stack. -/
inductive StackRep : List (LayerData K V) → List (List Triple) → List (List Triple) → Prop
  | nil : StackRep [] [] []
  | cons {d S P N Ps Ns} : Stored d.pos P → NegStored d.neg N → StackRep S Ps Ns →
      StackRep (d :: S) (P :: Ps) (N :: Ns)

theorem NegStored.sorted {o : Option TripleIndex} {N : List Triple} (h : NegStored o N) :
    SortedLt N := by
  cases o with
  | none => simp only [NegStored] at h; subst h; exact List.Pairwise.nil
  | some x => exact Stored.sorted h

theorem NegStored.nonzero {o : Option TripleIndex} {N : List Triple} (h : NegStored o N) :
    ∀ t ∈ N, t.Nonzero := by
  cases o with
  | none => simp only [NegStored] at h; subst h; simp
  | some x => exact Stored.nonzero h

theorem NegStored.contains {d : LayerData K V} {N : List Triple} (h : NegStored d.neg N)
    (t : Triple) : Stack.removalExists d t = some (decide (t ∈ N)) := by
  unfold Stack.removalExists
  cases hd : d.neg with
  | none => rw [hd] at h; simp only [NegStored] at h; subst h; simp
  | some x => rw [hd] at h; simp only [Stored.contains h t]

theorem NegStored.count {d : LayerData K V} {N : List Triple} (h : NegStored d.neg N) :
    Stack.removalCount d = some N.length := by
  unfold Stack.removalCount
  cases hd : d.neg with
  | none => rw [hd] at h; simp only [NegStored] at h; subst h; simp
  | some x => rw [hd] at h; simp only [Stored.count h]

namespace StackRep
variable {S : List (LayerData K V)} {Ps Ns : List (List Triple)}

theorem length_eq (h : StackRep S Ps Ns) : Ps.length = Ns.length := by
  induction h with
  | nil => rfl
  | cons _ _ _ ih => simp [ih]

theorem sortedP (h : StackRep S Ps Ns) : ∀ P ∈ Ps, SortedLt P := by
  induction h with
  | nil => simp
  | cons h1 _ _ ih =>
    intro P hP
    rcases List.mem_cons.1 hP with rfl | hP
    · exact h1.sorted
    · exact ih P hP

theorem sortedN (h : StackRep S Ps Ns) : ∀ N ∈ Ns, SortedLt N := by
  induction h with
  | nil => simp
  | cons _ h1 _ ih =>
    intro P hP
    rcases List.mem_cons.1 hP with rfl | hP
    · exact h1.sorted
    · exact ih P hP

theorem nonzeroP (h : StackRep S Ps Ns) : ∀ P ∈ Ps, ∀ t ∈ P, t.Nonzero := by
  induction h with
  | nil => simp
  | cons h1 _ _ ih =>
    intro P hP
    rcases List.mem_cons.1 hP with rfl | hP
    · exact h1.nonzero
    · exact ih P hP

theorem nonzero (h : StackRep S Ps Ns) {t : Triple} (ht : present Ps Ns t) : t.Nonzero := by
  obtain ⟨P, h1, h2⟩ := present_mem ht
  exact h.nonzeroP P h1 t h2

theorem total_lt (h : StackRep S Ps Ns) : total Ps < Stack.posFuel S := by
  unfold Stack.posFuel total
  induction h with
  | nil => simp
  | cons h1 _ _ ih =>
    simp only [List.map_cons, List.sum_cons]
    have := h1.length_le
    omega

/-! ### Membership -/

theorem tripleExistsLoop (h : StackRep S Ps Ns) (t : Triple) :
    ∃ b, Stack.tripleExistsLoop S t = some b ∧ (b = true ↔ present Ps Ns t) := by
  induction h with
  | nil => exact ⟨false, rfl, by simp [present]⟩
  | @cons d S P N Ps Ns h1 h2 _ ih =>
    obtain ⟨b, hb, hb'⟩ := ih
    unfold Stack.tripleExistsLoop
    simp only [h1.contains t, h2.contains t, Option.bind_eq_bind, Option.bind_some,
      decide_eq_true_eq, present]
    by_cases hp : t ∈ P
    · exact ⟨true, by simp [hp], by simp [hp]⟩
    · by_cases hn : t ∈ N
      · exact ⟨false, by simp [hp, hn], by simp [hp, hn]⟩
      · exact ⟨b, by simp [hp, hn, hb], by simp [hp, hn, hb']⟩

theorem tripleExists (h : StackRep S Ps Ns) (t : Triple) :
    ∃ b, Stack.tripleExists S t = some b ∧ (b = true ↔ present Ps Ns t) := by
  unfold Stack.tripleExists
  by_cases hz : t.s = 0 ∨ t.p = 0 ∨ t.o = 0
  · refine ⟨false, by rw [if_pos hz], ?_⟩
    constructor
    · simp
    · intro hp
      have := h.nonzero hp
      unfold Triple.Nonzero at this
      omega
  · rw [if_neg hz]
    exact h.tripleExistsLoop t

/-! ### Counts -/

theorem additionCount (h : StackRep S Ps Ns) :
    Stack.tripleAdditionCount S = some (total Ps) := by
  induction h with
  | nil => rfl
  | cons h1 _ _ ih =>
    unfold Stack.tripleAdditionCount
    simp [h1.count, ih, total]

theorem removalCount (h : StackRep S Ps Ns) :
    Stack.tripleRemovalCount S = some (total Ns) := by
  induction h with
  | nil => rfl
  | cons _ h1 _ ih =>
    unfold Stack.tripleRemovalCount
    simp [h1.count, ih, total]

end StackRep

/-- The present triples of a well formed stack, without order. -/
theorem present_count : ∀ {Ps Ns : List (List Triple)}, Ps.length = Ns.length →
    (∀ P ∈ Ps, P.Nodup) → (∀ N ∈ Ns, N.Nodup) → (∀ t, wellFormed Ps Ns t) →
    ∃ l : List Triple, l.Nodup ∧ (∀ t, t ∈ l ↔ present Ps Ns t) ∧
      total Ps = total Ns + l.length
  | [], [], _, _, _, _ => ⟨[], by simp, by simp [present], by simp [total]⟩
  | [], _ :: _, h, _, _, _ => by simp at h
  | _ :: _, [], h, _, _, _ => by simp at h
  | P :: Ps, N :: Ns, hl, hP, hN, hw => by
    simp only [wellFormed] at hw
    obtain ⟨l, h1, h2, h3⟩ := present_count (by simpa using hl)
      (fun P' h => hP P' (by simp [h])) (fun P' h => hN P' (by simp [h])) (fun t => (hw t).2.2)
    have hPn := hP P (by simp)
    have hNn := hN N (by simp)
    refine ⟨P ++ l.filter (· ∉ N), ?_, ?_, ?_⟩
    · rw [List.nodup_append]
      refine ⟨hPn, List.Pairwise.filter _ h1, ?_⟩
      rintro a ha _ hb rfl
      exact (hw a).1 ha ((h2 a).1 (List.mem_filter.1 hb).1)
    · intro t
      simp only [List.mem_append, List.mem_filter, h2, decide_eq_true_eq, present]
      tauto
    · have hperm : (l.filter (· ∉ N) ++ N).Perm l := by
        rw [List.perm_ext_iff_of_nodup _ h1]
        · intro a
          simp only [List.mem_append, List.mem_filter, decide_eq_true_eq]
          constructor
          · rintro (⟨h, _⟩ | h)
            · exact h
            · exact (h2 a).2 ((hw a).2.1 h)
          · intro h
            by_cases ha : a ∈ N
            · exact Or.inr ha
            · exact Or.inl ⟨h, ha⟩
        · rw [List.nodup_append]
          refine ⟨List.Pairwise.filter _ h1, hNn, ?_⟩
          rintro a ha _ hb rfl
          exact absurd hb (by simpa using (List.mem_filter.1 ha).2)
      have := hperm.length_eq
      simp only [List.length_append, total, List.map_cons, List.sum_cons] at this h3 ⊢
      omega

theorem StackRep.count {S : List (LayerData K V)} {Ps Ns : List (List Triple)}
    (h : StackRep S Ps Ns) (hw : ∀ t, wellFormed Ps Ns t) {l : List Triple} (hl : l.Nodup)
    (hm : ∀ t, t ∈ l ↔ present Ps Ns t) : Stack.tripleCount S = some l.length := by
  obtain ⟨l', h1, h2, h3⟩ := present_count h.length_eq
    (fun P hP => (h.sortedP P hP).nodup) (fun P hP => (h.sortedN P hP).nodup) hw
  have : l'.length = l.length := by
    refine List.Perm.length_eq ((List.perm_ext_iff_of_nodup h1 hl).2 (fun a => ?_))
    rw [h2, hm]
  unfold Stack.tripleCount
  simp only [h.additionCount, h.removalCount, Option.bind_eq_bind, Option.bind_some]
  rw [if_neg (by omega)]
  simp only [pure, Option.some.injEq]
  omega

/-! ### Merging restricted lists -/

/-- `F` restricts the lists of each layer to the triples in `G`, at least in the
region `Q`. -/
structure Restricts (key : Triple → Triple) (Q G : Triple → Prop)
    (F : List Triple → List Triple → Prop) : Prop where
  sorted : ∀ {ts l}, F ts l → KeySorted key l
  len : ∀ {ts l}, F ts l → l.length ≤ ts.length
  mem : ∀ {ts l}, F ts l → ∀ t, Q t → (t ∈ l ↔ t ∈ ts ∧ G t)

theorem restrict_not_present {Q G : Triple → Prop} {t : Triple} (hQ : Q t) (hG : ¬ G t) :
    ∀ {Ps Ns Ps' Ns' : List (List Triple)},
    List.Forall₂ (fun ts l => ∀ t, Q t → (t ∈ l ↔ t ∈ ts ∧ G t)) Ps Ps' →
    List.Forall₂ (fun ts l => ∀ t, Q t → (t ∈ l ↔ t ∈ ts ∧ G t)) Ns Ns' →
    ¬ present Ps' Ns' t ∧ wellFormed Ps' Ns' t := by
  intro Ps Ns Ps' Ns' h1 h2
  induction h1 generalizing Ns Ns' with
  | nil => simp [present, wellFormed]
  | cons ha _ ih =>
    cases h2 with
    | nil => simp [present, wellFormed]
    | cons hb h2 =>
      obtain ⟨i1, i2⟩ := ih h2
      have e1 := ha t hQ
      have e2 := hb t hQ
      simp only [present, wellFormed]
      tauto

theorem restrict_agree {Q G : Triple → Prop} {t : Triple} (hQ : Q t) (hG : G t)
    {Ps Ps' : List (List Triple)}
    (h : List.Forall₂ (fun ts l => ∀ t, Q t → (t ∈ l ↔ t ∈ ts ∧ G t)) Ps Ps') :
    AgreeOn t Ps' Ps := by
  induction h with
  | nil => exact .nil
  | cons ha _ ih => exact .cons ((ha t hQ).trans (by simp [hG])) ih

theorem restrict_merge {key : Triple → Triple} (hinj : ∀ a b, key a = key b → a = b)
    {Q G : Triple → Prop} (hQ : ∀ a b, key a ≤ key b → Q b → Q a)
    {F : List Triple → List Triple → Prop} (hF : Restricts key Q G F)
    {Ps Ns Ps' Ns' : List (List Triple)} {out : List Triple}
    (h1 : List.Forall₂ F Ps Ps') (h2 : List.Forall₂ F Ns Ns') (hl : Ps.length = Ns.length)
    (hw : ∀ t, wellFormed Ps Ns t) (hM : Merge key Ps' Ns' out) :
    (∀ t, Q t → (t ∈ out ↔ present Ps Ns t ∧ G t)) ∧
      out.Pairwise (fun a b => Q b → key a < key b) ∧ out.Pairwise (fun a b => key a ≤ key b) := by
  have sortedOf : ∀ {Ps Ps' : List (List Triple)}, List.Forall₂ F Ps Ps' →
      ∀ P ∈ Ps', KeySorted key P := by
    intro Ps Ps' h
    induction h with
    | nil => simp
    | cons ha _ ih =>
      intro P hP
      rcases List.mem_cons.1 hP with rfl | hP
      · exact hF.sorted ha
      · exact ih P hP
  have memOf : ∀ {Ps Ps' : List (List Triple)}, List.Forall₂ F Ps Ps' →
      List.Forall₂ (fun ts l => ∀ t, Q t → (t ∈ l ↔ t ∈ ts ∧ G t)) Ps Ps' :=
    fun h => h.imp (fun _ _ ha => hF.mem ha)
  have hl' : Ps'.length = Ns'.length := by rw [← h1.length_eq, ← h2.length_eq, hl]
  have hw' : ∀ t, Q t → wellFormed Ps' Ns' t := by
    intro t ht
    by_cases hg : G t
    · exact (wellFormed_congr (restrict_agree ht hg (memOf h1))
        (restrict_agree ht hg (memOf h2))).2 (hw t)
    · exact (restrict_not_present ht hg (memOf h1) (memOf h2)).2
  obtain ⟨r1, r2⟩ := hM.spec hinj hQ hl' (sortedOf h1) (sortedOf h2) hw'
  refine ⟨?_, r2, hM.sorted_le (sortedOf h1)⟩
  intro t ht
  rw [r1 t ht]
  by_cases hg : G t
  · rw [present_congr (restrict_agree ht hg (memOf h1)) (restrict_agree ht hg (memOf h2))]
    simp [hg]
  · have := (restrict_not_present ht hg (memOf h1) (memOf h2)).1
    simp [this, hg]

theorem total_le_of {F : List Triple → List Triple → Prop} {Ps Ps' : List (List Triple)}
    (hF : ∀ {ts l}, F ts l → l.length ≤ ts.length) (h : List.Forall₂ F Ps Ps') :
    total Ps' ≤ total Ps := by
  unfold total
  induction h with
  | nil => simp
  | cons ha _ ih =>
    have := hF ha
    simp only [List.map_cons, List.sum_cons]
    omega

/-! ### Iterators of one layer -/

theorem Stored.behaves_iter {x : TripleIndex} {ts : List Triple} (h : Stored x ts) :
    Behaves ⟨SubjIter.next, SubjIter.peek⟩ x.iter ts := by
  obtain ⟨_, Psp, Pspo, _, hc, _⟩ := h
  exact ⟨SubjR x.subjects x.sp x.spo Psp Pspo, hc.subj_next, hc.subj_peek, hc.subj_new'⟩

theorem Stored.behaves_seekS {x : TripleIndex} {ts : List Triple} (h : Stored x ts) (s : Nat) :
    ∃ it, x.iter.seekSubject s = some it ∧
      Behaves ⟨SubjIter.next, SubjIter.peek⟩ it (ts.filter (fun t => s ≤ t.s)) := by
  obtain ⟨_, Psp, Pspo, _, hc, _⟩ := h
  obtain ⟨it, h1, h2⟩ := hc.seekSubject_spec (it := x.iter) rfl rfl rfl s
  exact ⟨it, h1, SubjR x.subjects x.sp x.spo Psp Pspo, hc.subj_next, hc.subj_peek, h2⟩

theorem Stored.behaves_seekSP {x : TripleIndex} {ts : List Triple} (h : Stored x ts) (s p : Nat) :
    ∃ it l, x.iter.seekSubjectPredicate s p = some it ∧
      Behaves ⟨SubjIter.next, SubjIter.peek⟩ it l ∧ Core.SeekSP ts s p l := by
  obtain ⟨_, Psp, Pspo, _, hc, _⟩ := h
  obtain ⟨it, l, h1, h2, h3⟩ := hc.seekSubjectPredicate_spec (it := x.iter) rfl rfl rfl s p
  exact ⟨it, l, h1, ⟨SubjR x.subjects x.sp x.spo Psp Pspo, hc.subj_next, hc.subj_peek, h2⟩, h3⟩

theorem Stored.behaves_pred {x : TripleIndex} {ts : List Triple} (h : Stored x ts) {p : Nat}
    (hp : p ≠ 0) : Behaves predOps (x.predIter p) (ts.filter (fun t => t.p == p)) := by
  obtain ⟨_, Psp, Pspo, _, hc, _, hw, _⟩ := h
  unfold TripleIndex.predIter
  rw [hw]
  cases hL : waveletLookup x.sp.nums p with
  | none =>
    rw [hc.pred_none hL]
    exact Behaves.opt_none
  | some L =>
    obtain ⟨h1, h2⟩ := hc.pred_new hp hL
    exact Behaves.opt ⟨Core.PredR x.subjects x.sp x.spo Psp Pspo L, hc.pred_next h1, hc.pred_peek h1, h2⟩

/-- The triples from an object on, in object order. -/
def SeekO (o : Nat) (ts l : List Triple) : Prop :=
  RotSorted l ∧ l.length ≤ ts.length ∧ ∀ t, t ∈ l ↔ t ∈ ts ∧ o ≤ t.o

theorem Stored.behaves_seekO {x : TripleIndex} {ts : List Triple} (h : Stored x ts) (o : Nat) :
    ∃ it l, x.objIter.seekObject o = some it ∧
      Behaves ⟨ObjIter.next, ObjIter.peek⟩ it l ∧ SeekO o ts l := by
  have hs := h.sorted
  obtain ⟨lo, Psp, Pspo, Pops, hc, ho, _, h1, h2, _⟩ := h
  obtain ⟨it, h3, h4⟩ := OCore.seekObject_spec hc ho o
  refine ⟨it, _, h3, ⟨ObjR x.subjects x.objects x.ops x.sp Psp Pops, OCore.obj_next hc ho,
    OCore.obj_peek hc ho, h4⟩, List.Pairwise.filter _ h1, ?_, ?_⟩
  · have hnd : lo.Nodup := by
      refine List.Pairwise.imp ?_ h1
      rintro a _ hab rfl
      exact lt_irrefl _ hab
    have := ((List.perm_ext_iff_of_nodup hnd hs.nodup).2 h2).length_eq
    rw [← this]
    exact List.length_filter_le _ _
  · intro t
    simp [List.mem_filter, h2]

/-! ### Queries of the stack -/

theorem seekAll_spec {σ : Type} {I : IterOps σ} {f : σ → Option σ}
    {F : List Triple → List Triple → Prop} {its : List (Option σ)} {Ps : List (List Triple)}
    (h : List.Forall₂ (fun it P => (it = none ∧ F P []) ∨
      ∃ i i' l, it = some i ∧ f i = some i' ∧ Behaves I i' l ∧ F P l) its Ps) :
    ∃ its' Ps', Stack.seekAll f its = some its' ∧ List.Forall₂ (Behaves I.opt) its' Ps' ∧
      List.Forall₂ F Ps Ps' := by
  induction h with
  | nil => exact ⟨[], [], rfl, .nil, .nil⟩
  | cons ha _ ih =>
    obtain ⟨its', Ps', h1, h2, h3⟩ := ih
    rcases ha with ⟨rfl, hF⟩ | ⟨i, i', l, rfl, hf, hb, hF⟩
    · exact ⟨none :: its', [] :: Ps', by simp [Stack.seekAll, h1], .cons Behaves.opt_none h2,
        .cons hF h3⟩
    · exact ⟨some i' :: its', l :: Ps', by simp [Stack.seekAll, h1, hf],
        .cons hb.opt h2, .cons hF h3⟩

namespace StackRep
variable {S : List (LayerData K V)} {Ps Ns : List (List Triple)}

/-- A merged and restricted iteration over the stack. -/
theorem merged_collect {σ : Type} {I : IterOps σ} {key : Triple → Triple}
    (hinj : ∀ a b, key a = key b → a = b)
    {Q G : Triple → Prop} (hQ : ∀ a b, key a ≤ key b → Q b → Q a)
    {F : List Triple → List Triple → Prop} (hF : Restricts key Q G F)
    (h : StackRep S Ps Ns) (hw : ∀ t, wellFormed Ps Ns t) {Ps' Ns' : List (List Triple)}
    {m : Merged σ} (hp : List.Forall₂ (Behaves I) m.positives Ps')
    (hn : List.Forall₂ (Behaves I) m.negatives Ns') (h1 : List.Forall₂ F Ps Ps')
    (h2 : List.Forall₂ F Ns Ns') :
    ∃ out, Merged.collect I key (Stack.posFuel S) m = some out ∧
      (∀ t ∈ out, ∃ P ∈ Ps', t ∈ P) ∧
      (∀ t, Q t → (t ∈ out ↔ present Ps Ns t ∧ G t)) ∧
      out.Pairwise (fun a b => Q b → key a < key b) ∧
      out.Pairwise (fun a b => key a ≤ key b) := by
  have hl' : Ps'.length = Ns'.length := by rw [← h1.length_eq, ← h2.length_eq, h.length_eq]
  have ht := total_le_of hF.len h1
  have ht' := h.total_lt
  obtain ⟨out, h3, h4⟩ := Merged.collect_spec key hp hn hl' (fuel := Stack.posFuel S) (by omega)
  obtain ⟨r1, r2, r3⟩ := restrict_merge hinj hQ hF h1 h2 h.length_eq hw h4
  exact ⟨out, h3, h4.mem, r1, r2, r3⟩

theorem subj_negatives (h : StackRep S Ps Ns) :
    List.Forall₂ (Behaves subjOps) (S.map (fun d => d.neg.map TripleIndex.iter)) Ns := by
  induction h with
  | nil => exact .nil
  | @cons d _ _ N _ _ _ h2 _ ih =>
    refine .cons ?_ ih
    simp only
    cases hd : d.neg with
    | none => rw [hd] at h2; simp only [NegStored] at h2; subst h2; exact Behaves.opt_none
    | some x => rw [hd] at h2; exact (Stored.behaves_iter h2).opt

theorem subj_positives (h : StackRep S Ps Ns) :
    List.Forall₂ (Behaves subjOps) (S.map (fun d => some d.pos.iter)) Ps := by
  induction h with
  | nil => exact .nil
  | cons h1 _ _ ih => exact .cons h1.behaves_iter.opt ih

theorem refl_forall (h : ∀ P ∈ Ps, SortedLt P) :
    List.Forall₂ (fun ts l => ts = l ∧ SortedLt ts) Ps Ps :=
  List.forall₂_same.2 (fun P hP => ⟨rfl, h P hP⟩)

theorem triples (h : StackRep S Ps Ns) (hw : ∀ t, wellFormed Ps Ns t) :
    ∃ l, Stack.triples S = some l ∧ SortedLt l ∧ ∀ t, t ∈ l ↔ present Ps Ns t := by
  have hF : Restricts id (fun _ => True) (fun _ => True)
      (fun ts l : List Triple => ts = l ∧ SortedLt ts) := by
    refine ⟨?_, ?_, ?_⟩
    · rintro _ _ ⟨rfl, h⟩; exact h
    · rintro _ _ ⟨rfl, h⟩; exact Nat.le_refl _
    · rintro _ _ ⟨rfl, h⟩; simp
  obtain ⟨out, h1, _, h2, h3, _⟩ := merged_collect (I := subjOps) (key := id) (m := Stack.subjMerged S)
    (fun a b h => h) (fun _ _ _ _ => trivial) hF h hw h.subj_positives h.subj_negatives
    (refl_forall h.sortedP) (refl_forall h.sortedN)
  refine ⟨out, h1, h3.imp (fun h => h trivial), fun t => ?_⟩
  simpa using h2 t trivial

/-- The seek of all subject iterators. -/
theorem seek_subj {f : SubjIter → Option SubjIter} {F : List Triple → List Triple → Prop}
    (hnil : F [] [])
    (hf : ∀ {x ts}, Stored x ts → ∃ it l, f x.iter = some it ∧
      Behaves ⟨SubjIter.next, SubjIter.peek⟩ it l ∧ F ts l) (h : StackRep S Ps Ns) :
    ∃ m Ps' Ns', Stack.seekMerged f (Stack.subjMerged S) = some m ∧
      List.Forall₂ (Behaves subjOps) m.positives Ps' ∧
      List.Forall₂ (Behaves subjOps) m.negatives Ns' ∧
      List.Forall₂ F Ps Ps' ∧ List.Forall₂ F Ns Ns' := by
  have a1 : List.Forall₂ (fun it P => (it = none ∧ F P []) ∨
      ∃ i i' l, it = some i ∧ f i = some i' ∧ Behaves ⟨SubjIter.next, SubjIter.peek⟩ i' l ∧ F P l)
      (S.map (fun d => some d.pos.iter)) Ps := by
    induction h with
    | nil => exact .nil
    | cons h1 _ _ ih =>
      obtain ⟨it, l, g1, g2, g3⟩ := hf h1
      exact .cons (Or.inr ⟨_, it, l, rfl, g1, g2, g3⟩) ih
  have a2 : List.Forall₂ (fun it P => (it = none ∧ F P []) ∨
      ∃ i i' l, it = some i ∧ f i = some i' ∧ Behaves ⟨SubjIter.next, SubjIter.peek⟩ i' l ∧ F P l)
      (S.map (fun d => d.neg.map TripleIndex.iter)) Ns := by
    clear a1
    induction h with
    | nil => exact .nil
    | @cons d _ _ N _ _ _ h2 _ ih =>
      refine .cons ?_ ih
      simp only
      cases hd : d.neg with
      | none => rw [hd] at h2; simp only [NegStored] at h2; subst h2; exact Or.inl ⟨rfl, hnil⟩
      | some x =>
        rw [hd] at h2
        obtain ⟨it, l, g1, g2, g3⟩ := hf h2
        exact Or.inr ⟨_, it, l, rfl, g1, g2, g3⟩
  obtain ⟨ps, Ps', b1, b2, b3⟩ := seekAll_spec a1
  obtain ⟨ns, Ns', c1, c2, c3⟩ := seekAll_spec a2
  exact ⟨⟨ps, ns⟩, Ps', Ns', by simp [Stack.seekMerged, Stack.subjMerged, b1, c1], b2, c2, b3, c3⟩

theorem triplesS (h : StackRep S Ps Ns) (hw : ∀ t, wellFormed Ps Ns t) (s : Nat) :
    ∃ l, Stack.triplesS S s = some l ∧ SortedLt l ∧
      ∀ t, t ∈ l ↔ present Ps Ns t ∧ t.s = s := by
  have hF : Restricts id (fun _ => True) (fun t => s ≤ t.s)
      (fun ts l : List Triple => SortedLt ts ∧ l = ts.filter (fun t => s ≤ t.s)) := by
    refine ⟨?_, ?_, ?_⟩
    · rintro _ _ ⟨h, rfl⟩; exact h.filter _
    · rintro _ _ ⟨h, rfl⟩; exact List.length_filter_le _ _
    · rintro _ _ ⟨h, rfl⟩; simp
  obtain ⟨m, Ps', Ns', g1, g2, g3, g4, g5⟩ := h.seek_subj (f := (·.seekSubject s))
    (F := fun ts l : List Triple => SortedLt ts ∧ l = ts.filter (fun t => s ≤ t.s))
    ⟨List.Pairwise.nil, rfl⟩
    (by
      intro x ts hx
      obtain ⟨it, h1, h2⟩ := hx.behaves_seekS s
      exact ⟨it, _, h1, h2, hx.sorted, rfl⟩)
  obtain ⟨out, h1, _, h2, h3, _⟩ := merged_collect (I := subjOps) (key := id)
    (fun a b h => h) (fun _ _ _ _ => trivial) hF h hw g2 g3 g4 g5
  have hso : SortedLt out := h3.imp (fun h => h trivial)
  have hmem : ∀ t, t ∈ out ↔ present Ps Ns t ∧ s ≤ t.s := fun t => h2 t trivial
  refine ⟨out.filter (fun t => t.s == s), ?_, hso.filter _, ?_⟩
  · unfold Stack.triplesS
    simp only [g1, h1, Option.bind_eq_bind, Option.bind_some, pure, Option.some.injEq]
    rw [Stored.takeWhile_eq_filter (k := (· < ·)) hso]
    intro a ha b hb hab hbs
    have := ((hmem a).1 ha).2
    rw [Triple.lt_def] at hab
    simp only [beq_iff_eq] at hbs ⊢
    omega
  · intro t
    simp only [List.mem_filter, hmem, beq_iff_eq]
    constructor
    · rintro ⟨⟨h1, _⟩, h2⟩; exact ⟨h1, h2⟩
    · rintro ⟨h1, h2⟩; exact ⟨⟨h1, by omega⟩, h2⟩

theorem triplesSP (h : StackRep S Ps Ns) (hw : ∀ t, wellFormed Ps Ns t) (s p : Nat) :
    ∃ l, Stack.triplesSP S s p = some l ∧ SortedLt l ∧
      ∀ t, t ∈ l ↔ present Ps Ns t ∧ t.s = s ∧ t.p = p := by
  have hF : Restricts id (fun t => t.s < s ∨ (t.s = s ∧ t.p ≤ p)) (fun t => t.s = s ∧ t.p = p)
      (fun ts l : List Triple => SortedLt ts ∧ Core.SeekSP ts s p l) := by
    refine ⟨?_, ?_, ?_⟩
    · rintro _ _ ⟨h, g, rfl, _⟩; exact h.filter _
    · rintro _ _ ⟨h, g, rfl, _⟩; exact List.length_filter_le _ _
    · rintro ts _ ⟨h, g, rfl, h1, h2⟩ t ht
      rw [List.mem_filter]
      constructor
      · rintro ⟨h3, h4⟩
        have := h1 t h3 h4
        exact ⟨h3, by omega⟩
      · rintro ⟨h3, h4, h5⟩
        exact ⟨h3, h2 t h3 h4 h5⟩
  obtain ⟨m, Ps', Ns', g1, g2, g3, g4, g5⟩ := h.seek_subj (f := (·.seekSubjectPredicate s p))
    (F := fun ts l : List Triple => SortedLt ts ∧ Core.SeekSP ts s p l)
    ⟨List.Pairwise.nil, fun _ => true, rfl, by simp, by simp⟩
    (by
      intro x ts hx
      obtain ⟨it, l, h1, h2, h3⟩ := hx.behaves_seekSP s p
      exact ⟨it, l, h1, h2, hx.sorted, h3⟩)
  obtain ⟨out, h1, hall, h2, h3, h4⟩ := merged_collect (I := subjOps) (key := id)
    (fun a b h => h)
    (Q := fun t => t.s < s ∨ (t.s = s ∧ t.p ≤ p)) (by
      intro a b hab hb
      simp only [id, Triple.le_def, Triple.lt_def, Triple.eq_iff] at hab
      omega) hF h hw g2 g3 g4 g5
  have hlow : ∀ t ∈ out, s < t.s ∨ (s = t.s ∧ p ≤ t.p) := by
    intro t ht
    obtain ⟨P, hP, htP⟩ := hall t ht
    obtain ⟨P0, _, hF0⟩ : ∃ P0, P0 ∈ Ps ∧ (SortedLt P0 ∧ Core.SeekSP P0 s p P) := by
      clear h hw g1 g2 g3 g5 h1 h2 h3 h4 hall ht
      induction g4 with
      | nil => simp at hP
      | cons ha _ ih =>
        rcases List.mem_cons.1 hP with rfl | hP
        · exact ⟨_, by simp, ha⟩
        · obtain ⟨P0, k1, k2⟩ := ih hP
          exact ⟨P0, by simp [k1], k2⟩
    obtain ⟨_, g, rfl, k1, _⟩ := hF0
    have := List.mem_filter.1 htP
    exact k1 t this.1 this.2
  have hmem : ∀ t, t.s = s ∧ t.p = p → (t ∈ out ↔ present Ps Ns t) := by
    intro t ht
    rw [h2 t (by omega)]
    simp [ht]
  refine ⟨out.filter (fun t => t.s == s && t.p == p), ?_, ?_, ?_⟩
  · unfold Stack.triplesSP
    simp only [g1, h1, Option.bind_eq_bind, Option.bind_some, pure, Option.some.injEq]
    rw [Stored.takeWhile_eq_filter h4]
    intro a ha b hb hab hbs
    have := hlow a ha
    simp only [id, Triple.le_def, Triple.lt_def, Triple.eq_iff] at hab
    simp only [Bool.and_eq_true, beq_iff_eq] at hbs ⊢
    omega
  · refine List.Pairwise.imp_of_mem ?_ (h3.filter _)
    intro a b _ hb hab
    have := (List.mem_filter.1 hb).2
    simp only [Bool.and_eq_true, beq_iff_eq] at this
    exact hab (by omega)
  · intro t
    simp only [List.mem_filter, Bool.and_eq_true, beq_iff_eq]
    constructor
    · rintro ⟨k1, k2⟩; exact ⟨(hmem t k2).1 k1, k2⟩
    · rintro ⟨k1, k2⟩; exact ⟨(hmem t k2).2 k1, k2⟩

theorem triplesP (h : StackRep S Ps Ns) (hw : ∀ t, wellFormed Ps Ns t) {p : Nat} (hp : p ≠ 0) :
    ∃ l, Stack.triplesP S p = some l ∧ SortedLt l ∧
      ∀ t, t ∈ l ↔ present Ps Ns t ∧ t.p = p := by
  let F := fun ts l : List Triple => SortedLt ts ∧ l = ts.filter (fun t => t.p == p)
  have hF : Restricts id (fun _ => True) (fun t => t.p = p) F := by
    refine ⟨?_, ?_, ?_⟩
    · rintro _ _ ⟨h, rfl⟩; exact h.filter _
    · rintro _ _ ⟨h, rfl⟩; exact List.length_filter_le _ _
    · rintro _ _ ⟨h, rfl⟩; simp
  have a1 : List.Forall₂ (Behaves predOps) (Stack.predMerged S p).positives
      (Ps.map (fun ts => ts.filter (fun t => t.p == p))) := by
    unfold Stack.predMerged
    clear hw
    induction h with
    | nil => exact .nil
    | cons h1 _ _ ih => exact .cons (h1.behaves_pred hp) ih
  have a2 : List.Forall₂ (Behaves predOps) (Stack.predMerged S p).negatives
      (Ns.map (fun ts => ts.filter (fun t => t.p == p))) := by
    unfold Stack.predMerged
    clear hw a1
    induction h with
    | nil => exact .nil
    | @cons d _ _ N _ _ _ h2 _ ih =>
      refine .cons ?_ ih
      simp only
      cases hd : d.neg with
      | none => rw [hd] at h2; simp only [NegStored] at h2; subst h2; exact Behaves.opt_none
      | some x => rw [hd] at h2; exact Stored.behaves_pred h2 hp
  have b : ∀ {Ps : List (List Triple)}, (∀ P ∈ Ps, SortedLt P) →
      List.Forall₂ F Ps (Ps.map (fun ts => ts.filter (fun t => t.p == p))) := by
    intro Ps h
    induction Ps with
    | nil => exact .nil
    | cons P Ps ih => exact .cons ⟨h P (by simp), rfl⟩ (ih (fun P hP => h P (by simp [hP])))
  obtain ⟨out, h1, _, h2, h3, _⟩ := merged_collect (I := predOps) (key := id) (m := Stack.predMerged S p)
    (fun a b h => h) (fun _ _ _ _ => trivial) hF h hw a1 a2 (b h.sortedP) (b h.sortedN)
  exact ⟨out, h1, h3.imp (fun h => h trivial), fun t => h2 t trivial⟩

theorem triplesO (h : StackRep S Ps Ns) (hw : ∀ t, wellFormed Ps Ns t) (o : Nat) :
    ∃ l, Stack.triplesO S o = some l ∧ SortedLt l ∧
      ∀ t, t ∈ l ↔ present Ps Ns t ∧ t.o = o := by
  have hF : Restricts Triple.rot (fun _ => True) (fun t => o ≤ t.o) (SeekO o) := by
    refine ⟨?_, ?_, ?_⟩
    · rintro _ _ ⟨h, _⟩; exact h
    · rintro _ _ ⟨_, h, _⟩; exact h
    · rintro _ _ ⟨_, _, h⟩ t _; exact h t
  have a1 : List.Forall₂ (fun it P => (it = none ∧ SeekO o P []) ∨
      ∃ i i' l, it = some i ∧ i.seekObject o = some i' ∧
        Behaves ⟨ObjIter.next, ObjIter.peek⟩ i' l ∧ SeekO o P l)
      (S.map (fun d => some d.pos.objIter)) Ps := by
    clear hw
    induction h with
    | nil => exact .nil
    | cons h1 _ _ ih =>
      obtain ⟨it, l, g1, g2, g3⟩ := h1.behaves_seekO o
      exact .cons (Or.inr ⟨_, it, l, rfl, g1, g2, g3⟩) ih
  have a2 : List.Forall₂ (fun it P => (it = none ∧ SeekO o P []) ∨
      ∃ i i' l, it = some i ∧ i.seekObject o = some i' ∧
        Behaves ⟨ObjIter.next, ObjIter.peek⟩ i' l ∧ SeekO o P l)
      (S.map (fun d => d.neg.map TripleIndex.objIter)) Ns := by
    clear a1 hw
    induction h with
    | nil => exact .nil
    | @cons d _ _ N _ _ _ h2 _ ih =>
      refine .cons ?_ ih
      simp only
      cases hd : d.neg with
      | none =>
        rw [hd] at h2; simp only [NegStored] at h2; subst h2
        exact Or.inl ⟨rfl, List.Pairwise.nil, by simp, by simp⟩
      | some x =>
        rw [hd] at h2
        obtain ⟨it, l, g1, g2, g3⟩ := Stored.behaves_seekO h2 o
        exact Or.inr ⟨_, it, l, rfl, g1, g2, g3⟩
  obtain ⟨ps, Ps', b1, b2, b3⟩ := seekAll_spec (I := ⟨ObjIter.next, ObjIter.peek⟩)
    (f := (·.seekObject o)) a1
  obtain ⟨ns, Ns', c1, c2, c3⟩ := seekAll_spec (I := ⟨ObjIter.next, ObjIter.peek⟩)
    (f := (·.seekObject o)) a2
  have hinj : ∀ a b : Triple, a.rot = b.rot → a = b := by
    rintro ⟨_, _, _⟩ ⟨_, _, _⟩ hab
    simp only [Triple.rot, Triple.mk.injEq] at hab ⊢
    omega
  obtain ⟨out, h1, _, h2, h3, _⟩ := merged_collect (I := objOps) (m := ⟨ps, ns⟩) hinj
    (fun _ _ _ _ => trivial) hF h hw b2 c2 b3 c3
  have hro : out.Pairwise (fun a b => a.rot < b.rot) := h3.imp (fun h => h trivial)
  have hmem : ∀ t, t ∈ out ↔ present Ps Ns t ∧ o ≤ t.o := fun t => h2 t trivial
  refine ⟨out.filter (fun t => t.o == o), ?_, ?_, ?_⟩
  · unfold Stack.triplesO
    simp only [Stack.seekMerged, Stack.objMerged, b1, c1, h1, Option.bind_eq_bind,
      Option.bind_some, pure, Option.some.injEq]
    rw [Stored.takeWhile_eq_filter hro]
    intro a ha b hb hab hbs
    have := ((hmem a).1 ha).2
    rw [Triple.lt_def] at hab
    simp only [beq_iff_eq, Triple.rot] at hbs hab ⊢
    omega
  · refine List.Pairwise.imp_of_mem ?_ (hro.filter _)
    intro a b ha hb hab
    have ha' := (List.mem_filter.1 ha).2
    have hb' := (List.mem_filter.1 hb).2
    rw [Triple.lt_def] at hab ⊢
    simp only [beq_iff_eq, Triple.rot] at ha' hb' hab
    omega
  · intro t
    simp only [List.mem_filter, hmem, beq_iff_eq]
    constructor
    · rintro ⟨⟨h1, _⟩, h2⟩; exact ⟨h1, h2⟩
    · rintro ⟨h1, h2⟩; exact ⟨⟨h1, by omega⟩, h2⟩

/-! ### single_triple_sp -/

theorem excludeStep {d : LayerData K V} {N : List Triple} (h : NegStored d.neg N) (s p : Nat)
    (ex : List Nat) :
    ∃ ex', Stack.excludeStep d s p ex = some ex' ∧ ∀ o, o ∈ ex' ↔ o ∈ ex ∨ ⟨s, p, o⟩ ∈ N := by
  unfold Stack.excludeStep
  cases hd : d.neg with
  | none =>
    rw [hd] at h; simp only [NegStored] at h; subst h
    exact ⟨ex, rfl, by simp⟩
  | some x =>
    rw [hd] at h
    obtain ⟨r, h1, h2, h3⟩ := Stored.sp_scan h s p
    simp only [h1, Option.bind_eq_bind, Option.bind_some]
    cases r with
    | none => exact ⟨ex, rfl, fun o => by simp [h2 rfl o]⟩
    | some pos =>
      obtain ⟨_, h4, _⟩ := h3 pos rfl
      exact h4 ex

theorem includeStep {d : LayerData K V} {P : List Triple} (h : Stored d.pos P) (s p : Nat)
    (ex : List Nat) :
    ∃ r, Stack.includeStep d s p ex = some r ∧
      (∀ o, r = some o → ⟨s, p, o⟩ ∈ P ∧ o ∉ ex) ∧
      (r = none → ∀ o, ⟨s, p, o⟩ ∈ P → o ∈ ex) := by
  unfold Stack.includeStep
  obtain ⟨r, h1, h2, h3⟩ := h.sp_scan s p
  simp only [h1, Option.bind_eq_bind, Option.bind_some]
  cases r with
  | none => exact ⟨none, rfl, by simp, fun _ o ho => absurd ho (h2 rfl o)⟩
  | some pos =>
    obtain ⟨_, _, h4⟩ := h3 pos rfl
    exact h4 ex

/-- The loop looks for a present triple below the topmost layer that is not
excluded. -/
theorem singleLoop (s p : Nat) (h : StackRep S Ps Ns) : ∀ {d : LayerData K V} {N : List Triple},
    NegStored d.neg N → ∀ ex : List Nat,
    ∃ r, Stack.singleLoop s p (d :: S) ex = some r ∧
      (∀ t, r = some t → t.s = s ∧ t.p = p ∧ t.o ∉ ex ∧ t ∉ N ∧ present Ps Ns t) ∧
      (r = none → ∀ o, present Ps Ns ⟨s, p, o⟩ → o ∈ ex ∨ ⟨s, p, o⟩ ∈ N) := by
  induction h with
  | nil =>
    intro d N _ ex
    exact ⟨none, by simp [Stack.singleLoop], by simp, by simp [present]⟩
  | @cons d' S P N' Ps Ns h1 h2 _ ih =>
    intro d N hN ex
    obtain ⟨ex', e1, e2⟩ := excludeStep hN s p ex
    obtain ⟨r, e3, e4, e5⟩ := includeStep h1 s p ex'
    unfold Stack.singleLoop
    simp only [e1, e3, Option.bind_eq_bind, Option.bind_some]
    cases r with
    | some o =>
      refine ⟨some ⟨s, p, o⟩, rfl, ?_, by simp⟩
      intro t ht
      simp only [Option.some.injEq] at ht
      subst ht
      have ⟨k1, k2⟩ := e4 o rfl
      rw [e2] at k2
      exact ⟨rfl, rfl, fun h => k2 (Or.inl h), fun h => k2 (Or.inr h), Or.inl k1⟩
    | none =>
      obtain ⟨r, g1, g2, g3⟩ := ih h2 ex'
      refine ⟨r, g1, ?_, ?_⟩
      · intro t ht
        obtain ⟨k1, k2, k3, k4, k5⟩ := g2 t ht
        obtain ⟨ts, tp, tob⟩ := t
        simp only at k1 k2
        subst k1 k2
        rw [e2] at k3
        exact ⟨rfl, rfl, fun h => k3 (Or.inl h), fun h => k3 (Or.inr h), Or.inr ⟨k4, k5⟩⟩
      · intro hr o ho
        rw [← e2 o]
        simp only [present] at ho
        rcases ho with ho | ⟨ho1, ho2⟩
        · exact e5 rfl o ho
        · rcases g3 hr o ho2 with h | h
          · exact h
          · exact absurd h ho1

theorem singleTripleSP (h : StackRep S Ps Ns) (s p : Nat) :
    ∃ r, Stack.singleTripleSP S s p = some r ∧
      (∀ t, r = some t → t.s = s ∧ t.p = p ∧ present Ps Ns t) ∧
      (r = none → ∀ o, ¬ present Ps Ns ⟨s, p, o⟩) := by
  cases h with
  | nil => exact ⟨none, rfl, by simp, by simp [present]⟩
  | @cons d S P N Ps Ns h1 h2 h3 =>
    obtain ⟨r, g1, g2, g3⟩ := h1.sp_scan s p
    unfold Stack.singleTripleSP
    simp only [g1, Option.bind_eq_bind, Option.bind_some]
    cases r with
    | some pos =>
      obtain ⟨⟨o, k1, k2⟩, _⟩ := g3 pos rfl
      refine ⟨some ⟨s, p, o⟩, by simp [k1], ?_, by simp⟩
      intro t ht
      simp only [Option.some.injEq] at ht
      subst ht
      exact ⟨rfl, rfl, Or.inl k2⟩
    | none =>
      obtain ⟨r, k1, k2, k3⟩ := singleLoop s p h3 h2 []
      refine ⟨r, k1, ?_, ?_⟩
      · intro t ht
        obtain ⟨j1, j2, _, j4, j5⟩ := k2 t ht
        exact ⟨j1, j2, Or.inr ⟨j4, j5⟩⟩
      · intro hr o ho
        simp only [present] at ho
        rcases ho with ho | ⟨ho1, ho2⟩
        · exact g2 rfl o ho
        · rcases k3 hr o ho2 with h | h
          · simp at h
          · exact ho1 h

end StackRep
end Verif
