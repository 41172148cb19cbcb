import Verif.Lemmas.WorldOk

/-!
The parent links of a store, in every execution: also where a rollup down to an ancestor
writes wrong contents (DESIGN.md, section 4).
-/

set_option linter.unusedSectionVars false
set_option linter.unusedVariables false

namespace Verif

open SimpleBuilder Spec

variable {K V : Type} [LinearOrder K] [LinearOrder V]

namespace Store

variable {st st' : Store K V}

theorem has_of_rollup {n r : Name} (h : st.rollup? n = some r) : st.has n = true := by
  unfold rollup? at h
  unfold Store.has
  cases hg : st.get? n with
  | none => simp [hg] at h
  | some e => rfl

/-- The element that stands for a name with a rollup has an existing name. -/
def PendHas (st : Store K V) (q : Pending) : Prop := q.2.isSome = true → st.has q.1 = true

theorem findAncestor_has {v : Nat → View K V} {last : Store K V}
    (hx : ∀ t, Ext (v t).store last)
    (hc : ∀ t n l, (v t).cache n = some l → l.name = n ∧ last.has n = true) :
    ∀ (f t : Nat) (qs : List Pending), (∀ q ∈ qs, PendHas last q) →
      ∀ res, findAncestor v f t qs = .ok res →
        (∀ l, res.1 = some l → last.has l.name = true) ∧ ∀ q ∈ res.2, PendHas last q
  | 0, _, _, _, res, hres => by simp [findAncestor] at hres
  | _ + 1, _, [], _, res, hres => by simp [findAncestor] at hres
  | f + 1, t, q :: rest, hp, res, hres => by
    have hrest : ∀ q ∈ rest, PendHas last q := fun q h => hp q (List.mem_cons_of_mem _ h)
    have hq : PendHas last q := hp q (List.mem_cons_self ..)
    unfold findAncestor at hres
    cases hca : (v t).cache q.current with
    | some layer =>
      simp only [hca] at hres
      obtain ⟨l, h1, h2⟩ := Out.bind_eq_ok.1 hres
      simp only [Out.pure_eq, Out.ok.injEq] at h2
      subst h2
      obtain ⟨g1, g2⟩ := hc t _ _ hca
      refine ⟨?_, hrest⟩
      rintro l' ⟨⟩
      obtain ⟨m, ro⟩ := q
      cases ro with
      | none =>
        simp only [wrapCached, Out.ok.injEq] at h1
        subst h1
        rw [g1]
        exact g2
      | some ro =>
        obtain ⟨r, op⟩ := ro
        have hm : last.has m = true := hq rfl
        unfold wrapCached at h1
        by_cases hi : layer.immediateParent.isSome = true
        · simp only [hi, if_true] at h1
          cases op with
          | none => cases h1
          | some p =>
            simp only [Out.ok.injEq] at h1
            subst h1
            exact hm
        · simp only [hi, Bool.false_eq_true, if_false, Out.ok.injEq] at h1
          subst h1
          exact hm
    | none =>
      simp only [hca] at hres
      cases hr : (v t).store.rollup? q.current with
      | some r =>
        simp only [hr] at hres
        by_cases hrc : r = q.current
        · simp [hrc] at hres
        · simp only [hrc, if_false] at hres
          refine findAncestor_has hx hc f (t + 1) _ ?_ res hres
          intro q' hq'
          rcases List.mem_cons.1 hq' with rfl | hq'
          · intro _
            exact has_mono (hx t) (has_of_rollup hr)
          · exact hrest q' hq'
      | none =>
        simp only [hr] at hres
        cases hpa : (v t).store.parent? q.current with
        | some p =>
          simp only [hpa] at hres
          refine findAncestor_has hx hc f (t + 1) _ ?_ res hres
          intro q' hq'
          rcases List.mem_cons.1 hq' with rfl | hq'
          · intro h
            cases h
          · exact hp q' hq'
        | none =>
          simp only [hpa, Out.ok.injEq] at hres
          subst hres
          exact ⟨by simp, hp⟩

theorem load_has {n : Name} {d : LayerData K V} (h : load st n = .ok d) : st.has n = true := by
  unfold load at h
  unfold Store.has
  cases hg : st.get? n with
  | none => simp [hg] at h
  | some e => rfl

theorem loadChild_has {anc l : InternalLayer K V} {q : Pending} {cs : List (InternalLayer K V)}
    (h : loadChild st anc q = .ok (l, cs)) (hq : PendHas st q) :
    ∀ c ∈ cs, st.has c.name = true := by
  obtain ⟨m, ro⟩ := q
  cases ro with
  | none =>
    unfold loadChild at h
    obtain ⟨d, h1, h2⟩ := Out.bind_eq_ok.1 h
    simp only [Out.pure_eq, Out.ok.injEq, Prod.mk.injEq] at h2
    obtain ⟨rfl, rfl⟩ := h2
    intro c hc
    simp only [List.mem_cons, List.not_mem_nil, or_false] at hc
    subst hc
    exact load_has h1
  | some ro =>
    obtain ⟨r, op⟩ := ro
    unfold loadChild at h
    cases op with
    | none => cases h
    | some p =>
      obtain ⟨d, h1, h2⟩ := Out.bind_eq_ok.1 h
      simp only [Out.pure_eq, Out.ok.injEq, Prod.mk.injEq] at h2
      obtain ⟨rfl, rfl⟩ := h2
      intro c hc
      simp only [List.mem_cons, List.not_mem_nil, or_false] at hc
      rcases hc with rfl | rfl
      · exact load_has h1
      · exact hq rfl

theorem loadBase_has {l : InternalLayer K V} {q : Pending} {cs : List (InternalLayer K V)}
    (h : loadBase st q = .ok (l, cs)) (hq : PendHas st q) : ∀ c ∈ cs, st.has c.name = true := by
  obtain ⟨m, ro⟩ := q
  cases ro with
  | none =>
    unfold loadBase at h
    obtain ⟨d, h1, h2⟩ := Out.bind_eq_ok.1 h
    simp only [Out.pure_eq, Out.ok.injEq, Prod.mk.injEq] at h2
    obtain ⟨rfl, rfl⟩ := h2
    intro c hc
    simp only [List.mem_cons, List.not_mem_nil, or_false] at hc
    subst hc
    exact load_has h1
  | some ro =>
    obtain ⟨r, op⟩ := ro
    unfold loadBase at h
    obtain ⟨d, h1, h2⟩ := Out.bind_eq_ok.1 h
    simp only [Out.pure_eq, Out.ok.injEq, Prod.mk.injEq] at h2
    obtain ⟨rfl, rfl⟩ := h2
    intro c hc
    simp only [List.mem_cons, List.not_mem_nil, or_false] at hc
    rcases hc with rfl | rfl
    · exact load_has h1
    · exact hq rfl

theorem loadChildren_has : ∀ (qs : List Pending) {anc l : InternalLayer K V}
    {cs cs' : List (InternalLayer K V)} (_ : ∀ q ∈ qs, PendHas st q)
    (_ : ∀ c ∈ cs, st.has c.name = true) (_ : loadChildren st anc qs cs = .ok (l, cs')),
    ∀ c ∈ cs', st.has c.name = true
  | [], anc, l, cs, cs', hq, hcs, h => by
    simp only [loadChildren, Out.ok.injEq, Prod.mk.injEq] at h
    obtain ⟨rfl, rfl⟩ := h
    exact hcs
  | q :: qs, anc, l, cs, cs', hq, hcs, h => by
    unfold loadChildren at h
    obtain ⟨⟨l', c'⟩, h1, h2⟩ := Out.bind_eq_ok.1 h
    have k := loadChild_has h1 (hq q (List.mem_cons_self ..))
    refine loadChildren_has qs (fun q h => hq q (List.mem_cons_of_mem _ h)) ?_ h2
    intro c hc
    rcases List.mem_append.1 hc with hc | hc
    · exact hcs c hc
    · exact k c hc

/-- A layer is only returned for an existing name, and only existing names go to the cache. -/
theorem getLayerView_has {v : Nat → View K V} {last : Store K V}
    (hx : ∀ t, Ext (v t).store last)
    (hc : ∀ t n l, (v t).cache n = some l → l.name = n ∧ last.has n = true) {n : Name}
    {f : Nat} {l : InternalLayer K V} {cs : List (InternalLayer K V)}
    (h : getLayerView v f last n = .ok (some l, cs)) :
    last.has n = true ∧ ∀ c ∈ cs, last.has c.name = true := by
  unfold getLayerView at h
  cases hca : (v 0).cache n with
  | some l' =>
    simp only [hca, Out.ok.injEq, Prod.mk.injEq, Option.some.injEq] at h
    obtain ⟨rfl, rfl⟩ := h
    exact ⟨(hc 0 _ _ hca).2, by simp⟩
  | none =>
    simp only [hca] at h
    by_cases hh : (v 0).store.has n = true
    · simp only [hh, if_true] at h
      obtain ⟨r, h1, h2⟩ := Out.bind_eq_ok.1 h
      obtain ⟨q, h3, h4⟩ := Out.bind_eq_ok.1 h2
      simp only [Out.pure_eq, Out.ok.injEq, Prod.mk.injEq, Option.some.injEq] at h4
      obtain ⟨rfl, rfl⟩ := h4
      obtain ⟨k1, k2⟩ := findAncestor_has hx hc f 1 [(n, none)]
        (by intro q hq; simp only [List.mem_cons, List.not_mem_nil, or_false] at hq; subst hq
            intro h; cases h) r h1
      refine ⟨has_mono (hx 0) hh, ?_⟩
      obtain ⟨found, qs⟩ := r
      cases found with
      | some anc => exact loadChildren_has qs k2 (by simp) h3
      | none =>
        cases qs with
        | nil => cases h3
        | cons q' rest =>
          unfold loadAll at h3
          obtain ⟨⟨l', c'⟩, h5, h6⟩ := Out.bind_eq_ok.1 h3
          have k := loadBase_has h5 (k2 q' (List.mem_cons_self ..))
          exact loadChildren_has rest (fun q h => k2 q (List.mem_cons_of_mem _ h)) k h6
    · simp [hh] at h

/-- Every layer has a chain of parents that ends with a base layer. -/
def Closed (st : Store K V) : Prop :=
  ∀ n, st.has n = true → ∃ ns, Chain st n ns ∧ ns.length ≤ st.length

theorem Closed.write (h : Closed st) {n : Name} (hn : st.get? n = none) {e : Entry K V}
    (hp : ∀ p, e.parent = some p → st.has p = true) : Closed ((n, e) :: st) := by
  have hx := Ext.cons hn e
  intro m hm
  by_cases hnm : n = m
  · subst hnm
    cases hpa : e.parent with
    | none => exact ⟨[n], .base hm (by simp [parent?, get?, hpa]), by simp⟩
    | some p =>
      obtain ⟨ns, h1, h2⟩ := h p (hp p hpa)
      exact ⟨n :: ns, .child (by simp [parent?, get?, hpa]) (h1.ext hx), by simpa using h2⟩
  · have hm' : st.has m = true := by
      unfold Store.has at hm ⊢
      rw [get?_cons_ne hnm] at hm
      exact hm
    obtain ⟨ns, h1, h2⟩ := h m hm'
    exact ⟨ns, h1.ext hx, by simp only [List.length_cons]; omega⟩

theorem Closed.setRollup (h : Closed st) (n r : Name) : Closed (st.setRollup n r) := by
  intro m hm
  rw [has_setRollup] at hm
  obtain ⟨ns, h1, h2⟩ := h m hm
  exact ⟨ns, h1.ext (Ext.setRollup st n r), by rw [length_setRollup]; exact h2⟩

/-- What the task decided to write has an existing parent. -/
def PlanParent (st : Store K V) : Task × Plan K V → Prop
  | (_, .existing _) => True
  | (t, .write e) => (∀ p, e.parent = some p → st.has p = true) ∧
      match t with
      | .rollup _ => True
      | .squash _ => e.parent = none
      | .squashUpto _ u => e.parent = some u
      | .merge _ => e.parent = none

theorem PlanParent.ext (hx : Ext st st') : ∀ {q : Task × Plan K V}, PlanParent st q → PlanParent st' q
  | (_, .existing _), _ => trivial
  | (t, .write e), h => ⟨fun p hp => has_mono hx (h.1 p hp), h.2⟩

theorem performRollupView_parent {v : Nat → View K V} {l : InternalLayer K V} {pl : Plan K V}
    {n : Name} (h : performRollupView v l = .ok pl) : PlanParent st (.rollup n, pl) := by
  have hw : ∀ {pl : Plan K V}, (do
      let d ← Out.ofOption (Rollup.deltaRollup l.stack)
      return (.write { parent := none, data := d } : Plan K V)) = .ok pl →
      PlanParent st (.rollup n, pl) := by
    intro pl h
    obtain ⟨d, h1, h2⟩ := Out.bind_eq_ok.1 h
    simp only [Out.pure_eq, Out.ok.injEq] at h2
    subst h2
    exact ⟨by simp, trivial⟩
  unfold performRollupView at h
  split at h
  · simp only [Out.ok.injEq] at h
    subst h
    trivial
  · split at h
    · split at h
      · cases h
      · split at h
        · simp only [Out.ok.injEq] at h
          subst h
          trivial
        · exact hw h
    · exact hw h

theorem performRollupUptoWithView_parent {mk : Store K V → InternalLayer K V → List (LayerData K V) →
      Out (LayerData K V)} {v : Nat → View K V} {f : Nat} (hx : ∀ t, Ext (v t).store st)
    (hc : ∀ t n l, (v t).cache n = some l → l.name = n ∧ st.has n = true)
    {l : InternalLayer K V} {upto n : Name} {pl : Plan K V}
    (h : performRollupUptoWithView mk v f st l upto = .ok pl) : PlanParent st (.rollup n, pl) := by
  have hw : ∀ {pl : Plan K V}, (do
      let r ← getLayerView (fun t => v (t + 3)) f st upto
      match r.1 with
      | none => .err
      | some pl => do
        let d ← mk st l pl.stack
        return (.write { parent := some upto, data := d } : Plan K V)) = .ok pl →
      PlanParent st (.rollup n, pl) := by
    intro pl h
    obtain ⟨⟨r, cs⟩, h1, h2⟩ := Out.bind_eq_ok.1 h
    cases r with
    | none => cases h2
    | some a =>
      obtain ⟨d, h3, h4⟩ := Out.bind_eq_ok.1 h2
      simp only [Out.pure_eq, Out.ok.injEq] at h4
      subst h4
      refine ⟨?_, trivial⟩
      rintro p ⟨⟩
      exact (getLayerView_has (fun t => hx (t + 3)) (fun t => hc (t + 3)) h1).1
  unfold performRollupUptoWithView at h
  split at h
  · simp only [Out.ok.injEq] at h
    subst h
    trivial
  · split at h
    · simp only [Out.ok.injEq] at h
      subst h
      trivial
    · split at h
      · split at h
        · cases h
        · split at h
          · cases h
          · split at h
            · simp only [Out.ok.injEq] at h
              subst h
              trivial
            · exact hw h
      · exact hw h

theorem squash_parent {l : InternalLayer K V} {pl : Plan K V} {n : Name} (h : squash l = .ok pl) :
    PlanParent st (.squash n, pl) := by
  obtain ⟨d, h1, h2⟩ := Out.bind_eq_ok.1 h
  simp only [Out.pure_eq, Out.ok.injEq] at h2
  subst h2
  exact ⟨by simp, rfl⟩

theorem squashUptoView_parent {v : Nat → View K V} {f : Nat} (hx : ∀ t, Ext (v t).store st)
    (hc : ∀ t n l, (v t).cache n = some l → l.name = n ∧ st.has n = true)
    {l : InternalLayer K V} {upto n : Name} {pl : Plan K V}
    (h : squashUptoView v f st l upto = .ok pl) : PlanParent st (.squashUpto n upto, pl) := by
  unfold squashUptoView at h
  obtain ⟨⟨nv, p⟩, _, h⟩ := Out.bind_eq_ok.1 h
  obtain ⟨names, _, h⟩ := Out.bind_eq_ok.1 h
  obtain ⟨T, _, h⟩ := Out.bind_eq_ok.1 h
  obtain ⟨⟨r, cs⟩, h1, h⟩ := Out.bind_eq_ok.1 h
  cases r with
  | none => cases h
  | some a =>
    obtain ⟨d, _, h2⟩ := Out.bind_eq_ok.1 h
    simp only [Out.pure_eq, Out.ok.injEq] at h2
    subst h2
    refine ⟨?_, rfl⟩
    rintro p ⟨⟩
    exact (getLayerView_has hx hc h1).1

theorem mergeBase_parent {ns : List Name} {pl : Plan K V} (h : st.mergeBase ns = .ok pl) :
    PlanParent st (.merge ns, pl) := by
  unfold mergeBase at h
  obtain ⟨ds, _, h⟩ := Out.bind_eq_ok.1 h
  obtain ⟨d, _, h⟩ := Out.bind_eq_ok.1 h
  simp only [Out.pure_eq, Out.ok.injEq] at h
  subst h
  exact ⟨by simp, rfl⟩

end Store

namespace World

open Store

/-- What holds of the parent links in every execution. -/
structure Shape (w : World K V) : Prop where
  closed : Closed w.store
  seen : ∀ v ∈ w.seen, Ext v.store w.store ∧
    ∀ n l, v.cache n = some l → l.name = n ∧ w.store.has n = true
  held : ∀ q ∈ w.held, w.store.has q.1 = true
  loaded : ∀ l ∈ w.loaded, w.store.has l.name = true
  plans : ∀ q ∈ w.plans, PlanParent w.store q
  known : ∀ n, w.store.has n = true ↔ w.log.known n
  parent : ∀ n, w.store.parent? n = w.log.parent n

theorem Shape.cache {w : World K V} (h : Shape w) :
    ∀ n l, w.cache n = some l → l.name = n ∧ w.store.has n = true :=
  (h.seen _ (List.mem_cons_self ..)).2

theorem Shape.grow {w w' : World K V} (h : Shape w) (hx : Ext w.store w'.store)
    (hp : w'.past = w.seen) (hclosed : Closed w'.store)
    (hcache : ∀ n l, w'.cache n = some l → l.name = n ∧ w'.store.has n = true)
    (hheld : ∀ q ∈ w'.held, q ∈ w.held ∨ w'.store.has q.1 = true)
    (hloaded : ∀ l ∈ w'.loaded, l ∈ w.loaded ∨ w'.store.has l.name = true)
    (hplans : ∀ q ∈ w'.plans, q ∈ w.plans ∨ PlanParent w'.store q)
    (hknown : ∀ n, w'.store.has n = true ↔ w'.log.known n)
    (hparent : ∀ n, w'.store.parent? n = w'.log.parent n) : Shape w' where
  closed := hclosed
  seen v hv := by
    unfold World.seen at hv
    rw [hp] at hv
    rcases List.mem_cons.1 hv with rfl | hv
    · exact ⟨Ext.refl _, hcache⟩
    · obtain ⟨g1, g2⟩ := h.seen v hv
      exact ⟨g1.trans hx, fun n l hc => ⟨(g2 n l hc).1, has_mono hx (g2 n l hc).2⟩⟩
  held q hq := by
    rcases hheld q hq with hq | hq
    · exact has_mono hx (h.held q hq)
    · exact hq
  loaded l hl := by
    rcases hloaded l hl with hl | hl
    · exact has_mono hx (h.loaded l hl)
    · exact hl
  plans q hq := by
    rcases hplans q hq with hq | hq
    · exact (h.plans q hq).ext hx
    · exact hq
  known := hknown
  parent := hparent

theorem Shape.write {w w' : World K V} (h : Shape w) {ev : Event (VTriple K V)} {e : Entry K V}
    (hn : w.store.get? ev.new = none) (hpar : ∀ p, e.parent = some p → w.store.has p = true)
    (hp : ev.parent = e.parent) (hs : w'.store = (ev.new, e) :: w.store)
    (hl : w'.log = ev :: w.log) (hpa : w'.past = w.seen) (hc : w'.cache = w.cache)
    (hh : w'.held = w.held) (hlo : w'.loaded = w.loaded) (hpl : w'.plans = w.plans) :
    Shape w' := by
  have hx : Ext w.store w'.store := by rw [hs]; exact Ext.cons hn e
  refine h.grow hx hpa ?_ ?_ ?_ ?_ ?_ ?_ ?_
  · rw [hs]; exact h.closed.write hn hpar
  · rw [hc]; exact fun n l h' => ⟨(h.cache n l h').1, has_mono hx (h.cache n l h').2⟩
  · rw [hh]; exact fun _ h => Or.inl h
  · rw [hlo]; exact fun _ h => Or.inl h
  · rw [hpl]; exact fun _ h => Or.inl h
  · intro n
    have hk := h.known n
    rw [hs, hl]
    unfold Store.has at hk ⊢
    by_cases hne : ev.new = n
    · subst hne
      simp [get?_cons_self, History.known]
    · rw [get?_cons_ne hne, hk]
      simp [History.known, hne]
  · intro n
    have hk := h.parent n
    rw [hs, hl]
    unfold Store.parent? at hk ⊢
    by_cases hne : ev.new = n
    · subst hne
      simp [get?_cons_self, History.parent, hp]
    · rw [get?_cons_ne hne, hk]
      simp [History.parent, Ne.symm hne]

theorem Shape.start : Shape ({} : World K V) where
  closed n h := by simp [Store.has, get?] at h
  seen v hv := by
    simp only [World.seen, List.mem_cons, List.not_mem_nil, or_false] at hv
    subst hv
    exact ⟨Ext.refl _, fun n l h => by cases h⟩
  held q h := by cases h
  loaded q h := by cases h
  plans q h := by cases h
  known n := by simp [Store.has, get?, History.known]
  parent n := by simp [Store.parent?, get?, History.parent]

theorem Shape.step {safe : Bool} {w w' : World K V} (h : Shape w) (hs : Step safe w w') :
    Shape w' := by
  have hx := hs.ext
  have hplan : ∀ {q : Task × Plan K V}, PlanParent w.store q →
      Shape { w with plans := q :: w.plans, past := w.seen } := by
    intro q hq
    refine h.grow (Ext.refl _) rfl h.closed h.cache (fun _ h => Or.inl h) (fun _ h => Or.inl h) ?_
      h.known h.parent
    intro q' hq'
    rcases List.mem_cons.1 hq' with rfl | hq'
    · exact Or.inr hq
    · exact Or.inl hq'
  have sees : ∀ {v : Nat → View K V}, w.Sees v → (∀ t, Ext (v t).store w.store) ∧
      ∀ t n l, (v t).cache n = some l → l.name = n ∧ w.store.has n = true := by
    rintro v ⟨i, _, hv⟩
    refine ⟨fun t => ?_, fun t n l hc => ?_⟩ <;> obtain ⟨u, h1, h2, h3⟩ := hv t
    · rw [h2]
      exact (h.seen u (List.mem_of_getElem? h1)).1
    · exact (h.seen u (List.mem_of_getElem? h1)).2 n l (h3 n l hc)
  cases hs with
  | load hv hm hl =>
    have hmem := fun t => h.seen _ (List.mem_of_getElem? (hv t))
    obtain ⟨g1, g2⟩ := getLayerView_has (fun t => (hmem t).1) (fun t => (hmem t).2) hl
    refine h.grow hx rfl h.closed h.cache ?_ ?_ (fun _ h => Or.inl h) h.known h.parent
    · intro q hq
      rcases List.mem_cons.1 hq with rfl | hq
      · exact Or.inr g1
      · exact Or.inl hq
    · intro l hl
      rcases List.mem_append.1 hl with hl | hl
      · exact Or.inr (g2 l hl)
      · exact Or.inl hl
  | @cacheLayer l hl =>
    refine h.grow hx rfl h.closed ?_ (fun _ h => Or.inl h) (fun _ h => Or.inl h)
      (fun _ h => Or.inl h) h.known h.parent
    intro n l' hc
    simp only [Cache.insert] at hc
    split at hc
    · rename_i hn
      cases hc
      subst hn
      exact ⟨rfl, h.loaded _ hl⟩
    · exact h.cache n l' hc
  | evict hsub =>
    refine h.grow hx rfl h.closed ?_ (fun _ h => Or.inl h) (fun _ h => Or.inl h)
      (fun _ h => Or.inl h) h.known h.parent
    intro n l' hc
    exact h.cache n l' (hsub n l' hc)
  | commitBase hn _ _ =>
    exact h.write (ev := .commit _ none _) (e := { parent := none, data := _ }) hn (by simp) rfl rfl
      rfl rfl rfl rfl rfl rfl
  | commit hm hn _ _ =>
    exact h.write (ev := .commit _ (some _) _) (e := { parent := some _, data := _ }) hn
      (by rintro p ⟨⟩; exact h.held _ hm) rfl rfl rfl rfl rfl rfl rfl rfl
  | @importLayer new e S T hn _ hb _ _ _ _ =>
    refine h.write (ev := .imported new e.parent T) (e := e) hn ?_ rfl rfl rfl rfl rfl rfl rfl rfl
    intro p hp
    unfold Below at hb
    rw [hp] at hb
    exact hb.has
  | decideRollup _ _ hp => exact hplan (performRollupView_parent hp)
  | decideRollupUpto _ hv _ hp =>
    exact hplan (performRollupUptoWithView_parent (sees hv).1 (sees hv).2 hp)
  | decideImpreciseRollupUpto _ hv _ hp =>
    exact hplan (performRollupUptoWithView_parent (sees hv).1 (sees hv).2 hp)
  | planSquash _ hp => exact hplan (squash_parent hp)
  | decideSquashUpto _ hv hp => exact hplan (squashUptoView_parent (sees hv).1 (sees hv).2 hp)
  | planMerge _ hp => exact hplan (mergeBase_parent hp)
  | keep _ =>
    exact h.grow hx rfl h.closed h.cache (fun _ h => Or.inl h) (fun _ h => Or.inl h)
      (fun _ h => Or.inl h) h.known h.parent
  | @writeRollup n e new hm hn =>
    exact h.write (ev := .rollup new n e.parent) hn (h.plans _ hm).1 rfl rfl rfl rfl rfl rfl rfl rfl
  | @writeSquash n e new hm hn =>
    exact h.write (ev := .squash new n) hn (h.plans _ hm).1 (h.plans _ hm).2.symm rfl rfl rfl rfl
      rfl rfl rfl
  | @writeSquashUpto n u e new hm hn =>
    exact h.write (ev := .squashUpto new n u) hn (h.plans _ hm).1 (h.plans _ hm).2.symm rfl rfl rfl
      rfl rfl rfl rfl
  | @writeMerge ns e new hm hn =>
    exact h.write (ev := .merge new ns) hn (h.plans _ hm).1 (h.plans _ hm).2.symm rfl rfl rfl
      rfl rfl rfl rfl
  | @register n r _ =>
    have hcl : Closed (registerRollup w.store n r) := by
      unfold registerRollup
      split
      · exact h.closed
      · exact h.closed.setRollup n r
    have hhas : ∀ m, (registerRollup w.store n r).has m = w.store.has m := by
      intro m
      unfold registerRollup
      split
      · rfl
      · exact has_setRollup n r m
    have hpar : ∀ m, (registerRollup w.store n r).parent? m = w.store.parent? m := by
      intro m
      unfold registerRollup
      split
      · rfl
      · exact parent?_setRollup n r m
    refine h.grow hx rfl hcl ?_ (fun _ h => Or.inl h) (fun _ h => Or.inl h)
      (fun _ h => Or.inl h) ?_ ?_
    · intro m l hc
      exact ⟨(h.cache m l hc).1, by show (registerRollup w.store n r).has m = true
                                    rw [hhas]; exact (h.cache m l hc).2⟩
    · intro m
      show (registerRollup w.store n r).has m = true ↔ _
      rw [hhas]
      exact h.known m
    · intro m
      show (registerRollup w.store n r).parent? m = _
      rw [hpar]
      exact h.parent m

theorem Run.shape {safe : Bool} {w : World K V} (h : Run safe w) : Shape w := by
  induction h with
  | start => exact Shape.start
  | step _ hs ih => exact ih.step hs

end World

end Verif
