import Verif.Lemmas.StorePlans

/-!
Loaded layers report the names they were asked for by, as long as no rollup of a rollup
is found on the way.
-/

set_option linter.unusedSectionVars false
set_option linter.unusedVariables false

namespace Verif

variable {K V : Type} [LinearOrder K] [LinearOrder V]

namespace Store

variable {st st' : Store K V}

/-- Every layer inside a loaded layer reports its stored parent. -/
def Named (st : Store K V) : InternalLayer K V → Prop
  | .base _ _ => True
  | .child n _ p => Named st p ∧ st.parent? n = some p.name
  | .rollup i _ _ => Named st i

theorem Named.ext (hx : Ext st st') : ∀ {l : InternalLayer K V}, Named st l → Named st' l
  | .base _ _, _ => trivial
  | .child _ _ _, h => ⟨Named.ext hx h.1, parent_ext hx h.2⟩
  | .rollup i _ _, h => Named.ext (l := i) hx h

theorem Named.parentName {l : InternalLayer K V} (h : Named st l) (hl : LayerOk st l) :
    l.parentName = st.parent? l.name := by
  cases l with
  | base n d =>
    obtain ⟨e, h1, h2, _⟩ := hl
    simp [InternalLayer.parentName, InternalLayer.name, parent?, h1, h2]
  | child n d p =>
    simp only [InternalLayer.parentName, InternalLayer.name]
    exact h.2.symm
  | rollup i o op =>
    obtain ⟨_, h1, _⟩ := hl
    simp only [InternalLayer.parentName, InternalLayer.name]
    exact h1.symm

/-- Given a layer named `p`, the elements `qs` load to a layer named `n`. -/
def NeedNamed (st : Store K V) (n : Name) : List Pending → Name → Prop
  | [], p => p = n
  | q :: rest, p => st.parent? q.current = some p ∧ NeedNamed st n rest q.1

/-- The pending elements lead to the name `n`; the first is either a name or a name with a
rollup which itself is not rolled up. -/
def PendNamed (st : Store K V) (v : Nat → View K V) (n : Name) : List Pending → Prop
  | [] => False
  | q :: rest => NeedNamed st n rest q.1 ∧
      (q.2 = none ∨ ∀ t, (v t).store.rollup? q.current = none)

/-- The result of the search. -/
def FoundNamed (st : Store K V) (n : Name) : Option (InternalLayer K V) × List Pending → Prop
  | (some l, rest) => Named st l ∧ NeedNamed st n rest l.name
  | (none, []) => False
  | (none, q :: rest) => NeedNamed st n rest q.1

theorem wrapCached_named {layer l : InternalLayer K V} {q : Pending}
    (h : wrapCached layer q = .ok l) (hn : Named st layer) (he : layer.name = q.current) :
    Named st l ∧ l.name = q.1 := by
  obtain ⟨m, ro⟩ := q
  cases ro with
  | none =>
    simp only [wrapCached, Out.ok.injEq] at h
    subst h
    exact ⟨hn, he⟩
  | some ro =>
    obtain ⟨r, op⟩ := ro
    unfold wrapCached at h
    by_cases hc : layer.immediateParent.isSome = true
    · simp only [hc, if_true] at h
      cases op with
      | none => cases h
      | some p =>
        simp only [Out.ok.injEq] at h
        subst h
        exact ⟨hn, rfl⟩
    · simp only [hc] at h
      simp only [Bool.false_eq_true, if_false, Out.ok.injEq] at h
      subst h
      exact ⟨hn, rfl⟩

theorem findAncestor_named {v : Nat → View K V} {last : Store K V}
    (hx : ∀ t, Ext (v t).store last)
    (hcn : ∀ t n l, (v t).cache n = some l → Named (v t).store l ∧ l.name = n)
    (hflat : ∀ t t' n r, (v t).store.rollup? n = some r → (v t').store.rollup? r = none) {n : Name} :
    ∀ (f t : Nat) (qs : List Pending), PendNamed last v n qs →
      ∀ res, findAncestor v f t qs = .ok res → FoundNamed last n res
  | 0, _, _, _, res, hres => by simp [findAncestor] at hres
  | _ + 1, _, [], hp, _, _ => hp.elim
  | f + 1, t, q :: rest, hp, res, hres => by
    obtain ⟨hneed, hq⟩ := hp
    unfold findAncestor at hres
    cases hca : (v t).cache q.current with
    | some layer =>
      simp only [hca] at hres
      obtain ⟨l, h1, h2⟩ := Out.bind_eq_ok.1 hres
      simp only [Out.pure_eq, Out.ok.injEq] at h2
      subst h2
      obtain ⟨g1, g2⟩ := hcn t _ _ hca
      obtain ⟨k1, k2⟩ := wrapCached_named h1 (g1.ext (hx t)) g2
      refine ⟨k1, ?_⟩
      rw [k2]
      exact hneed
    | none =>
      simp only [hca] at hres
      cases hr : (v t).store.rollup? q.current with
      | some r =>
        simp only [hr] at hres
        by_cases hrc : r = q.current
        · simp [hrc] at hres
        · simp only [hrc, if_false] at hres
          refine findAncestor_named hx hcn hflat f (t + 1)
            ((q.current, some (r, (v t).store.parent? q.current)) :: rest) ⟨?_, ?_⟩ res hres
          · rcases hq with hq | hq
            · obtain ⟨m, ro⟩ := q
              simp only at hq
              subst hq
              exact hneed
            · rw [hq t] at hr
              cases hr
          · right
            intro t'
            exact hflat t t' _ _ hr
      | none =>
        simp only [hr] at hres
        cases hpa : (v t).store.parent? q.current with
        | some p =>
          simp only [hpa] at hres
          exact findAncestor_named hx hcn hflat f (t + 1) ((p, none) :: q :: rest)
            ⟨⟨parent_ext (hx t) hpa, hneed⟩, Or.inl rfl⟩ res hres
        | none =>
          simp only [hpa, Out.ok.injEq] at hres
          subst hres
          exact hneed

theorem loadChild_named {anc l : InternalLayer K V} {q : Pending} {cs : List (InternalLayer K V)}
    (h : loadChild st anc q = .ok (l, cs)) (ha : Named st anc)
    (hp : st.parent? q.current = some anc.name) :
    Named st l ∧ l.name = q.1 ∧ ∀ c ∈ cs, Named st c := by
  obtain ⟨m, ro⟩ := q
  cases ro with
  | none =>
    unfold loadChild at h
    obtain ⟨d, h1, h2⟩ := Out.bind_eq_ok.1 h
    simp only [Out.pure_eq, Out.ok.injEq, Prod.mk.injEq] at h2
    obtain ⟨rfl, rfl⟩ := h2
    have : Named st (.child m (d.onTop anc.stack) anc) := ⟨ha, hp⟩
    exact ⟨this, rfl, by simpa using this⟩
  | some ro =>
    obtain ⟨r, op⟩ := ro
    unfold loadChild at h
    cases op with
    | none => cases h
    | some p =>
      obtain ⟨d, h1, h2⟩ := Out.bind_eq_ok.1 h
      simp only [Out.pure_eq, Out.ok.injEq, Prod.mk.injEq] at h2
      obtain ⟨rfl, rfl⟩ := h2
      have : Named st (.child r (d.onTop anc.stack) anc) := ⟨ha, hp⟩
      refine ⟨this, rfl, ?_⟩
      intro c hc
      simp only [List.mem_cons, List.not_mem_nil, or_false] at hc
      rcases hc with rfl | rfl
      · exact this
      · exact this

theorem loadChildren_named {n : Name} : ∀ (qs : List Pending) {anc l : InternalLayer K V}
    {cs cs' : List (InternalLayer K V)} (_ : Named st anc) (_ : NeedNamed st n qs anc.name)
    (_ : ∀ c ∈ cs, Named st c) (_ : loadChildren st anc qs cs = .ok (l, cs')),
    Named st l ∧ l.name = n ∧ ∀ c ∈ cs', Named st c
  | [], anc, l, cs, cs', ha, hn, hcs, h => by
    simp only [loadChildren, Out.ok.injEq, Prod.mk.injEq] at h
    obtain ⟨rfl, rfl⟩ := h
    exact ⟨ha, hn, hcs⟩
  | q :: qs, anc, l, cs, cs', ha, hn, hcs, h => by
    unfold loadChildren at h
    obtain ⟨⟨l', c'⟩, h1, h2⟩ := Out.bind_eq_ok.1 h
    obtain ⟨k1, k2, k3⟩ := loadChild_named h1 ha hn.1
    refine loadChildren_named qs k1 (by rw [k2]; exact hn.2) ?_ h2
    intro c hc
    rcases List.mem_append.1 hc with hc | hc
    · exact hcs c hc
    · exact k3 c hc

theorem loadBase_named {l : InternalLayer K V} {q : Pending} {cs : List (InternalLayer K V)}
    (h : loadBase st q = .ok (l, cs)) : Named st l ∧ l.name = q.1 ∧ ∀ c ∈ cs, Named st c := by
  obtain ⟨m, ro⟩ := q
  cases ro with
  | none =>
    unfold loadBase at h
    obtain ⟨d, h1, h2⟩ := Out.bind_eq_ok.1 h
    simp only [Out.pure_eq, Out.ok.injEq, Prod.mk.injEq] at h2
    obtain ⟨rfl, rfl⟩ := h2
    exact ⟨trivial, rfl, by simp [Named]⟩
  | some ro =>
    obtain ⟨r, op⟩ := ro
    unfold loadBase at h
    obtain ⟨d, h1, h2⟩ := Out.bind_eq_ok.1 h
    simp only [Out.pure_eq, Out.ok.injEq, Prod.mk.injEq] at h2
    obtain ⟨rfl, rfl⟩ := h2
    exact ⟨trivial, rfl, by simp [Named]⟩

theorem loadAll_named {n : Name} {found : Option (InternalLayer K V)} {qs : List Pending}
    {l : InternalLayer K V} {cs : List (InternalLayer K V)} (h : FoundNamed st n (found, qs))
    (he : loadAll st found qs = .ok (l, cs)) :
    Named st l ∧ l.name = n ∧ ∀ c ∈ cs, Named st c := by
  cases found with
  | some anc => exact loadChildren_named qs h.1 h.2 (by simp) he
  | none =>
    cases qs with
    | nil => exact h.elim
    | cons q rest =>
      unfold loadAll at he
      obtain ⟨⟨l', c'⟩, h1, h2⟩ := Out.bind_eq_ok.1 he
      obtain ⟨k1, k2, k3⟩ := loadBase_named h1
      have hneed : NeedNamed st n rest q.1 := h
      exact loadChildren_named rest k1 (by rw [k2]; exact hneed) k3 h2

theorem getLayerView_named {v : Nat → View K V} {last : Store K V}
    (hx : ∀ t, Ext (v t).store last)
    (hcn : ∀ t n l, (v t).cache n = some l → Named (v t).store l ∧ l.name = n)
    (hflat : ∀ t t' n r, (v t).store.rollup? n = some r → (v t').store.rollup? r = none) {n : Name}
    {f : Nat} {l : InternalLayer K V} {cs : List (InternalLayer K V)}
    (h : getLayerView v f last n = .ok (some l, cs)) :
    Named last l ∧ l.name = n ∧ ∀ c ∈ cs, Named last c := by
  unfold getLayerView at h
  cases hca : (v 0).cache n with
  | some l' =>
    simp only [hca, Out.ok.injEq, Prod.mk.injEq, Option.some.injEq] at h
    obtain ⟨rfl, rfl⟩ := h
    obtain ⟨g1, g2⟩ := hcn 0 _ _ hca
    exact ⟨g1.ext (hx 0), g2, by simp⟩
  | none =>
    simp only [hca] at h
    by_cases hh : (v 0).store.has n = true
    · simp only [hh, if_true] at h
      obtain ⟨r, h1, h2⟩ := Out.bind_eq_ok.1 h
      obtain ⟨q, h3, h4⟩ := Out.bind_eq_ok.1 h2
      simp only [Out.pure_eq, Out.ok.injEq, Prod.mk.injEq, Option.some.injEq] at h4
      obtain ⟨rfl, rfl⟩ := h4
      have hf := findAncestor_named hx hcn hflat f 1 [(n, none)] ⟨rfl, Or.inl rfl⟩ r h1
      exact loadAll_named hf h3
    · simp [hh] at h

end Store

end Verif
