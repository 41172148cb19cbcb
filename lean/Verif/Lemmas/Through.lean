import Verif.Lemmas.WorldMore

/-!
Which names of a loaded layer were replaced by rollups, and the rollups down to an ancestor
when there are none above it.
-/

set_option linter.unusedSectionVars false
set_option linter.unusedVariables false

namespace Verif

open SimpleBuilder Spec

variable {K V : Type} [LinearOrder K] [LinearOrder V]

namespace Store

variable {st st' : Store K V} {R : Name → Prop}

/-- Every name inside a loaded layer that stands for a rollup satisfies `R`. -/
def Through (R : Name → Prop) : InternalLayer K V → Prop
  | .base _ _ => True
  | .child _ _ p => Through R p
  | .rollup i o _ => R o ∧ Through R i

theorem Through.mono {R R' : Name → Prop} (h : ∀ n, R n → R' n) : ∀ {l : InternalLayer K V},
    Through R l → Through R' l
  | .base _ _, _ => trivial
  | .child _ _ p, g => Through.mono (l := p) h g
  | .rollup i _ _, g => ⟨h _ g.1, Through.mono (l := i) h g.2⟩

/-- The name of a pending element that stands for a rollup satisfies `R`. -/
def PendThrough (R : Name → Prop) (q : Pending) : Prop := q.2.isSome = true → R q.1

theorem wrapCached_through {layer l : InternalLayer K V} {q : Pending}
    (h : wrapCached layer q = .ok l) (hn : Through R layer) (hq : PendThrough R q) :
    Through R l := by
  obtain ⟨m, ro⟩ := q
  cases ro with
  | none =>
    simp only [wrapCached, Out.ok.injEq] at h
    subst h
    exact hn
  | some ro =>
    obtain ⟨r, op⟩ := ro
    have hm : R m := hq rfl
    unfold wrapCached at h
    by_cases hc : layer.immediateParent.isSome = true
    · simp only [hc, if_true] at h
      cases op with
      | none => cases h
      | some p =>
        simp only [Out.ok.injEq] at h
        subst h
        exact ⟨hm, hn⟩
    · simp only [hc] at h
      simp only [Bool.false_eq_true, if_false, Out.ok.injEq] at h
      subst h
      exact ⟨hm, hn⟩

theorem findAncestor_through {v : Nat → View K V}
    (hc : ∀ t n l, (v t).cache n = some l → Through R l)
    (hR : ∀ t n r, (v t).store.rollup? n = some r → R n) :
    ∀ (f t : Nat) (qs : List Pending), (∀ q ∈ qs, PendThrough R q) →
      ∀ res, findAncestor v f t qs = .ok res →
        (∀ l, res.1 = some l → Through R l) ∧ ∀ q ∈ res.2, PendThrough R q
  | 0, _, _, _, res, hres => by simp [findAncestor] at hres
  | _ + 1, _, [], _, res, hres => by simp [findAncestor] at hres
  | f + 1, t, q :: rest, hp, res, hres => by
    have hrest : ∀ q ∈ rest, PendThrough R q := fun q h => hp q (List.mem_cons_of_mem _ h)
    have hq : PendThrough R q := hp q (List.mem_cons_self ..)
    unfold findAncestor at hres
    cases hca : (v t).cache q.current with
    | some layer =>
      simp only [hca] at hres
      obtain ⟨l, h1, h2⟩ := Out.bind_eq_ok.1 hres
      simp only [Out.pure_eq, Out.ok.injEq] at h2
      subst h2
      refine ⟨?_, hrest⟩
      rintro l' ⟨⟩
      exact wrapCached_through h1 (hc t _ _ hca) hq
    | none =>
      simp only [hca] at hres
      cases hr : (v t).store.rollup? q.current with
      | some r =>
        simp only [hr] at hres
        by_cases hrc : r = q.current
        · simp [hrc] at hres
        · simp only [hrc, if_false] at hres
          refine findAncestor_through hc hR f (t + 1) _ ?_ res hres
          intro q' hq'
          rcases List.mem_cons.1 hq' with rfl | hq'
          · exact fun _ => hR t _ _ hr
          · exact hrest q' hq'
      | none =>
        simp only [hr] at hres
        cases hpa : (v t).store.parent? q.current with
        | some p =>
          simp only [hpa] at hres
          refine findAncestor_through hc hR f (t + 1) _ ?_ res hres
          intro q' hq'
          rcases List.mem_cons.1 hq' with rfl | hq'
          · intro h; cases h
          · exact hp q' hq'
        | none =>
          simp only [hpa, Out.ok.injEq] at hres
          subst hres
          exact ⟨by rintro l ⟨⟩, hp⟩

theorem loadChild_through {anc l : InternalLayer K V} {q : Pending} {cs : List (InternalLayer K V)}
    (h : loadChild st anc q = .ok (l, cs)) (ha : Through R anc) (hq : PendThrough R q) :
    Through R l ∧ ∀ c ∈ cs, Through R c := by
  obtain ⟨m, ro⟩ := q
  cases ro with
  | none =>
    unfold loadChild at h
    obtain ⟨d, h1, h2⟩ := Out.bind_eq_ok.1 h
    simp only [Out.pure_eq, Out.ok.injEq, Prod.mk.injEq] at h2
    obtain ⟨rfl, rfl⟩ := h2
    exact ⟨ha, by simpa [Through] using ha⟩
  | some ro =>
    obtain ⟨r, op⟩ := ro
    have hm : R m := hq rfl
    unfold loadChild at h
    cases op with
    | none => cases h
    | some p =>
      obtain ⟨d, h1, h2⟩ := Out.bind_eq_ok.1 h
      simp only [Out.pure_eq, Out.ok.injEq, Prod.mk.injEq] at h2
      obtain ⟨rfl, rfl⟩ := h2
      refine ⟨⟨hm, ha⟩, ?_⟩
      intro c hc
      simp only [List.mem_cons, List.not_mem_nil, or_false] at hc
      rcases hc with rfl | rfl
      · exact ha
      · exact ⟨hm, ha⟩

theorem loadChildren_through : ∀ (qs : List Pending) {anc l : InternalLayer K V}
    {cs cs' : List (InternalLayer K V)} (_ : Through R anc) (_ : ∀ q ∈ qs, PendThrough R q)
    (_ : ∀ c ∈ cs, Through R c) (_ : loadChildren st anc qs cs = .ok (l, cs')),
    Through R l ∧ ∀ c ∈ cs', Through R c
  | [], anc, l, cs, cs', ha, hn, hcs, h => by
    simp only [loadChildren, Out.ok.injEq, Prod.mk.injEq] at h
    obtain ⟨rfl, rfl⟩ := h
    exact ⟨ha, hcs⟩
  | q :: qs, anc, l, cs, cs', ha, hn, hcs, h => by
    unfold loadChildren at h
    obtain ⟨⟨l', c'⟩, h1, h2⟩ := Out.bind_eq_ok.1 h
    obtain ⟨k1, k2⟩ := loadChild_through h1 ha (hn q (List.mem_cons_self ..))
    refine loadChildren_through qs k1 (fun q h => hn q (List.mem_cons_of_mem _ h)) ?_ h2
    intro c hc
    rcases List.mem_append.1 hc with hc | hc
    · exact hcs c hc
    · exact k2 c hc

theorem loadBase_through {l : InternalLayer K V} {q : Pending} {cs : List (InternalLayer K V)}
    (h : loadBase st q = .ok (l, cs)) (hq : PendThrough R q) :
    Through R l ∧ ∀ c ∈ cs, Through R c := by
  obtain ⟨m, ro⟩ := q
  cases ro with
  | none =>
    unfold loadBase at h
    obtain ⟨d, h1, h2⟩ := Out.bind_eq_ok.1 h
    simp only [Out.pure_eq, Out.ok.injEq, Prod.mk.injEq] at h2
    obtain ⟨rfl, rfl⟩ := h2
    exact ⟨trivial, by simp [Through]⟩
  | some ro =>
    obtain ⟨r, op⟩ := ro
    have hm : R m := hq rfl
    unfold loadBase at h
    obtain ⟨d, h1, h2⟩ := Out.bind_eq_ok.1 h
    simp only [Out.pure_eq, Out.ok.injEq, Prod.mk.injEq] at h2
    obtain ⟨rfl, rfl⟩ := h2
    exact ⟨⟨hm, trivial⟩, by simp [Through, hm]⟩

theorem getLayerView_through {v : Nat → View K V} {last : Store K V}
    (hc : ∀ t n l, (v t).cache n = some l → Through R l)
    (hR : ∀ t n r, (v t).store.rollup? n = some r → R n) {n : Name}
    {f : Nat} {l : InternalLayer K V} {cs : List (InternalLayer K V)}
    (h : getLayerView v f last n = .ok (some l, cs)) :
    Through R l ∧ ∀ c ∈ cs, Through R c := by
  unfold getLayerView at h
  cases hca : (v 0).cache n with
  | some l' =>
    simp only [hca, Out.ok.injEq, Prod.mk.injEq, Option.some.injEq] at h
    obtain ⟨rfl, rfl⟩ := h
    exact ⟨hc 0 _ _ hca, by simp⟩
  | none =>
    simp only [hca] at h
    by_cases hh : (v 0).store.has n = true
    · simp only [hh, if_true] at h
      obtain ⟨r, h1, h2⟩ := Out.bind_eq_ok.1 h
      obtain ⟨q, h3, h4⟩ := Out.bind_eq_ok.1 h2
      simp only [Out.pure_eq, Out.ok.injEq, Prod.mk.injEq, Option.some.injEq] at h4
      obtain ⟨rfl, rfl⟩ := h4
      obtain ⟨g1, g2⟩ := findAncestor_through hc hR f 1 [(n, none)]
        (by simp [PendThrough]) r h1
      obtain ⟨found, qs⟩ := r
      cases found with
      | some anc => exact loadChildren_through qs (g1 anc rfl) g2 (by simp) h3
      | none =>
        cases qs with
        | nil => simp [loadAll] at h3
        | cons p rest =>
          unfold loadAll at h3
          obtain ⟨⟨l', c'⟩, k1, k2⟩ := Out.bind_eq_ok.1 h3
          obtain ⟨m1, m2⟩ := loadBase_through k1 (g2 p (List.mem_cons_self ..))
          exact loadChildren_through rest m1 (fun q h => g2 q (List.mem_cons_of_mem _ h)) m2 k2
    · simp [hh] at h

/-! ### Down to an ancestor -/

/-- The layers of a loaded layer above the ancestor `upto`, when no name among them stands for a
rollup. -/
theorem Named.upto {upto : Name} (hR : Name → Prop) : ∀ {l : InternalLayer K V} (f : Nat)
    {r : List Name}, Named st l → LayerOk st l → Through hR l →
    stackNamesUptoLoop st upto f l.name = .ok r → (∀ m ∈ r, ¬ hR m) →
    ∃ T d rest, l.levels = T ++ (upto, d) :: rest ∧ T.map Prod.fst = r ∧
      ∀ q ∈ T, ∃ e S, st.get? q.1 = some e ∧ q.2 = e.data.onTop S
  | .base n d, f, r, hn, hl, ht, h, hr => by
    obtain ⟨e, h1, h2, _⟩ := hl
    cases f with
    | zero => simp [stackNamesUptoLoop] at h
    | succ f =>
      have : st.parent? n = none := by simp [parent?, h1, h2]
      simp [stackNamesUptoLoop, InternalLayer.name, this] at h
  | .child n d p, f, r, hn, hl, ht, h, hr => by
    obtain ⟨hl0, e, q, h1, h2, h3, _⟩ := hl
    cases f with
    | zero => simp [stackNamesUptoLoop] at h
    | succ f =>
      have hpar : st.parent? (InternalLayer.child n d p).name = some p.name := hn.2
      rw [stackNamesUptoLoop, hpar] at h
      dsimp only at h
      by_cases hu : p.name = upto
      · simp only [hu, if_true, Out.ok.injEq] at h
        subst h
        obtain ⟨rest, hrest⟩ := p.levels_eq
        refine ⟨[(n, d)], p.data, rest, ?_, rfl, ?_⟩
        · rw [InternalLayer.levels, hrest, hu]
          rfl
        · intro q hq
          simp only [List.mem_cons, List.not_mem_nil, or_false] at hq
          subst hq
          exact ⟨e, _, h1, h3⟩
      · simp only [hu, if_false] at h
        obtain ⟨r', h4, h5⟩ := Out.bind_eq_ok.1 h
        simp only [Out.pure_eq, Out.ok.injEq] at h5
        subst h5
        obtain ⟨T, d', rest, k1, k2, k3⟩ := Named.upto hR (l := p) f hn.1 hl0 ht h4
          (fun m hm => hr m (List.mem_cons_of_mem _ hm))
        refine ⟨(n, d) :: T, d', rest, ?_, by rw [List.map_cons, k2]; rfl, ?_⟩
        · rw [InternalLayer.levels, k1]
          rfl
        · intro q hq
          rcases List.mem_cons.1 hq with rfl | hq
          · exact ⟨e, _, h1, h3⟩
          · exact k3 q hq
  | .rollup i o op, f, r, hn, hl, ht, h, hr => by
    exfalso
    refine hr o ?_ ht.1
    cases f with
    | zero => simp [stackNamesUptoLoop] at h
    | succ f =>
      simp only [stackNamesUptoLoop, InternalLayer.name] at h
      split at h
      · cases h
      · split at h
        · simp only [Out.ok.injEq] at h
          subst h
          simp
        · obtain ⟨r', _, h5⟩ := Out.bind_eq_ok.1 h
          simp only [Out.pure_eq, Out.ok.injEq] at h5
          subst h5
          simp

theorem boundLoop_upto {upto : Name} : ∀ (names rest : List Name) (cur : Name) (disk : List Name),
    upto ∉ names → (∃ tl, disk = names.reverse ++ tl) → names.Nodup →
    boundLoop upto cur (names ++ upto :: rest) disk = upto
  | [], rest, cur, disk, _, _, _ => by simp [boundLoop]
  | p :: names, rest, cur, disk, hu, ⟨tl, hd⟩, hn => by
    simp only [List.mem_cons, not_or] at hu
    have hp : p ∉ names := (List.nodup_cons.1 hn).1
    subst hd
    have hmem : p ∈ (p :: names).reverse ++ tl := by simp
    have hidx : ((p :: names).reverse ++ tl).idxOf p = names.length := by
      rw [List.reverse_cons, List.append_assoc, List.idxOf_append]
      have : p ∉ names.reverse := by simpa using hp
      simp [this]
    rw [List.cons_append, boundLoop]
    simp only [Ne.symm hu.1, if_false, hmem, if_true, hidx]
    refine boundLoop_upto names rest p _ hu.2 ⟨[], ?_⟩ (List.nodup_cons.1 hn).2
    rw [List.reverse_cons, List.append_assoc, List.take_left' (by simp)]
    simp

theorem layersUpto_upto {upto : Name} {d : LayerData K V} {rest : List (Name × LayerData K V)} :
    ∀ (T : List (Name × LayerData K V)), upto ∉ T.map Prod.fst →
      layersUpto upto (T ++ (upto, d) :: rest) = .ok (T.map Prod.snd)
  | [], _ => by simp [layersUpto]
  | (n, e) :: T, h => by
    simp only [List.map_cons, List.mem_cons, not_or] at h
    rw [List.cons_append, layersUpto]
    simp only [Ne.symm h.1, if_false, layersUpto_upto T h.2, Out.ok_bind, Out.pure_eq, List.map_cons]

/-- What the two rollups down to `upto` collect when nothing above it was rolled up: the bound is
`upto`, and the layers above it are the stored ones. -/
theorem upto_direct (ho : Ok st) {l : InternalLayer K V} (hl : LayerOk st l) (hN : Named st l)
    (hT : Through R l) {upto : Name} {ns : List Name} (hns : st.stackNamesUpto l.name upto = .ok ns)
    (hR : ∀ m ∈ ns, ¬ R m)
    (hplain : ∀ m ∈ ns, ∀ e, st.get? m = some e → e.data.nvMap = none ∧ e.data.pMap = none) :
    l.name ≠ upto ∧ st.safeUptoBound l upto = .ok upto ∧ ∃ T d rest,
      immediateLayersUpto l upto = .ok (T.map Prod.snd) ∧ l.levels = T ++ (upto, d) :: rest ∧
      ∀ e ∈ T.map Prod.snd, e.nvMap = none ∧ e.pMap = none := by
  obtain ⟨S, hS, ha, hlen⟩ := hl.stands ho
  obtain ⟨ms, m1, m2⟩ := hS.chain
  obtain ⟨us, u1, u2, u3⟩ := stackNamesUpto_sound hns m1
  have hnd := m1.nodup
  rw [u2] at hnd
  have hus : us.head? = some upto := u1.head
  obtain ⟨us', rfl⟩ : ∃ us', us = upto :: us' := by
    cases us with
    | nil => cases hus
    | cons a l => simp only [List.head?_cons, Option.some.injEq] at hus; exact ⟨l, by rw [hus]⟩
  have hnot : upto ∉ ns.reverse := by
    intro h
    exact (List.nodup_append.1 hnd).2.2 upto h upto (List.mem_cons_self ..) rfl
  have hnd' : ns.reverse.Nodup := (List.nodup_append.1 hnd).1
  obtain ⟨tl, htl⟩ : ∃ tl, ns.reverse = l.name :: tl := by
    have := m1.head
    rw [u2] at this
    cases hr : ns.reverse with
    | nil => exact absurd (by simpa using hr) u3
    | cons a l' =>
      rw [hr] at this
      simp only [List.cons_append, List.head?_cons, Option.some.injEq] at this
      exact ⟨l', by rw [this]⟩
  have hne : l.name ≠ upto := by
    rintro rfl
    exact hnot (by rw [htl]; exact List.mem_cons_self ..)
  have hloop : ∃ r, stackNamesUptoLoop st upto st.fuel l.name = .ok r ∧ r = ns.reverse := by
    unfold Store.stackNamesUpto at hns
    obtain ⟨r, h1, h2⟩ := Out.bind_eq_ok.1 hns
    simp only [Out.pure_eq, Out.ok.injEq] at h2
    exact ⟨r, h1, by rw [← h2]; simp⟩
  obtain ⟨r, hloop, rfl⟩ := hloop
  obtain ⟨T, d, rest, k1, k2, k3⟩ := Named.upto R st.fuel hN hl hT hloop
    (fun m hm => hR m (by simpa using hm))
  refine ⟨hne, ?_, T, d, rest, ?_, k1, ?_⟩
  · unfold safeUptoBound
    simp only [hne, if_false, hns, Out.ok_bind, Out.pure_eq, Out.ok.injEq]
    have : (l.levels.map Prod.fst).tail = tl ++ upto :: rest.map Prod.fst := by
      rw [k1, List.map_append, k2, htl]
      rfl
    rw [this]
    rw [htl] at hnot hnd'
    refine boundLoop_upto tl _ _ _ (fun h => hnot (List.mem_cons_of_mem _ h)) ⟨[l.name], ?_⟩
      (List.nodup_cons.1 hnd').2
    rw [← List.reverse_cons, ← htl, List.reverse_reverse]
  · unfold immediateLayersUpto
    simp only [hne, if_false, k1]
    exact layersUpto_upto T (by rw [k2]; exact hnot)
  · intro e he
    obtain ⟨q, hq, rfl⟩ := List.mem_map.1 he
    obtain ⟨x, S', g1, g2⟩ := k3 q hq
    have hqn : q.1 ∈ ns := by
      have : q.1 ∈ T.map Prod.fst := List.mem_map.2 ⟨q, hq, rfl⟩
      rw [k2] at this
      simpa using this
    rw [g2]
    exact hplain q.1 hqn x g1

/-- A rollup down to `upto` that has to be made succeeds when nothing above `upto` was rolled
up. -/
theorem performRollupUpto_direct (ho : Ok st) {c : Cache K V} (hc : CacheOk st c)
    {l : InternalLayer K V} (hl : LayerOk st l) (hN : Named st l) (hT : Through R l) {upto : Name}
    {ns : List Name} (hns : st.stackNamesUpto l.name upto = .ok ns) (hR : ∀ m ∈ ns, ¬ R m)
    (hplain : ∀ m ∈ ns, ∀ e, st.get? m = some e → e.data.nvMap = none ∧ e.data.pMap = none) :
    SafePrecise st l upto ∧ SafeImprecise st l upto ∧
    (l.parentName ≠ some upto → st.rollup? l.name = none →
      (∃ e, performRollupUpto st c l upto = .ok (.write e) ∧ e.parent = some upto) ∧
      (∃ e, performImpreciseRollupUpto st c l upto = .ok (.write e) ∧ e.parent = some upto)) := by
  obtain ⟨hne, hb, T, d, rest, hi, hlv, hm⟩ := upto_direct ho hl hN hT hns hR hplain
  refine ⟨?_, ?_, ?_⟩
  · intro b mem h1 h2 e he
    rw [hb] at h1
    cases h1
    rw [hi] at h2
    cases h2
    rw [(hm e he).1, (hm e he).2]
  · intro b h1
    rw [hb] at h1
    cases h1
    rfl
  intro hp hro
  obtain ⟨S, k1, k2⟩ := hl.below ho hlv
  obtain ⟨⟨ro, cs⟩, h4, h5⟩ := getLayer_total ho hc upto
  cases ro with
  | none => exact absurd (h5.2 k1.has) (by simp)
  | some u =>
    obtain ⟨S', r2, r3, r4⟩ := ((getLayer_ok ho hc h4).1 u rfl).2
    cases k1.unique r2
    have e1 : l.stack = T.map Prod.snd ++ ((upto, d) :: rest).map Prod.snd := by
      simp only [InternalLayer.stack, hlv, List.map_append]
    have a0 := hl.reachable ho
    have a1 : Alike l.stack (T.map Prod.snd ++ u.stack) := by
      unfold Reachable at a0
      rw [e1] at a0 ⊢
      exact Alike.reload a0 (k2.symm.trans r3)
    obtain ⟨Ps, Ns, hok⟩ := a1.right.good
    have hdisk : st.diskLevels upto st.fuel upto = .ok [] := by simp [fuel, diskLevels]
    constructor
    · obtain ⟨x, hx, _⟩ := Rollup.deltaRollupUpto_spec (mem := T.map Prod.snd) (disk := [])
        (S := u.stack) (by simpa using hok) (fun e he => by rw [(hm e he).1, (hm e he).2])
      refine ⟨{ parent := some upto, data := x }, ?_, rfl⟩
      simp only [performRollupUpto, performRollupUptoWith, hne, hp, if_false, hro, h4, Out.ok_bind,
        preciseDelta, hb, hdisk, hi, hx, Out.ofOption, Out.pure_eq]
    · obtain ⟨x, hx, _⟩ := Rollup.impreciseDeltaRollupUpto_spec (mem := T.map Prod.snd)
        (S := u.stack) hok
      refine ⟨{ parent := some upto, data := x }, ?_, rfl⟩
      simp only [performImpreciseRollupUpto, performRollupUptoWith, hne, hp, if_false, hro, h4,
        Out.ok_bind, impreciseDelta, hb, hi, hx, Out.ofOption, Out.pure_eq]

end Store

end Verif
