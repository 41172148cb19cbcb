import Verif.Lemmas.Prepare

/-!
The layer written by a commit.
-/

set_option linter.unusedSectionVars false
set_option linter.unusedVariables false

namespace Verif

open SimpleBuilder

variable {K V : Type} [LinearOrder K] [LinearOrder V]

/-- The triple structures of `d` are those written for `P` and `N`; there are removals
exactly when there is a parent. -/
structure Written (S : List (LayerData K V)) (d : LayerData K V) (P N : List Triple) : Prop where
  pos : buildIndex (!S.isEmpty) P = some d.pos
  neg : d.neg = if S.isEmpty then none else buildIndex true N
  nvMap : d.nvMap = none
  pMap : d.pMap = none
  parentNV : d.parentNV = Stack.nvCount S
  parentP : d.parentP = Stack.pCount S

theorem objectId_none_node {S : List (LayerData K V)} {Ps Ns : List (List Triple)}
    (hS : StackOk S Ps Ns) {k : K} (h : Stack.objectId S (.node k) = some none) :
    ∀ e ∈ S, k ∉ e.nodes := by
  intro e he hk
  rw [objectId_eq hS.counts] at h
  rcases lvId_total hS.nv (.node k) with ⟨i, q, _⟩ | ⟨_, q⟩
  · rw [h] at q; cases q
  · exact q ⟨(e.objs, e.nvMap), List.mem_map.2 ⟨e, he, rfl⟩, by simp [LayerData.objs, hk]⟩

theorem objectId_none_value {S : List (LayerData K V)} {Ps Ns : List (List Triple)}
    (hS : StackOk S Ps Ns) {k : V} (h : Stack.objectId S (.value k) = some none) :
    ∀ e ∈ S, k ∉ e.values := by
  intro e he hk
  rw [objectId_eq hS.counts] at h
  rcases lvId_total hS.nv (.value k) with ⟨i, q, _⟩ | ⟨_, q⟩
  · rw [h] at q; cases q
  · exact q ⟨(e.objs, e.nvMap), List.mem_map.2 ⟨e, he, rfl⟩, by simp [LayerData.objs, hk]⟩

theorem predId_none {S : List (LayerData K V)} {Ps Ns : List (List Triple)}
    (hS : StackOk S Ps Ns) {k : K} (h : Stack.predId S k = some none) :
    ∀ e ∈ S, k ∉ e.preds := by
  intro e he hk
  rw [predId_eq hS.counts] at h
  rcases lvId_total hS.pr k with ⟨i, q, _⟩ | ⟨_, q⟩
  · rw [h] at q; cases q
  · exact q ⟨(e.preds, e.pMap), List.mem_map.2 ⟨e, he, rfl⟩, hk⟩

/-- The file builder of a base layer. -/
theorem buildBase_spec {nodes preds : List K} {values : List V} {as : List Triple}
    (hn : SortedLt nodes) (hp : SortedLt preds) (hv : SortedLt values)
    (has : SortedLt (as.filter (fun t => decide t.Nonzero)))
    (hr : ∀ t ∈ as, t.s ≤ nodes.length + values.length ∧ t.p ≤ preds.length ∧
      t.o ≤ nodes.length + values.length) :
    ∃ d, buildBase nodes preds values as = some d ∧ d.nodes = nodes ∧ d.preds = preds ∧
      d.values = values ∧ Written [] d (as.filter (fun t => decide t.Nonzero)) [] ∧
      StackOk [d] [as.filter (fun t => decide t.Nonzero)] [[]] := by
  obtain ⟨x, hx, hst, _⟩ := buildIndex_stored false (ts := as.filter (fun t => decide t.Nonzero))
    (by intro t ht; simpa using (List.mem_filter.1 ht).2) has
  have hx' := hx
  rw [← buildIndex_filter] at hx'
  refine ⟨{ nodes := nodes, preds := preds, values := values, pos := x }, ?_, rfl, rfl, rfl, ?_, ?_⟩
  · unfold buildBase dictBuild
    have e1 : nodes.Pairwise (· < ·) := hn
    have e2 : preds.Pairwise (· < ·) := hp
    have e3 : values.Pairwise (· < ·) := hv
    simp only [e1, e2, e3, if_true, hx', Option.bind_eq_bind, Option.bind_some]
    rfl
  · exact ⟨hx, rfl, rfl, rfl, rfl, rfl⟩
  · refine StackOk.cons StackOk.nil hst (N := []) (by simp [NegStored]) (by simp [present]) (by simp)
      ⟨rfl, rfl⟩ ⟨hn, hp, hv⟩ (by simp) (by simp) (by simp) (IdMapOk.none _) (IdMapOk.none _) ?_
    intro t ht
    have := hr t (List.mem_filter.1 ht).1
    simp only [Stack.nvCount, Stack.pCount]
    omega

/-- The file builder of a child layer. -/
theorem buildChild_spec {S : List (LayerData K V)} {Ps Ns : List (List Triple)}
    (hS : StackOk S Ps Ns) (hne : S ≠ [])
    {nodes preds : List K} {values : List V} {as rs : List Triple}
    (hn : SortedLt nodes) (hp : SortedLt preds) (hv : SortedLt values)
    (hn' : ∀ k ∈ nodes, Stack.objectId S (.node k) = some none)
    (hp' : ∀ k ∈ preds, Stack.predId S k = some none)
    (hv' : ∀ k ∈ values, Stack.objectId S (.value k) = some none)
    (has : SortedLt (as.filter (fun t => decide t.Nonzero)))
    (hrs : SortedLt (rs.filter (fun t => decide t.Nonzero)))
    (hr : ∀ t ∈ as, t.Nonzero → t.s ≤ Stack.nvCount S + nodes.length + values.length ∧
      t.p ≤ Stack.pCount S + preds.length ∧ t.o ≤ Stack.nvCount S + nodes.length + values.length) :
    ∃ d P N, buildChild S nodes preds values as rs = some d ∧ d.nodes = nodes ∧ d.preds = preds ∧
      d.values = values ∧ Written S d P N ∧ StackOk (d :: S) (P :: Ps) (N :: Ns) ∧
      (∀ t, t ∈ P ↔ t ∈ as ∧ t.Nonzero ∧ ¬ present Ps Ns t) ∧
      (∀ t, t ∈ N ↔ t ∈ rs ∧ t.Nonzero ∧ present Ps Ns t) := by
  classical
  have hex : ∀ t, Stack.tripleExists S t = some (decide (present Ps Ns t)) := by
    intro t
    obtain ⟨b, h1, h2⟩ := hS.exists_total t
    rw [h1]
    cases b with
    | true => simp [h2.1 rfl]
    | false =>
      have : ¬ present Ps Ns t := fun h => by simpa using h2.2 h
      simp [this]
  let P := (as.filter (fun t => !decide (present Ps Ns t))).filter (fun t => decide t.Nonzero)
  let N := (rs.filter (fun t => decide (present Ps Ns t))).filter (fun t => decide t.Nonzero)
  have hPs : SortedLt P := by
    have := has.filter (fun t => !decide (present Ps Ns t))
    simp only [P]
    rw [List.filter_filter] at this ⊢
    simp only [Bool.and_comm] at this ⊢
    exact this
  have hNs : SortedLt N := by
    have := hrs.filter (fun t => decide (present Ps Ns t))
    simp only [N]
    rw [List.filter_filter] at this ⊢
    simp only [Bool.and_comm] at this ⊢
    exact this
  have hPmem : ∀ t, t ∈ P ↔ t ∈ as ∧ t.Nonzero ∧ ¬ present Ps Ns t := by
    intro t
    simp only [P, List.mem_filter, Bool.not_eq_true', decide_eq_false_iff_not, decide_eq_true_eq]
    tauto
  have hNmem : ∀ t, t ∈ N ↔ t ∈ rs ∧ t.Nonzero ∧ present Ps Ns t := by
    intro t
    simp only [N, List.mem_filter, decide_eq_true_eq]
    tauto
  obtain ⟨x, hx, hxs, _⟩ := buildIndex_stored true (ts := P) (fun t ht => ((hPmem t).1 ht).2.1) hPs
  obtain ⟨y, hy, hys, _⟩ := buildIndex_stored true (ts := N) (fun t ht => ((hNmem t).1 ht).2.1) hNs
  have hx' := hx
  have hy' := hy
  simp only [P] at hx'
  simp only [N] at hy'
  rw [← buildIndex_filter] at hx' hy'
  have f1 : filterM' (fun k => (Stack.nodeId S k).map Option.isNone) nodes = some nodes := by
    rw [filterM'_spec (g := fun _ => true)]
    · rw [List.filter_eq_self.2]; simp
    · intro k hk
      have := hn' k hk
      simp only [Stack.objectId] at this
      rw [this]; rfl
  have f2 : filterM' (fun k => (Stack.predId S k).map Option.isNone) preds = some preds := by
    rw [filterM'_spec (g := fun _ => true)]
    · rw [List.filter_eq_self.2]; simp
    · intro k hk
      rw [hp' k hk]; rfl
  have f3 : filterM' (fun k => (Stack.valueId S k).map Option.isNone) values = some values := by
    rw [filterM'_spec (g := fun _ => true)]
    · rw [List.filter_eq_self.2]; simp
    · intro k hk
      have := hv' k hk
      simp only [Stack.objectId] at this
      rw [this]; rfl
  have f4 : filterM' (fun t => (Stack.tripleExists S t).map (fun b => !b)) as =
      some (as.filter (fun t => !decide (present Ps Ns t))) := by
    apply filterM'_spec
    intro t _
    rw [hex]; rfl
  have f5 : filterM' (fun t => Stack.tripleExists S t) rs =
      some (rs.filter (fun t => decide (present Ps Ns t))) := by
    apply filterM'_spec
    intro t _
    exact hex t
  refine ⟨LayerData.mk nodes preds values none none (Stack.nvCount S) (Stack.pCount S) x (some y),
    P, N, ?_, rfl, rfl, rfl, ?_, ?_, hPmem, hNmem⟩
  · unfold buildChild dictBuild
    have e1 : nodes.Pairwise (· < ·) := hn
    have e2 : preds.Pairwise (· < ·) := hp
    have e3 : values.Pairwise (· < ·) := hv
    simp only [f1, f2, f3, f4, f5, e1, e2, e3, if_true, hx', hy', Option.bind_eq_bind,
      Option.bind_some]
    rfl
  · have : S.isEmpty = false := by cases S with
      | nil => exact absurd rfl hne
      | cons _ _ => rfl
    exact ⟨by rw [this]; exact hx, by rw [this]; simp [hy], rfl, rfl, rfl, rfl⟩
  · refine hS.cons hxs hys (fun t ht => ((hPmem t).1 ht).2.2) (fun t ht => ((hNmem t).1 ht).2.2)
      ⟨rfl, rfl⟩ ⟨hn, hp, hv⟩ ?_ ?_ ?_ (IdMapOk.none _) (IdMapOk.none _) ?_
    · intro k hk; exact objectId_none_node hS (hn' k hk)
    · intro k hk; exact objectId_none_value hS (hv' k hk)
    · intro k hk; exact predId_none hS (hp' k hk)
    · intro t ht
      have h1 := (hPmem t).1 ht
      have := hr t h1.1 h1.2.1
      simp only [Stack.nvCount, Stack.pCount] at this ⊢
      omega

/-- What a commit writes: the new layer fits on its parent, holds exactly the wanted
additions that were absent and the wanted removals that were present, and its
dictionaries hold exactly the new entries of additions that were not cancelled. -/
structure Committed (S : List (LayerData K V)) (Ps Ns : List (List Triple))
    (A R : GTriple K V → Prop) (d : LayerData K V) (P N : List Triple) : Prop where
  ok : StackOk (d :: S) (P :: Ps) (N :: Ns)
  written : Written S d P N
  nodes : ∀ k, k ∈ d.nodes ↔ NewNV S A R (.node k)
  values : ∀ v, v ∈ d.values ↔ NewNV S A R (.value v)
  preds : ∀ p, p ∈ d.preds ↔ NewP S A R p
  pos : ∀ t, t ∈ P ↔ ∃ g, A g ∧ ¬ R g ∧ Res (d :: S) g t ∧ ¬ present Ps Ns t
  neg : ∀ t, t ∈ N ↔ ∃ g, R g ∧ ¬ A g ∧ Res S g t ∧ present Ps Ns t

theorem newRes_iff {S : List (LayerData K V)} {d : LayerData K V} (hc : CountsOk (d :: S))
    (hm : d.nvMap = none) (hpm : d.pMap = none) (g : GTriple K V) (t : Triple) :
    NewRes S d.nodes d.preds d.values g t ↔ Res (d :: S) g t := by
  unfold NewRes Res
  rw [objectId_eq hc, predId_eq hc, objectId_eq hc]
  simp only [nvLevels, pLevels, List.map_cons, hm, hpm, LayerData.objs]

theorem BldInv.commit {S : List (LayerData K V)} {Ps Ns : List (List Triple)}
    (hS : StackOk S Ps Ns) {b : SimpleBuilder K V} {A R : GTriple K V → Prop} (h : BldInv S b A R)
    {nv : List (Obj K V × Nat)} {pm : List (K × Nat)} (hnv : nv.Perm b.nvMap)
    (hpm : pm.Perm b.pMap) :
    ∃ d P N, b.commitWith nv pm = some d ∧ Committed S Ps Ns A R d P N := by
  obtain ⟨nodes, preds, values, as, rs, hprep, hn, hp, hv, mn, mv, mp, has, hrs, mas, mrs⟩ :=
    h.prepare hS hnv hpm
  have okNV : LvOk ((nodes.map Obj.node ++ values.map Obj.value, none) :: nvLevels S) := by
    refine ⟨?_, ?_, IdMapOk.none _, hS.nv⟩
    · rw [List.nodup_append]
      refine ⟨List.Nodup.map (fun a b => obj_node_inj a b) hn.nodup,
        List.Nodup.map (fun a b => obj_value_inj a b) hv.nodup, ?_⟩
      intro a ha b hb hab
      obtain ⟨k, _, rfl⟩ := List.mem_map.1 ha
      obtain ⟨v, _, rfl⟩ := List.mem_map.1 hb
      cases hab
    · intro a ha e he hae
      have hnone : Stack.objectId S a = some none := by
        rcases List.mem_append.1 ha with ha | ha
        · obtain ⟨k, hk, rfl⟩ := List.mem_map.1 ha
          exact ((mn k).1 hk).1
        · obtain ⟨k, hk, rfl⟩ := List.mem_map.1 ha
          exact ((mv k).1 hk).1
      rw [objectId_eq hS.counts] at hnone
      rcases lvId_total hS.nv a with ⟨i, q, _⟩ | ⟨_, q⟩
      · rw [hnone] at q; cases q
      · exact q ⟨e, he, hae⟩
  have okP : LvOk ((preds, none) :: pLevels S) := by
    refine ⟨hp.nodup, ?_, IdMapOk.none _, hS.pr⟩
    intro a ha e he hae
    have hnone := ((mp a).1 ha).1
    rw [predId_eq hS.counts] at hnone
    rcases lvId_total hS.pr a with ⟨i, q, _⟩ | ⟨_, q⟩
    · rw [hnone] at q; cases q
    · exact q ⟨e, he, hae⟩
  have hr : ∀ t ∈ as, t.Nonzero → t.s ≤ Stack.nvCount S + nodes.length + values.length ∧
      t.p ≤ Stack.pCount S + preds.length ∧ t.o ≤ Stack.nvCount S + nodes.length + values.length := by
    intro t ht hz
    obtain ⟨g, _, _, n⟩ := (mas t hz).1 ht
    have h1 := lvId_range okNV n.1
    have h2 := lvId_range okP n.2.1
    have h3 := lvId_range okNV n.2.2
    simp only [lvCount, List.length_append, List.length_map] at h1 h2 h3
    rw [← hS.nvCount] at h1 h3
    rw [← hS.pCount] at h2
    omega
  cases S with
  | nil =>
    cases hS.rep
    -- every addition is in range, also those with a zero
    have hlowbase : ∃ d, buildBase nodes preds values as = some d ∧ d.nodes = nodes ∧
        d.preds = preds ∧ d.values = values ∧
        Written [] d (as.filter (fun t => decide t.Nonzero)) [] ∧
        StackOk [d] [as.filter (fun t => decide t.Nonzero)] [[]] := by
      obtain ⟨d, e1, e2, e3, e4, e5, e6⟩ := buildBase_spec hn hp hv
        (as := as.filter (fun t => decide t.Nonzero)) (by
          rw [List.filter_filter]; simpa using has) (by
          intro t ht
          obtain ⟨ht1, ht2⟩ := List.mem_filter.1 ht
          have := hr t ht1 (by simpa using ht2)
          simp only [Stack.nvCount, Stack.pCount] at this
          omega)
      rw [List.filter_filter] at e5 e6
      simp only [Bool.and_self] at e5 e6
      refine ⟨d, ?_, e2, e3, e4, e5, e6⟩
      rw [← e1]
      unfold buildBase
      rw [buildIndex_filter false as]
    obtain ⟨d, e1, e2, e3, e4, e5, e6⟩ := hlowbase
    refine ⟨d, _, _, ?_, e6, e5, ?_, ?_, ?_, ?_, ?_⟩
    · unfold SimpleBuilder.commitWith
      simp only [hprep, Option.bind_eq_bind, Option.bind_some, h.parent, e1]
    · rw [e2]; exact mn
    · rw [e4]; exact mv
    · rw [e3]; exact mp
    · intro t
      have hnr := fun g => newRes_iff e6.counts e5.nvMap e5.pMap g t
      rw [e2, e3, e4] at hnr
      simp only [List.mem_filter, decide_eq_true_eq]
      constructor
      · rintro ⟨ht, hz⟩
        obtain ⟨g, hA, hR, n⟩ := (mas t hz).1 ht
        exact ⟨g, hA, hR, (hnr g).1 n, by simp [present]⟩
      · rintro ⟨g, hA, hR, n, _⟩
        have hz := (Res.range e6 n).1
        exact ⟨(mas t hz).2 ⟨g, hA, hR, (hnr g).2 n⟩, hz⟩
    · intro t
      simp [present]
  | cons e S =>
    obtain ⟨d, P, N, e1, e2, e3, e4, e5, e6, e7, e8⟩ := buildChild_spec hS (by simp) hn hp hv
      (fun k hk => ((mn k).1 hk).1) (fun k hk => ((mp k).1 hk).1) (fun k hk => ((mv k).1 hk).1)
      has hrs hr
    refine ⟨d, P, N, ?_, e6, e5, ?_, ?_, ?_, ?_, ?_⟩
    · unfold SimpleBuilder.commitWith
      simp only [hprep, Option.bind_eq_bind, Option.bind_some, h.parent, e1]
    · rw [e2]; exact mn
    · rw [e4]; exact mv
    · rw [e3]; exact mp
    · intro t
      have hnr := fun g => newRes_iff e6.counts e5.nvMap e5.pMap g t
      rw [e2, e3, e4] at hnr
      rw [e7]
      constructor
      · rintro ⟨ht, hz, hnp⟩
        obtain ⟨g, hA, hR, n⟩ := (mas t hz).1 ht
        exact ⟨g, hA, hR, (hnr g).1 n, hnp⟩
      · rintro ⟨g, hA, hR, n, hnp⟩
        have hz := (Res.range e6 n).1
        exact ⟨(mas t hz).2 ⟨g, hA, hR, (hnr g).2 n⟩, hz, hnp⟩
    · intro t
      rw [e8]
      constructor
      · rintro ⟨ht, hz, hnp⟩
        obtain ⟨g, hR, hA, n⟩ := (mrs t hz).1 ht
        exact ⟨g, hR, hA, n, hnp⟩
      · rintro ⟨g, hR, hA, n, hnp⟩
        have hz := (Res.range hS n).1
        exact ⟨(mrs t hz).2 ⟨g, hR, hA, n⟩, hz, hnp⟩

/-- The new entries of a wanted addition have ids in the new layer. -/
theorem Committed.res {S : List (LayerData K V)} {Ps Ns : List (List Triple)}
    {A R : GTriple K V → Prop} {d : LayerData K V} {P N : List Triple} (hS : StackOk S Ps Ns)
    (h : Committed S Ps Ns A R d P N) {g : GTriple K V} (hA : A g) (hR : ¬ R g) :
    ∃ t, Res (d :: S) g t := by
  have key : ∀ o, (g.s = o ∨ g.o = o) → ∃ i, Stack.objectId (d :: S) o = some (some i) := by
    intro o ho
    rw [objectId_eq h.ok.counts]
    rcases lvId_total h.ok.nv o with ⟨i, q, _⟩ | ⟨_, q⟩
    · exact ⟨i, q⟩
    · exfalso
      rcases lvId_total hS.nv o with ⟨i, q1, _, _, e, he, hm⟩ | ⟨q1, _⟩
      · exact q ⟨e, by
          show e ∈ (d.objs, d.nvMap) :: nvLevels S
          simp [he], hm⟩
      · rw [← objectId_eq hS.counts] at q1
        apply q
        refine ⟨(d.objs, d.nvMap), by simp [nvLevels], ?_⟩
        cases o with
        | node k =>
          have := (h.nodes k).2 ⟨q1, g, hA, hR, ho⟩
          simp [LayerData.objs, this]
        | value k =>
          have := (h.values k).2 ⟨q1, g, hA, hR, ho⟩
          simp [LayerData.objs, this]
  have keyp : ∃ i, Stack.predId (d :: S) g.p = some (some i) := by
    rw [predId_eq h.ok.counts]
    rcases lvId_total h.ok.pr g.p with ⟨i, q, _⟩ | ⟨_, q⟩
    · exact ⟨i, q⟩
    · exfalso
      rcases lvId_total hS.pr g.p with ⟨i, q1, _, _, e, he, hm⟩ | ⟨q1, _⟩
      · exact q ⟨e, by
          show e ∈ (d.preds, d.pMap) :: pLevels S
          simp [he], hm⟩
      · rw [← predId_eq hS.counts] at q1
        apply q
        exact ⟨(d.preds, d.pMap), by simp [pLevels], (h.preds g.p).2 ⟨q1, g, hA, hR, rfl⟩⟩
  obtain ⟨i, hi⟩ := key g.s (Or.inl rfl)
  obtain ⟨j, hj⟩ := key g.o (Or.inr rfl)
  obtain ⟨q, hq⟩ := keyp
  exact ⟨⟨i, q, j⟩, hi, hq, hj⟩

/-- The contents after a commit. -/
theorem Committed.content {S : List (LayerData K V)} {Ps Ns : List (List Triple)}
    {A R : GTriple K V → Prop} {d : LayerData K V} {P N : List Triple} (hS : StackOk S Ps Ns)
    (h : Committed S Ps Ns A R d P N) (g : GTriple K V) :
    content (d :: S) g ↔ (A g ∧ ¬ R g) ∨ (content S g ∧ ¬ (R g ∧ ¬ A g)) := by
  rw [content_iff h.ok, content_iff hS]
  simp only [present]
  constructor
  · rintro ⟨t, hr, hP | ⟨hN, hp⟩⟩
    · obtain ⟨g', hA, hR, hr', _⟩ := (h.pos t).1 hP
      have := Res.inj h.ok hr hr'
      subst this
      exact Or.inl ⟨hA, hR⟩
    · right
      have hrange := hS.present_range hp
      have hres := Res.down hS h.ok hr hrange.1 hrange.2.1 hrange.2.2
      refine ⟨⟨t, hres, hp⟩, ?_⟩
      rintro ⟨hR, hA⟩
      exact hN ((h.neg t).2 ⟨g, hR, hA, hres, hp⟩)
  · rintro (⟨hA, hR⟩ | ⟨⟨t, hres, hp⟩, hn⟩)
    · obtain ⟨t, ht⟩ := h.res hS hA hR
      refine ⟨t, ht, ?_⟩
      by_cases hp : present Ps Ns t
      · right
        refine ⟨?_, hp⟩
        intro hN
        obtain ⟨g', hR', hA', hr', _⟩ := (h.neg t).1 hN
        have := Res.inj h.ok ht (Res.up hS h.ok hr')
        subst this
        exact hA' hA
      · exact Or.inl ((h.pos t).2 ⟨g, hA, hR, ht, hp⟩)
    · refine ⟨t, Res.up hS h.ok hres, Or.inr ⟨?_, hp⟩⟩
      intro hN
      obtain ⟨g', hR', hA', hr', _⟩ := (h.neg t).1 hN
      have := Res.inj hS hres hr'
      subst this
      exact hn ⟨hR', hA'⟩

/-- A commit is determined by the sets asked for. -/
theorem Committed.unique {S : List (LayerData K V)} {Ps Ns : List (List Triple)}
    {A R A' R' : GTriple K V → Prop} {d d' : LayerData K V} {P N P' N' : List Triple}
    (h : Committed S Ps Ns A R d P N) (h' : Committed S Ps Ns A' R' d' P' N')
    (ha : ∀ g, (A g ∧ ¬ R g) ↔ (A' g ∧ ¬ R' g)) (hr : ∀ g, (R g ∧ ¬ A g) ↔ (R' g ∧ ¬ A' g)) :
    d = d' := by
  have hnv : ∀ o, NewNV S A R o ↔ NewNV S A' R' o := by
    intro o
    unfold NewNV
    simp only [← and_assoc, ha]
  have hnp : ∀ o, NewP S A R o ↔ NewP S A' R' o := by
    intro o
    unfold NewP
    simp only [← and_assoc, ha]
  have hs := h.ok.sorted d (by simp)
  have hs' := h'.ok.sorted d' (by simp)
  have e1 : d.nodes = d'.nodes := SortedLt.ext hs.1 hs'.1 (fun k => by rw [h.nodes, h'.nodes, hnv])
  have e2 : d.preds = d'.preds := SortedLt.ext hs.2.1 hs'.2.1 (fun k => by rw [h.preds, h'.preds, hnp])
  have e3 : d.values = d'.values :=
    SortedLt.ext hs.2.2 hs'.2.2 (fun k => by rw [h.values, h'.values, hnv])
  have hres : ∀ g t, Res (d :: S) g t ↔ Res (d' :: S) g t := by
    intro g t
    rw [← newRes_iff h.ok.counts h.written.nvMap h.written.pMap,
      ← newRes_iff h'.ok.counts h'.written.nvMap h'.written.pMap, e1, e2, e3]
  have hP : P = P' := by
    refine SortedLt.ext (h.ok.rep.sortedP P (by simp)) (h'.ok.rep.sortedP P' (by simp)) ?_
    intro t
    rw [h.pos, h'.pos]
    simp only [hres, ← and_assoc, ha]
  have hN : N = N' := by
    refine SortedLt.ext (h.ok.rep.sortedN N (by simp)) (h'.ok.rep.sortedN N' (by simp)) ?_
    intro t
    rw [h.neg, h'.neg]
    simp only [← and_assoc, hr]
  subst hP hN
  have w := h.written
  have w' := h'.written
  have e4 : d.pos = d'.pos := by
    have := w.pos
    rw [w'.pos] at this
    simpa using this.symm
  have e5 : d.neg = d'.neg := by rw [w.neg, w'.neg]
  have e6 := w.nvMap.trans w'.nvMap.symm
  have e7 := w.pMap.trans w'.pMap.symm
  have e8 := w.parentNV.trans w'.parentNV.symm
  have e9 := w.parentP.trans w'.parentP.symm
  cases d
  cases d'
  simp only at e1 e2 e3 e4 e5 e6 e7 e8 e9
  subst e1 e2 e3 e4 e5 e6 e7 e8 e9
  rfl

end Verif
