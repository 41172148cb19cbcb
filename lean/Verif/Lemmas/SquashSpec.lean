import Verif.Lemmas.SquashOk

/-!
The contents of a squashed layer.
-/

set_option linter.unusedSectionVars false
set_option linter.unusedVariables false

namespace Verif

open SimpleBuilder

variable {K V : Type} [LinearOrder K] [LinearOrder V]

theorem Res.up_append {T S : List (LayerData K V)} {Qs Ms Ps Ns : List (List Triple)}
    (h : StackOk (T ++ S) Qs Ms) (hS : StackOk S Ps Ns) {g : GTriple K V} {t : Triple}
    (hr : Res S g t) : Res (T ++ S) g t := by
  have hnv := h.nv
  have hpr := h.pr
  have hnv' : nvLevels (T ++ S) = nvLevels T ++ nvLevels S := by simp [nvLevels]
  have hpr' : pLevels (T ++ S) = pLevels T ++ pLevels S := by simp [pLevels]
  rw [hnv'] at hnv
  rw [hpr'] at hpr
  unfold Res at hr ⊢
  rw [objectId_eq hS.counts, objectId_eq hS.counts, predId_eq hS.counts] at hr
  rw [objectId_eq h.counts, objectId_eq h.counts, predId_eq h.counts, hnv', hpr']
  exact ⟨lvId_append_low hnv hr.1, lvId_append_low hpr hr.2.1, lvId_append_low hnv hr.2.2⟩

theorem Res.down_append {T S : List (LayerData K V)} {Qs Ms Ps Ns : List (List Triple)}
    (h : StackOk (T ++ S) Qs Ms) (hS : StackOk S Ps Ns) {g : GTriple K V} {t : Triple}
    (hr : Res (T ++ S) g t) (h1 : t.s ≤ Stack.nvCount S) (h2 : t.p ≤ Stack.pCount S)
    (h3 : t.o ≤ Stack.nvCount S) : Res S g t := by
  have hnv := h.nv
  have hpr := h.pr
  have hnv' : nvLevels (T ++ S) = nvLevels T ++ nvLevels S := by simp [nvLevels]
  have hpr' : pLevels (T ++ S) = pLevels T ++ pLevels S := by simp [pLevels]
  rw [hnv'] at hnv
  rw [hpr'] at hpr
  unfold Res at hr ⊢
  rw [objectId_eq h.counts, objectId_eq h.counts, predId_eq h.counts, hnv', hpr'] at hr
  rw [objectId_eq hS.counts, objectId_eq hS.counts, predId_eq hS.counts]
  rw [hS.nvCount] at h1 h3
  rw [hS.pCount] at h2
  exact ⟨lvId_append_down hnv hr.1 h1, lvId_append_down hpr hr.2.1 h2,
    lvId_append_down hnv hr.2.2 h3⟩

namespace Rollup

/-- The new levels of a squashed layer are in order. -/
theorem squash_levels {T S : List (LayerData K V)} {Qs Ms Ps Ns : List (List Triple)}
    (h : StackOk (T ++ S) Qs Ms) (hS : StackOk S Ps Ns) {ts : List Triple}
    {nodes preds : List K} {values : List V} (sn : SortedLt nodes) (sp : SortedLt preds)
    (sv : SortedLt values) (mn : ∀ k, k ∈ nodes ↔ UsedObj T S ts (.node k))
    (mv : ∀ k, k ∈ values ↔ UsedObj T S ts (.value k))
    (mp : ∀ k, k ∈ preds ↔ UsedPred T S ts k) :
    LvOk ((nodes.map Obj.node ++ values.map Obj.value, none) :: nvLevels S) ∧
    LvOk ((preds, none) :: pLevels S) ∧
    (∀ k ∈ nodes, Stack.objectId S (.node k) = some none) ∧
    (∀ k ∈ values, Stack.objectId S (.value k) = some none) ∧
    (∀ k ∈ preds, Stack.predId S k = some none) := by
  have hnv := h.nv
  have hpr := h.pr
  have hnv' : nvLevels (T ++ S) = nvLevels T ++ nvLevels S := by simp [nvLevels]
  have hpr' : pLevels (T ++ S) = pLevels T ++ pLevels S := by simp [pLevels]
  rw [hnv'] at hnv
  rw [hpr'] at hpr
  have key : ∀ o, UsedObj T S ts o → Stack.objectId S o = some none := by
    rintro o ⟨i, h1, h2, _⟩
    rw [objectId_eq h.counts, hnv'] at h1
    rw [hS.nvCount] at h2
    rw [objectId_eq hS.counts]
    rcases lvId_total hS.nv o with ⟨j, q, q1, q2, _⟩ | ⟨q, _⟩
    · have := lvId_append_low hnv q
      rw [h1] at this
      simp only [Option.some.injEq] at this
      omega
    · exact q
  have keyp : ∀ o, UsedPred T S ts o → Stack.predId S o = some none := by
    rintro o ⟨i, h1, h2, _⟩
    rw [predId_eq h.counts, hpr'] at h1
    rw [hS.pCount] at h2
    rw [predId_eq hS.counts]
    rcases lvId_total hS.pr o with ⟨j, q, q1, q2, _⟩ | ⟨q, _⟩
    · have := lvId_append_low hpr q
      rw [h1] at this
      simp only [Option.some.injEq] at this
      omega
    · exact q
  refine ⟨⟨?_, ?_, IdMapOk.none _, hS.nv⟩, ⟨sp.nodup, ?_, IdMapOk.none _, hS.pr⟩,
    fun k hk => key _ ((mn k).1 hk), fun k hk => key _ ((mv k).1 hk),
    fun k hk => keyp _ ((mp k).1 hk)⟩
  · rw [List.nodup_append]
    refine ⟨List.Nodup.map (fun a b => obj_node_inj a b) sn.nodup,
      List.Nodup.map (fun a b => obj_value_inj a b) sv.nodup, ?_⟩
    intro a ha b hb hab
    obtain ⟨k, _, rfl⟩ := List.mem_map.1 ha
    obtain ⟨v, _, rfl⟩ := List.mem_map.1 hb
    cases hab
  · intro a ha e he hae
    have hnone : Stack.objectId S a = some none := by
      rcases List.mem_append.1 ha with ha | ha
      · obtain ⟨k, hk, rfl⟩ := List.mem_map.1 ha
        exact key _ ((mn k).1 hk)
      · obtain ⟨k, hk, rfl⟩ := List.mem_map.1 ha
        exact key _ ((mv k).1 hk)
    rw [objectId_eq hS.counts] at hnone
    rcases lvId_total hS.nv a with ⟨i, q, _⟩ | ⟨_, q⟩
    · rw [hnone] at q; cases q
    · exact q ⟨e, he, hae⟩
  · intro a ha e he hae
    have hnone := keyp _ ((mp a).1 ha)
    rw [predId_eq hS.counts] at hnone
    rcases lvId_total hS.pr a with ⟨i, q, _⟩ | ⟨_, q⟩
    · rw [hnone] at q; cases q
    · exact q ⟨e, he, hae⟩

theorem newRes_inj {S : List (LayerData K V)} {nodes preds : List K} {values : List V}
    (okN : LvOk ((nodes.map Obj.node ++ values.map Obj.value, none) :: nvLevels S))
    (okP : LvOk ((preds, none) :: pLevels S)) {g g' : GTriple K V} {t : Triple}
    (h1 : NewRes S nodes preds values g t) (h2 : NewRes S nodes preds values g' t) : g = g' := by
  have e1 := lvId_inj okN h1.1 h2.1
  have e2 := lvId_inj okP h1.2.1 h2.2.1
  have e3 := lvId_inj okN h1.2.2 h2.2.2
  obtain ⟨_, _, _⟩ := g
  obtain ⟨_, _, _⟩ := g'
  simp only at e1 e2 e3
  rw [e1, e2, e3]

/-- The dictionaries of a squash together with the converted triples. -/
theorem squash_mapped {T S : List (LayerData K V)} {Qs Ms Ps Ns : List (List Triple)}
    (h : StackOk (T ++ S) Qs Ms) (hS : StackOk S Ps Ns) {ts : List Triple} (hn : ts.Nodup)
    (hp : ∀ t ∈ ts, present Qs Ms t) :
    ∃ nodes preds values nm pm ts', squashDicts (Stack.nvCount S) (Stack.pCount S)
        (T.map (·.dictLevel)) ts = some (nodes, preds, values, nm, pm) ∧
      mapTriples (Stack.nvCount S) (Stack.pCount S) nm pm ts = some ts' ∧
      SortedLt nodes ∧ SortedLt preds ∧ SortedLt values ∧
      (∀ k, k ∈ nodes ↔ UsedObj T S ts (.node k)) ∧ (∀ k, k ∈ values ↔ UsedObj T S ts (.value k)) ∧
      (∀ k, k ∈ preds ↔ UsedPred T S ts k) ∧
      SortedLt (isort ts') ∧
      (∀ t', t' ∈ isort ts' ↔ ∃ t ∈ ts, ∃ g, Res (T ++ S) g t ∧
        NewRes S nodes preds values g t') ∧
      (∀ t ∈ ts, ∀ g, Res (T ++ S) g t → ∃ t' ∈ isort ts', NewRes S nodes preds values g t') ∧
      (∀ t' ∈ isort ts', t'.Nonzero ∧ t'.s ≤ Stack.nvCount S + nodes.length + values.length ∧
        t'.p ≤ Stack.pCount S + preds.length ∧
        t'.o ≤ Stack.nvCount S + nodes.length + values.length) := by
  obtain ⟨nodes, preds, values, nm, pm, e1, sn, sp, sv, mn, mv, mp, cn, cp⟩ := squashDicts_spec h hS
    (ts := ts) (fun t ht => h.present_range (hp t ht))
  obtain ⟨okN, okP, _⟩ := squash_levels h hS sn sp sv mn mv mp
  have hmap : ∀ t ∈ ts, ∀ g, Res (T ++ S) g t → ∃ t', mapTriple (Stack.nvCount S) (Stack.pCount S)
      nm pm t = some t' ∧ NewRes S nodes preds values g t' := by
    intro t ht g hg
    obtain ⟨u1, a1, b1⟩ := cn g.s t.s hg.1 (fun _ => ⟨t, ht, Or.inl rfl⟩)
    obtain ⟨u2, a2, b2⟩ := cp g.p t.p hg.2.1 (fun _ => ⟨t, ht, rfl⟩)
    obtain ⟨u3, a3, b3⟩ := cn g.o t.o hg.2.2 (fun _ => ⟨t, ht, Or.inr rfl⟩)
    refine ⟨⟨u1, u2, u3⟩, ?_, b1, b2, b3⟩
    unfold mapTriple
    rw [a1, a2, a3]
    rfl
  have hex : ∀ t ∈ ts, ∃ g, Res (T ++ S) g t := by
    intro t ht
    have h1 := h.present_range (hp t ht)
    exact Res.exists h (h.present_nonzero (hp t ht)) h1.1 h1.2.1 h1.2.2
  obtain ⟨ts', e2, hf⟩ := mapTriples_spec (nv := Stack.nvCount S) (p := Stack.pCount S) (nm := nm)
    (pm := pm) (ts := ts) (by
      intro t ht
      obtain ⟨g, hg⟩ := hex t ht
      obtain ⟨t', ht', _⟩ := hmap t ht g hg
      exact ⟨t', ht'⟩)
  have hfm := forall₂_mem hf
  have hmem : ∀ t', t' ∈ isort ts' ↔ ∃ t ∈ ts, ∃ g, Res (T ++ S) g t ∧
      NewRes S nodes preds values g t' := by
    intro t'
    rw [mem_isort]
    constructor
    · intro ht'
      obtain ⟨t, ht, hm⟩ := hfm.2 t' ht'
      obtain ⟨g, hg⟩ := hex t ht
      obtain ⟨t'', hm', hnr⟩ := hmap t ht g hg
      rw [hm] at hm'
      cases hm'
      exact ⟨t, ht, g, hg, hnr⟩
    · rintro ⟨t, ht, g, hg, hnr⟩
      obtain ⟨t'', hm', hnr'⟩ := hmap t ht g hg
      obtain ⟨u, hu, hmu⟩ := hfm.1 t ht
      rw [hm'] at hmu
      cases hmu
      have : t' = t'' := by
        refine (Triple.eq_iff _ _).2 ⟨?_, ?_, ?_⟩
        · have := hnr.1.symm.trans hnr'.1; simpa using this
        · have := hnr.2.1.symm.trans hnr'.2.1; simpa using this
        · have := hnr.2.2.symm.trans hnr'.2.2; simpa using this
      rw [this]; exact hu
  refine ⟨nodes, preds, values, nm, pm, ts', e1, e2, sn, sp, sv, mn, mv, mp, ?_, hmem, ?_, ?_⟩
  · apply isort_sortedLt
    have := forall₂_filter_nodup (q := fun _ => true) (q' := fun _ => true) hf
      (fun _ _ _ _ _ => rfl) (by
        intro a a' b ha ha' h1 h2 _
        obtain ⟨g, hg⟩ := hex a ha
        obtain ⟨g', hg'⟩ := hex a' ha'
        obtain ⟨b1, k1, n1⟩ := hmap a ha g hg
        obtain ⟨b2, k2, n2⟩ := hmap a' ha' g' hg'
        rw [h1] at k1
        rw [h2] at k2
        cases k1
        cases k2
        have := newRes_inj okN okP n1 n2
        subst this
        exact Res.unique hg hg') (by simpa using hn)
    simpa using this
  · intro t ht g hg
    obtain ⟨t', _, hnr⟩ := hmap t ht g hg
    exact ⟨t', (hmem t').2 ⟨t, ht, g, hg, hnr⟩, hnr⟩
  · intro t' ht'
    obtain ⟨t, ht, g, hg, n⟩ := (hmem t').1 ht'
    have h1 := lvId_range okN n.1
    have h2 := lvId_range okP n.2.1
    have h3 := lvId_range okN n.2.2
    simp only [lvCount, List.length_append, List.length_map] at h1 h2 h3
    rw [← hS.nvCount] at h1 h3
    rw [← hS.pCount] at h2
    exact ⟨⟨by omega, by omega, by omega⟩, by omega, by omega, by omega⟩

/-- The layer written by `squash`. -/
theorem squash_spec {S : List (LayerData K V)} {Ps Ns : List (List Triple)} (h : StackOk S Ps Ns) :
    ∃ d P, squash S = some d ∧ StackOk [d] [P] [[]] ∧ (∀ g, content [d] g ↔ content S g) ∧
      (∀ k, k ∈ d.nodes ↔ ∃ g, content S g ∧ (g.s = .node k ∨ g.o = .node k)) ∧
      (∀ k, k ∈ d.values ↔ ∃ g, content S g ∧ (g.s = .value k ∨ g.o = .value k)) ∧
      (∀ k, k ∈ d.preds ↔ ∃ g, content S g ∧ g.p = k) := by
  have h' : StackOk (S ++ []) Ps Ns := by simpa using h
  obtain ⟨ts, t1, t2, t3⟩ := h.rep.triples h.wf
  obtain ⟨nodes, preds, values, nm, pm, ts', e1, e2, sn, sp, sv, mn, mv, mp, ss, hm, hm2, hr⟩ :=
    squash_mapped h' StackOk.nil t2.nodup (fun t ht => (t3 t).1 ht)
  have hfil : (isort ts').filter (fun t => decide t.Nonzero) = isort ts' := by
    rw [List.filter_eq_self]
    intro t ht
    simpa using (hr t ht).1
  obtain ⟨d, k1, k2, k3, k4, k5, k6⟩ := buildBase_spec sn sp sv (as := isort ts')
    (by rw [hfil]; exact ss) (by
      intro t ht
      have := (hr t ht).2
      simp only [Stack.nvCount, Stack.pCount] at this
      omega)
  rw [hfil] at k5 k6
  have hnr := fun g t => newRes_iff k6.counts k5.nvMap k5.pMap g t
  rw [k2, k3, k4] at hnr
  rw [List.append_nil] at hm hm2
  have hobj : ∀ o, UsedObj S [] ts o ↔ ∃ g, content S g ∧ (g.s = o ∨ g.o = o) := by
    intro o
    unfold UsedObj
    rw [List.append_nil]
    constructor
    · rintro ⟨i, h1, h2, t, ht, hto⟩
      have hr := h.present_range ((t3 t).1 ht)
      obtain ⟨g, hg⟩ := Res.exists h (h.present_nonzero ((t3 t).1 ht)) hr.1 hr.2.1 hr.2.2
      refine ⟨g, (content_iff h g).2 ⟨t, hg, (t3 t).1 ht⟩, ?_⟩
      rw [objectId_eq h.counts] at h1
      have hg1 := hg.1
      have hg2 := hg.2.2
      rw [objectId_eq h.counts] at hg1 hg2
      rcases hto with e | e
      · left; rw [e] at hg1; exact lvId_inj h.nv hg1 h1
      · right; rw [e] at hg2; exact lvId_inj h.nv hg2 h1
    · rintro ⟨g, hc, hgo⟩
      obtain ⟨t, hg, hpt⟩ := (content_iff h g).1 hc
      rcases hgo with rfl | rfl
      · refine ⟨t.s, hg.1, ?_, t, (t3 t).2 hpt, Or.inl rfl⟩
        exact Nat.pos_of_ne_zero (h.present_nonzero hpt).1
      · refine ⟨t.o, hg.2.2, ?_, t, (t3 t).2 hpt, Or.inr rfl⟩
        exact Nat.pos_of_ne_zero (h.present_nonzero hpt).2.2
  have hprd : ∀ o, UsedPred S [] ts o ↔ ∃ g, content S g ∧ g.p = o := by
    intro o
    unfold UsedPred
    rw [List.append_nil]
    constructor
    · rintro ⟨i, h1, h2, t, ht, hto⟩
      have hr := h.present_range ((t3 t).1 ht)
      obtain ⟨g, hg⟩ := Res.exists h (h.present_nonzero ((t3 t).1 ht)) hr.1 hr.2.1 hr.2.2
      refine ⟨g, (content_iff h g).2 ⟨t, hg, (t3 t).1 ht⟩, ?_⟩
      rw [predId_eq h.counts] at h1
      have hg1 := hg.2.1
      rw [predId_eq h.counts, hto] at hg1
      exact lvId_inj h.pr hg1 h1
    · rintro ⟨g, hc, rfl⟩
      obtain ⟨t, hg, hpt⟩ := (content_iff h g).1 hc
      exact ⟨t.p, hg.2.1, Nat.pos_of_ne_zero (h.present_nonzero hpt).2.1, t, (t3 t).2 hpt, rfl⟩
  refine ⟨d, isort ts', ?_, k6, ?_, ?_, ?_, ?_⟩
  · unfold squash
    simp only [Stack.nvCount, Stack.pCount] at e1 e2
    rw [t1]
    simp only [Option.bind_eq_bind, Option.bind_some, e1, e2, k1]
  · intro g
    rw [content_iff k6, content_iff h]
    constructor
    · rintro ⟨t', hr', hp'⟩
      have hin : t' ∈ isort ts' := by simpa [present] using hp'
      obtain ⟨t, ht, g0, hg0, hn0⟩ := (hm t').1 hin
      have := Res.inj k6 hr' ((hnr g0 t').1 hn0)
      subst this
      exact ⟨t, hg0, (t3 t).1 ht⟩
    · rintro ⟨t, hg, hpt⟩
      obtain ⟨t', ht', hn'⟩ := hm2 t ((t3 t).2 hpt) g hg
      exact ⟨t', (hnr g t').1 hn', by simp [present, ht']⟩
  · intro k; rw [k2, mn, hobj]
  · intro k; rw [k4, mv, hobj]
  · intro k; rw [k3, mp, hprd]

/-- The layer written by `squash_upto`. -/
theorem squashUpto_spec {T S : List (LayerData K V)} {Qs Ms : List (List Triple)}
    (h : StackOk (T ++ S) Qs Ms) :
    ∃ d, squashUpto (Stack.nvCount S) (Stack.pCount S) T S = some d ∧ StackGood (d :: S) ∧
      (∀ g, content (d :: S) g ↔ content (T ++ S) g) ∧
      (∀ k, k ∈ d.nodes ↔ Stack.objectId S (.node k) = some none ∧
        ∃ g, content (T ++ S) g ∧ (g.s = .node k ∨ g.o = .node k)) ∧
      (∀ k, k ∈ d.values ↔ Stack.objectId S (.value k) = some none ∧
        ∃ g, content (T ++ S) g ∧ (g.s = .value k ∨ g.o = .value k)) ∧
      (∀ k, k ∈ d.preds ↔ Stack.predId S k = some none ∧ ∃ g, content (T ++ S) g ∧ g.p = k) := by
  obtain ⟨PT, NT, Ps, Ns, rfl, rfl, hrT, hS⟩ := h.split
  obtain ⟨cs, h1, h2, h3, h4, h5⟩ := changes_net hrT hrT (fun _ => rfl) (fun _ => rfl) h.wf
  obtain ⟨nodes, preds, values, nm, pm, ts', e1, e2, sn, sp, sv, mn, mv, mp, ss, hm, hm2, hr⟩ :=
    squash_mapped h hS h2.nodup (fun t ht => ((h4 t).1 ht).1)
  obtain ⟨okN, okP, un, uv, up⟩ := squash_levels h hS sn sp sv mn mv mp
  have e3 := mapTriples_low (nm := nm) (pm := pm) (nv := Stack.nvCount S) (p := Stack.pCount S)
    (ts := removals cs) (fun t ht => hS.present_range ((h5 t).1 ht).2)
  obtain ⟨x, hx, hst, _⟩ := buildIndex_stored true (ts := isort ts') (fun t ht => (hr t ht).1) ss
  obtain ⟨y, hy, hst', _⟩ := buildIndex_stored true (ts := removals cs)
    (fun t ht => hS.present_nonzero ((h5 t).1 ht).2) h3
  let d : LayerData K V := LayerData.mk nodes preds values none none (Stack.nvCount S)
    (Stack.pCount S) x (some y)
  have hc : CountsOk (d :: S) := ⟨rfl, rfl, hS.counts⟩
  have hnr := fun g t => newRes_iff (d := d) hc rfl rfl g t
  have hnew : ∀ t ∈ isort ts', ¬ present Ps Ns t := by
    intro t' ht' hp'
    obtain ⟨t, ht, g, hg, n⟩ := (hm t').1 ht'
    have hrg := hS.present_range hp'
    have hlow : Res S g t' := by
      unfold Res
      rw [objectId_eq hS.counts, objectId_eq hS.counts, predId_eq hS.counts]
      rw [hS.nvCount, hS.pCount] at hrg
      exact ⟨lvId_append_down (T := [_]) okN n.1 hrg.1, lvId_append_down (T := [_]) okP n.2.1 hrg.2.1,
        lvId_append_down (T := [_]) okN n.2.2 hrg.2.2⟩
    have := Res.unique hg (Res.up_append h hS hlow)
    subst this
    exact ((h4 t).1 ht).2 hp'
  have hok : StackOk (d :: S) (isort ts' :: Ps) (removals cs :: Ns) := by
    refine hS.cons hst hst' hnew (fun t ht => ((h5 t).1 ht).2) ⟨rfl, rfl⟩ ⟨sn, sp, sv⟩ ?_ ?_ ?_
      (IdMapOk.none _) (IdMapOk.none _) ?_
    · intro k hk; exact objectId_none_node hS (un k hk)
    · intro k hk; exact objectId_none_value hS (uv k hk)
    · intro k hk; exact predId_none hS (up k hk)
    · intro t ht
      exact (hr t ht).2
  have hlowgt : ∀ {o i}, Stack.objectId S o = some none → Stack.objectId (T ++ S) o = some (some i) →
      Stack.nvCount S < i := by
    intro o i g1 g2
    by_contra hcon
    have hnv := h.nv
    have hnv' : nvLevels (T ++ S) = nvLevels T ++ nvLevels S := by simp [nvLevels]
    rw [hnv'] at hnv
    rw [objectId_eq h.counts, hnv'] at g2
    have := lvId_append_down hnv g2 (by rw [← hS.nvCount]; omega)
    rw [objectId_eq hS.counts, this] at g1
    cases g1
  have hlowgtp : ∀ {o i}, Stack.predId S o = some none → Stack.predId (T ++ S) o = some (some i) →
      Stack.pCount S < i := by
    intro o i g1 g2
    by_contra hcon
    have hnv := h.pr
    have hnv' : pLevels (T ++ S) = pLevels T ++ pLevels S := by simp [pLevels]
    rw [hnv'] at hnv
    rw [predId_eq h.counts, hnv'] at g2
    have := lvId_append_down hnv g2 (by rw [← hS.pCount]; omega)
    rw [predId_eq hS.counts, this] at g1
    cases g1
  have hobj : ∀ o, UsedObj T S (additions cs) o ↔ Stack.objectId S o = some none ∧
      ∃ g, content (T ++ S) g ∧ (g.s = o ∨ g.o = o) := by
    intro o
    constructor
    · intro hu
      have hnone : Stack.objectId S o = some none := by
        cases o with
        | node k => exact un k ((mn k).2 hu)
        | value k => exact uv k ((mv k).2 hu)
      obtain ⟨i, g1, g2, t, ht, hto⟩ := hu
      have hp := ((h4 t).1 ht).1
      have hr := h.present_range hp
      obtain ⟨g, hg⟩ := Res.exists h (h.present_nonzero hp) hr.1 hr.2.1 hr.2.2
      refine ⟨hnone, g, (content_iff h g).2 ⟨t, hg, hp⟩, ?_⟩
      rw [objectId_eq h.counts] at g1
      have hg1 := hg.1
      have hg2 := hg.2.2
      rw [objectId_eq h.counts] at hg1 hg2
      rcases hto with e | e
      · left; rw [e] at hg1; exact lvId_inj h.nv hg1 g1
      · right; rw [e] at hg2; exact lvId_inj h.nv hg2 g1
    · rintro ⟨hnone, g, hcn, hgo⟩
      obtain ⟨t, hg, hpt⟩ := (content_iff h g).1 hcn
      have hadd : ∀ i, Stack.objectId (T ++ S) o = some (some i) → (t.s = i ∨ t.o = i) →
          t ∈ additions cs := by
        intro i hi hti
        refine (h4 t).2 ⟨hpt, fun hps => ?_⟩
        have hr := hS.present_range hps
        have := hlowgt hnone hi
        omega
      rcases hgo with rfl | rfl
      · exact ⟨t.s, hg.1, hlowgt hnone hg.1, t, hadd _ hg.1 (Or.inl rfl), Or.inl rfl⟩
      · exact ⟨t.o, hg.2.2, hlowgt hnone hg.2.2, t, hadd _ hg.2.2 (Or.inr rfl), Or.inr rfl⟩
  have hprd : ∀ o, UsedPred T S (additions cs) o ↔ Stack.predId S o = some none ∧
      ∃ g, content (T ++ S) g ∧ g.p = o := by
    intro o
    constructor
    · intro hu
      have hnone := up o ((mp o).2 hu)
      obtain ⟨i, g1, g2, t, ht, hto⟩ := hu
      have hp := ((h4 t).1 ht).1
      have hr := h.present_range hp
      obtain ⟨g, hg⟩ := Res.exists h (h.present_nonzero hp) hr.1 hr.2.1 hr.2.2
      refine ⟨hnone, g, (content_iff h g).2 ⟨t, hg, hp⟩, ?_⟩
      rw [predId_eq h.counts] at g1
      have hg1 := hg.2.1
      rw [predId_eq h.counts, hto] at hg1
      exact lvId_inj h.pr hg1 g1
    · rintro ⟨hnone, g, hcn, rfl⟩
      obtain ⟨t, hg, hpt⟩ := (content_iff h g).1 hcn
      have := hlowgtp hnone hg.2.1
      refine ⟨t.p, hg.2.1, this, t, (h4 t).2 ⟨hpt, fun hps => ?_⟩, rfl⟩
      have hr := hS.present_range hps
      omega
  refine ⟨d, ?_, ⟨_, _, hok⟩, ?_, ?_, ?_, ?_⟩
  · unfold squashUpto
    rw [h1]
    simp only [Option.bind_eq_bind, Option.bind_some, e1, e2, e3, dictBuild_sorted sn,
      dictBuild_sorted sp, dictBuild_sorted sv, hx, isort_eq_of_sorted h3, hy]
    rfl
  · intro g
    rw [content_iff hok, content_iff h]
    simp only [present]
    constructor
    · rintro ⟨t', hr', hp' | ⟨hn', hp'⟩⟩
      · obtain ⟨t, ht, g0, hg0, hn0⟩ := (hm t').1 hp'
        have := Res.inj hok hr' ((hnr g0 t').1 hn0)
        subst this
        exact ⟨t, hg0, ((h4 t).1 ht).1⟩
      · have hrg := hS.present_range hp'
        have hlow := Res.down hS hok hr' hrg.1 hrg.2.1 hrg.2.2
        refine ⟨t', Res.up_append h hS hlow, ?_⟩
        by_contra hcon
        exact hn' ((h5 t').2 ⟨hcon, hp'⟩)
    · rintro ⟨t, hg, hpt⟩
      by_cases hps : present Ps Ns t
      · have hrg := hS.present_range hps
        have hlow := Res.down_append h hS hg hrg.1 hrg.2.1 hrg.2.2
        exact ⟨t, Res.up hS hok hlow, Or.inr ⟨fun hh => ((h5 t).1 hh).1 hpt, hps⟩⟩
      · obtain ⟨t', ht', hn'⟩ := hm2 t ((h4 t).2 ⟨hpt, hps⟩) g hg
        exact ⟨t', (hnr g t').1 hn', Or.inl ht'⟩
  · intro k; show k ∈ nodes ↔ _; rw [mn, hobj]
  · intro k; show k ∈ values ↔ _; rw [mv, hobj]
  · intro k; show k ∈ preds ↔ _; rw [mp, hprd]

end Rollup

end Verif
