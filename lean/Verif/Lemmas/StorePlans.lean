import Verif.Lemmas.StoreOps

/-!
Rollups and squashes: what they are going to write fits the store.
-/

set_option linter.unusedSectionVars false
set_option linter.unusedVariables false

namespace Verif

variable {K V : Type} [LinearOrder K] [LinearOrder V]

theorem Reachable.onTop {d : LayerData K V} {S : List (LayerData K V)} (h : Reachable (d :: S)) :
    d.onTop S = d := by
  obtain ⟨Ps, Ns, hk⟩ := h.good
  exact LayerData.onTop_self ⟨hk.counts.1, hk.counts.2.1⟩

namespace Store

variable {st st' : Store K V}

/-- What the plan of a rollup of the layer `n` has to satisfy; `rolled` are the rollups that were
made. -/
def RollupPlan (rolled : Name → Name → Prop) (st : Store K V) (n : Name) : Plan K V → Prop
  | .existing r => AlikeN st n r ∧ (n = r ∨ (st.index n < st.index r ∧ rolled n r))
  | .write e => Fit st e ∧ ∃ S R, Raw st n S ∧ Below st e R ∧ Alike S (e.data :: R) ∧
      R.length + 1 ≤ S.length

/-- A new layer on top of a loaded layer. -/
theorem Stands.fit {p : Name} {pl : InternalLayer K V} (hs : Stands st p pl) {d : LayerData K V}
    (hr : Reachable (d :: pl.stack)) : Fit st { parent := some p, data := d } := by
  obtain ⟨R, h1, h2, _⟩ := hs
  have : Reachable (d :: R) := (Alike.reload (T := [d]) hr h2.symm).right
  exact ⟨rfl, R, h1, this.onTop, this⟩

theorem fit_base {d : LayerData K V} (hr : Reachable [d]) :
    Fit st { parent := none, data := d } :=
  ⟨rfl, [], rfl, hr.onTop, hr⟩

/-- What tasks have seen: earlier states of the files, and layers that were loaded from them. -/
structure ViewsOk (rolled : Name → Name → Prop) (st : Store K V) (v : Nat → View K V) : Prop where
  ok : ∀ t, Ok (v t).store ∧ CacheOk (v t).store (v t).cache ∧ Ext (v t).store st
  mono : ∀ t, Ext (v t).store (v (t + 1)).store
  index : ∀ t n, (v t).store.has n = true → st.index n = (v t).store.index n
  rolled : ∀ t n r, (v t).store.rollup? n = some r → rolled n r

/-- A rollup that was registered at an earlier moment. -/
theorem ViewsOk.existing {rolled : Name → Name → Prop} {v : Nat → View K V}
    (h : ViewsOk rolled st v) {t : Nat} {n r : Name} (hr : (v t).store.rollup? n = some r) :
    RollupPlan rolled st n (.existing r) := by
  obtain ⟨h1, _, h3⟩ := h.ok t
  have ha := h1.rollup hr
  refine ⟨ha.ext h3, .inr ⟨?_, h.rolled t n r hr⟩⟩
  obtain ⟨S, R, hS, hR, _⟩ := ha
  rw [h.index t n hS.has, h.index t r hR.has]
  exact h1.order hr

theorem performRollupView_ok (ho : Ok st) {rolled : Name → Name → Prop} {v : Nat → View K V}
    (hv : ViewsOk rolled st v) {l : InternalLayer K V} (hl : LayerOk st l) {pl : Plan K V}
    (h : performRollupView v l = .ok pl) : RollupPlan rolled st l.name pl := by
  obtain ⟨S, hS, ha, hlen⟩ := hl.stands ho
  have hself : AlikeN st l.name l.name := AlikeN.self ho hS.has
  have hw : ∀ pl, (do
      let d ← Out.ofOption (Rollup.deltaRollup l.stack)
      return (Plan.write { parent := none, data := d } : Plan K V)) = Out.ok pl →
      RollupPlan rolled st l.name pl := by
    intro pl h
    obtain ⟨d, h1, h2⟩ := Out.bind_eq_ok.1 h
    simp only [Out.pure_eq, Out.ok.injEq] at h2
    subst h2
    have h3 := Alike.rollup ha.right (Out.ofOption_ok.1 h1)
    exact ⟨fit_base h3.right, S, [], hS, rfl, ha.trans h3, hS.length_pos⟩
  unfold performRollupView at h
  cases hp : l.parentName with
  | none =>
    simp only [hp, Out.ok.injEq] at h
    subst h
    exact ⟨hself, Or.inl rfl⟩
  | some p =>
    simp only [hp] at h
    split at h
    · split at h
      · cases h
      · rename_i r hr
        split at h
        · simp only [Out.ok.injEq] at h
          subst h
          exact hv.existing hr
        · exact hw _ h
    · exact hw _ h

theorem performRollupUptoWithView_ok (ho : Ok st) {rolled : Name → Name → Prop} {v : Nat → View K V}
    (hv : ViewsOk rolled st v) {f : Nat}
    {l : InternalLayer K V} (hl : LayerOk st l) {upto : Name} {pl : Plan K V}
    {mk : Store K V → InternalLayer K V → List (LayerData K V) → Out (LayerData K V)}
    (hmk : (∃ e, pl = .write e) → l.name ≠ upto → ∀ u d, Stands st upto u → mk st l u.stack = .ok d →
      Alike l.stack (d :: u.stack) ∧ ∃ ns, st.stackNamesUpto l.name upto = .ok ns)
    (h : performRollupUptoWithView mk v f st l upto = .ok pl) : RollupPlan rolled st l.name pl := by
  obtain ⟨S, hS, ha, hlen⟩ := hl.stands ho
  have hself : AlikeN st l.name l.name := AlikeN.self ho hS.has
  unfold performRollupUptoWithView at h
  by_cases hn : l.name = upto
  · simp only [hn, if_true, Out.ok.injEq] at h
    subst h
    rw [hn] at hself
    rw [hn]
    exact ⟨hself, Or.inl rfl⟩
  · simp only [hn, if_false] at h
    by_cases hp : l.parentName = some upto
    · simp only [hp, if_true, Out.ok.injEq] at h
      subst h
      exact ⟨hself, Or.inl rfl⟩
    · simp only [hp, if_false] at h
      have hw : (do
          let r ← getLayerView (fun t => v (t + 3)) f st upto
          match r.1 with
          | none => Out.err
          | some pl => do
            let d ← mk st l pl.stack
            return (Plan.write { parent := some upto, data := d } : Plan K V)) = Out.ok pl →
          RollupPlan rolled st l.name pl := by
        intro h
        obtain ⟨res, h1, h2⟩ := Out.bind_eq_ok.1 h
        cases hu : res.1 with
        | none => simp [hu] at h2
        | some u =>
          simp only [hu] at h2
          obtain ⟨d, h3, h4⟩ := Out.bind_eq_ok.1 h2
          simp only [Out.pure_eq, Out.ok.injEq] at h4
          subst h4
          have hus := ((getLayerView_sound ho (fun t => hv.ok (t + 3)) (fun t => hv.mono (t + 3)) h1).1 u hu).2
          obtain ⟨k1, ns, k2⟩ := hmk ⟨_, rfl⟩ hn u d hus h3
          obtain ⟨R, g1, g2, g3⟩ := hus
          refine ⟨Stands.fit ⟨R, g1, g2, g3⟩ k1.right, S, R, hS, g1, ?_, ?_⟩
          · exact (ha.trans k1).trans (Alike.reload (T := [d]) k1.right g2.symm)
          · obtain ⟨ms, m1, m2⟩ := hS.chain
            obtain ⟨us, u1, u2, u3⟩ := stackNamesUpto_sound k2 m1
            obtain ⟨us', v1, v2⟩ := g1.chain
            cases u1.unique v1
            rw [← v2, ← m2, u2, List.length_append, List.length_reverse]
            have : 1 ≤ ns.length := by
              cases ns with
              | nil => exact absurd rfl u3
              | cons => simp
            omega
      split at h
      · split at h
        · cases h
        · rename_i r hr
          split at h
          · cases h
          · split at h
            · simp only [Out.ok.injEq] at h
              subst h
              exact hv.existing hr
            · exact hw h
      · exact hw h

theorem safeUptoBound_names {l : InternalLayer K V} {upto b : Name} (hn : l.name ≠ upto)
    (h : st.safeUptoBound l upto = .ok b) : ∃ ns, st.stackNamesUpto l.name upto = .ok ns := by
  unfold safeUptoBound at h
  simp only [hn, if_false] at h
  obtain ⟨ns, h1, _⟩ := Out.bind_eq_ok.1 h
  exact ⟨ns, h1⟩

theorem immediateLayersUpto_sound {l : InternalLayer K V} {bound : Name}
    {mem : List (LayerData K V)} (h : immediateLayersUpto l bound = .ok mem) :
    ∃ T d rest, l.levels = T ++ (bound, d) :: rest ∧ mem = T.map Prod.snd := by
  unfold immediateLayersUpto at h
  by_cases hn : l.name = bound
  · simp [hn] at h
  · simp only [hn, if_false] at h
    exact layersUpto_sound h

/-- The condition under which `rollup_upto` is right: no loaded layer above the bound has
an id map. -/
def SafePrecise (st : Store K V) (l : InternalLayer K V) (upto : Name) : Prop :=
  ∀ bound mem, st.safeUptoBound l upto = .ok bound → immediateLayersUpto l bound = .ok mem →
    ∀ e ∈ mem, e.pMap = e.nvMap

/-- The condition under which `imprecise_rollup_upto` is right: the bound is the layer it
was asked for. -/
def SafeImprecise (st : Store K V) (l : InternalLayer K V) (upto : Name) : Prop :=
  ∀ bound, st.safeUptoBound l upto = .ok bound → bound = upto

theorem performRollupUptoView_ok (ho : Ok st) {rolled : Name → Name → Prop} {v : Nat → View K V}
    (hv : ViewsOk rolled st v) {f : Nat}
    {l : InternalLayer K V} (hl : LayerOk st l) {upto : Name} {pl : Plan K V}
    (hsafe : ∀ e, pl = .write e → SafePrecise st l upto)
    (h : performRollupUptoWithView (preciseDelta upto) v f st l upto = .ok pl) : RollupPlan rolled st l.name pl := by
  refine performRollupUptoWithView_ok ho hv hl ?_ h
  rintro ⟨e, hpl⟩ hn u d hu hd
  unfold preciseDelta at hd
  obtain ⟨b, h1, hd⟩ := Out.bind_eq_ok.1 hd
  obtain ⟨disk, h2, hd⟩ := Out.bind_eq_ok.1 hd
  obtain ⟨mem, h3, hd⟩ := Out.bind_eq_ok.1 hd
  have hd := Out.ofOption_ok.1 hd
  obtain ⟨T, d', rest, g1, rfl⟩ := immediateLayersUpto_sound h3
  obtain ⟨Sb, k1, k2⟩ := hl.below ho g1
  obtain ⟨R, m1, rfl⟩ := diskLevels_sound ho h2 k1
  obtain ⟨R', n1, n2, _⟩ := hu
  cases m1.unique n1
  have e1 : l.stack = T.map Prod.snd ++ ((b, d') :: rest).map Prod.snd := by
    simp only [InternalLayer.stack, g1, List.map_append]
  have a0 := hl.reachable ho
  have a1 : Alike l.stack (T.map Prod.snd ++ (disk ++ R)) := by
    unfold Reachable at a0
    rw [e1] at a0 ⊢
    exact Alike.reload a0 k2.symm
  have a2 : Alike (T.map Prod.snd ++ (disk ++ R)) (T.map Prod.snd ++ disk ++ u.stack) := by
    have := a1.right
    rw [← List.append_assoc] at this ⊢
    exact Alike.reload this n2
  have a3 := a1.trans a2
  exact ⟨a3.trans (Alike.rollupUpto a3.right (hsafe e hpl b _ h1 h3) hd), safeUptoBound_names hn h1⟩

theorem performImpreciseRollupUptoView_ok (ho : Ok st) {rolled : Name → Name → Prop}
    {v : Nat → View K V} (hv : ViewsOk rolled st v) {f : Nat}
    {l : InternalLayer K V} (hl : LayerOk st l) {upto : Name} {pl : Plan K V}
    (hsafe : ∀ e, pl = .write e → SafeImprecise st l upto)
    (h : performRollupUptoWithView (impreciseDelta upto) v f st l upto = .ok pl) : RollupPlan rolled st l.name pl := by
  refine performRollupUptoWithView_ok ho hv hl ?_ h
  rintro ⟨e, hpl⟩ hn u d hu hd
  unfold impreciseDelta at hd
  obtain ⟨b, h1, hd⟩ := Out.bind_eq_ok.1 hd
  obtain ⟨mem, h3, hd⟩ := Out.bind_eq_ok.1 hd
  have hd := Out.ofOption_ok.1 hd
  obtain rfl := hsafe e hpl b h1
  obtain ⟨T, d', rest, g1, rfl⟩ := immediateLayersUpto_sound h3
  obtain ⟨R, k1, k2⟩ := hl.below ho g1
  obtain ⟨R', n1, n2, _⟩ := hu
  cases k1.unique n1
  have e1 : l.stack = T.map Prod.snd ++ ((b, d') :: rest).map Prod.snd := by
    simp only [InternalLayer.stack, g1, List.map_append]
  have a0 := hl.reachable ho
  have a1 : Alike l.stack (T.map Prod.snd ++ u.stack) := by
    unfold Reachable at a0
    rw [e1] at a0 ⊢
    exact Alike.reload a0 (k2.symm.trans n2)
  exact ⟨a1.trans (Alike.impreciseRollupUpto a1.right hd), safeUptoBound_names hn h1⟩

/-- What `squash` is going to write. -/
theorem squash_ok (ho : Ok st) {l : InternalLayer K V} (hl : LayerOk st l) {pl : Plan K V}
    (h : squash l = .ok pl) : ∃ d, pl = .write { parent := none, data := d } ∧
      Rollup.squash l.stack = some d ∧ Fit st { parent := none, data := d } := by
  unfold squash at h
  obtain ⟨d, h1, h2⟩ := Out.bind_eq_ok.1 h
  simp only [Out.pure_eq, Out.ok.injEq] at h2
  subst h2
  have h1 := Out.ofOption_ok.1 h1
  exact ⟨d, rfl, h1, fit_base (Alike.squash (hl.reachable ho) h1)⟩

/-- What `squash_upto` is going to write. -/
theorem squashUptoView_ok (ho : Ok st) {rolled : Name → Name → Prop} {v : Nat → View K V}
    (hv : ViewsOk rolled st v) {f : Nat} {l : InternalLayer K V} (hl : LayerOk st l) {upto : Name}
    {pl : Plan K V} (h : squashUptoView v f st l upto = .ok pl) :
    ∃ d T u, pl = .write { parent := some upto, data := d } ∧ Stands st upto u ∧
      Alike l.stack (T ++ u.stack) ∧
      Rollup.squashUpto (Stack.nvCount u.stack) (Stack.pCount u.stack) T u.stack = some d ∧
      Fit st { parent := some upto, data := d } ∧
      ∃ ns, st.stackNamesUpto l.name upto = .ok ns := by
  obtain ⟨S, hS, ha, hlen⟩ := hl.stands ho
  unfold squashUptoView at h
  obtain ⟨⟨nv, p⟩, h1, h⟩ := Out.bind_eq_ok.1 h
  obtain ⟨names, h2, h⟩ := Out.bind_eq_ok.1 h
  obtain ⟨T, h3, h⟩ := Out.bind_eq_ok.1 h
  obtain ⟨res, h4, h⟩ := Out.bind_eq_ok.1 h
  cases hu : res.1 with
  | none => simp [hu] at h
  | some u =>
    simp only [hu] at h
    obtain ⟨d, h5, h6⟩ := Out.bind_eq_ok.1 h
    simp only [Out.pure_eq, Out.ok.injEq] at h6
    subst h6
    have h5 := Out.ofOption_ok.1 h5
    have hus := ((getLayerView_sound ho hv.ok hv.mono h4).1 u hu).2
    obtain ⟨ms, m1, m2⟩ := hS.chain
    obtain ⟨us, u1, u2, u3⟩ := stackNamesUpto_sound h2 m1
    subst u2
    obtain ⟨R, r1, rfl⟩ := loadNames_sound ho h3 m1 u1 hS
    obtain ⟨R', r2, r3, r4⟩ := hus
    cases r1.unique r2
    have hlen : R.length ≤ st.length := by
      obtain ⟨R'', q1, _, q3⟩ := ho.raw' r1.has
      cases q1.unique r1
      exact q3
    have hcnt := countsLoop_eq r1 st.fuel (by unfold fuel; omega)
    rw [hcnt] at h1
    simp only [Out.ok.injEq, Prod.mk.injEq] at h1
    obtain ⟨rfl, rfl⟩ := h1
    rw [r3.same.nvCount, r3.same.pCount] at h5
    have a1 : Alike (T ++ R) (T ++ u.stack) := Alike.reload (hS.reachable ho) r3
    refine ⟨d, T, u, rfl, ⟨R, r1, r3, r4⟩, ha.symm.trans a1, h5, ?_, names, h2⟩
    exact Stands.fit ⟨R, r1, r3, r4⟩ (Alike.squashUpto a1.right h5)

/-! ### Registering -/

theorem RollupPlan.ext (hx : Ext st st') {n : Name} {e : Entry K V}
    (h : RollupPlan rolled st n (.write e)) : RollupPlan rolled st' n (.write e) := by
  obtain ⟨h1, S, R, h2, h3, h4⟩ := h
  exact ⟨h1.ext hx, S, R, h2.ext hx, h3.ext hx, h4⟩

theorem RollupPlan.alikeN {n new : Name} {e : Entry K V} (hn : st.get? new = none)
    (h : RollupPlan rolled st n (.write e)) : AlikeN ((new, e) :: st) n new ∧
      index ((new, e) :: st) n < index ((new, e) :: st) new := by
  obtain ⟨⟨_, S0, hb0, hd, _⟩, S, R, h2, h3, h4, h5⟩ := h
  have hx := Ext.cons hn e
  have : S0 = R := by
    unfold Below at hb0 h3
    cases hp : e.parent with
    | none => rw [hp] at hb0 h3; rw [hb0, h3]
    | some p => rw [hp] at hb0 h3; exact Raw.unique hb0 h3
  subst this
  refine ⟨⟨S, _, h2.ext hx, h3.raw hn hd, h4, by simpa using h5⟩, ?_⟩
  have hne : new ≠ n := by
    rintro rfl
    obtain ⟨e, he⟩ := h2.get
    rw [hn] at he
    cases he
  rw [index_cons_ne hne]
  simp only [index, if_true]
  exact index_lt h2.has

end Store

end Verif
