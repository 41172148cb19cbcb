import Verif.Model.Form
import Verif.Model.World
import Verif.Lemmas.TripleStream
import Verif.Lemmas.StoreOps

/-!
Which of the two forms a stored layer has: the files of a layer without parent hold the
triples of every subject, those of a layer with parent name the subjects they are about.
-/

set_option linter.unusedSectionVars false
set_option linter.unusedVariables false

namespace Verif

open SimpleBuilder Spec

variable {K V : Type} [LinearOrder K] [LinearOrder V]

theorem buildBase_form {nodes preds : List K} {values : List V} {ts : List Triple}
    {d : LayerData K V} (h : buildBase nodes preds values ts = some d) : d.BaseForm := by
  unfold buildBase at h
  simp only [Option.bind_eq_bind, Option.bind_eq_some_iff, pure, Option.some.injEq] at h
  obtain ⟨_, _, _, _, _, _, x, hx, rfl⟩ := h
  refine ⟨?_, rfl⟩
  have := buildIndex_sparse hx
  simpa using this

theorem buildChild_form {S : List (LayerData K V)} {nodes preds : List K} {values : List V}
    {as rs : List Triple} {d : LayerData K V}
    (h : buildChild S nodes preds values as rs = some d) : d.ChildForm := by
  unfold buildChild at h
  simp only [Option.bind_eq_bind, Option.bind_eq_some_iff, pure, Option.some.injEq] at h
  obtain ⟨_, _, _, _, _, _, _, _, _, _, _, _, _, _, _, _, x, hx, y, hy, rfl⟩ := h
  exact ⟨buildIndex_sparse hx, y, rfl, buildIndex_sparse hy⟩

theorem internNV_parent {b b' : SimpleBuilder K V} {o : Obj K V} {n : Nat}
    (h : b.internNV o = some (n, b')) : b'.parent = b.parent := by
  unfold internNV at h
  split at h
  · cases h; rfl
  · simp only [Option.bind_eq_bind, Option.bind_eq_some_iff] at h
    obtain ⟨r, _, h⟩ := h
    cases r <;> cases h <;> rfl

theorem internP_parent {b b' : SimpleBuilder K V} {o : K} {n : Nat}
    (h : b.internP o = some (n, b')) : b'.parent = b.parent := by
  unfold internP at h
  split at h
  · cases h; rfl
  · simp only [Option.bind_eq_bind, Option.bind_eq_some_iff] at h
    obtain ⟨r, _, h⟩ := h
    cases r <;> cases h <;> rfl

theorem calculateTriple_parent {b b' : SimpleBuilder K V} {t : VTriple K V} {u : Triple}
    (h : b.calculateTriple t = some (u, b')) : b'.parent = b.parent := by
  unfold calculateTriple at h
  simp only [Option.bind_eq_bind, Option.bind_eq_some_iff, pure, Option.some.injEq] at h
  obtain ⟨⟨s, b1⟩, h1, ⟨p, b2⟩, h2, ⟨o, b3⟩, h3, h4⟩ := h
  cases h4
  exact (internNV_parent h3).trans ((internP_parent h2).trans (internNV_parent h1))

theorem new_parent (S : List (LayerData K V)) (ops : List (Op K V)) {b : SimpleBuilder K V}
    (h : (SimpleBuilder.new S).run ops = some b) : b.parent = S := by
  have hstep : ∀ (ops : List (Op K V)) (b b' : SimpleBuilder K V), b.run ops = some b' →
      b'.parent = b.parent := by
    intro ops
    induction ops with
    | nil => intro b b' h; simp only [SimpleBuilder.run, Option.some.injEq] at h; rw [h]
    | cons op ops ih =>
      intro b b' h
      simp only [SimpleBuilder.run, Option.bind_eq_bind, Option.bind_eq_some_iff] at h
      obtain ⟨b1, h1, h2⟩ := h
      rw [ih b1 b' h2]
      cases op with
      | addId t => cases h1; rfl
      | removeId t => cases h1; rfl
      | addValue t =>
        simp only [SimpleBuilder.step, addValueTriple, Option.bind_eq_bind,
          Option.bind_eq_some_iff, pure, Option.some.injEq] at h1
        obtain ⟨⟨u, b2⟩, h3, rfl⟩ := h1
        exact (calculateTriple_parent h3 : b2.parent = b.parent)
      | removeValue t =>
        simp only [SimpleBuilder.step, removeValueTriple, Option.bind_eq_bind,
          Option.bind_eq_some_iff, pure, Option.some.injEq] at h1
        obtain ⟨⟨u, b2⟩, h3, rfl⟩ := h1
        exact (calculateTriple_parent h3 : b2.parent = b.parent)
  exact hstep ops _ _ h

theorem Commits.baseForm {ops : List (Op K V)} {d : LayerData K V} (h : Commits [] ops d) :
    d.BaseForm := by
  obtain ⟨b, nv, pm, h1, _, _, h4⟩ := h
  unfold commitWith at h4
  simp only [Option.bind_eq_bind, Option.bind_eq_some_iff] at h4
  obtain ⟨q, _, h5⟩ := h4
  rw [new_parent [] ops h1] at h5
  exact buildBase_form h5

theorem Commits.childForm {S : List (LayerData K V)} (hS : S ≠ []) {ops : List (Op K V)}
    {d : LayerData K V} (h : Commits S ops d) : d.ChildForm := by
  obtain ⟨b, nv, pm, h1, _, _, h4⟩ := h
  unfold commitWith at h4
  simp only [Option.bind_eq_bind, Option.bind_eq_some_iff] at h4
  obtain ⟨q, _, h5⟩ := h4
  rw [new_parent S ops h1] at h5
  cases S with
  | nil => exact absurd rfl hS
  | cons e S => exact buildChild_form h5

namespace Rollup

theorem deltaRollup_form {S : List (LayerData K V)} {d : LayerData K V}
    (h : deltaRollup S = some d) : d.BaseForm := by
  unfold deltaRollup at h
  simp only [Option.bind_eq_bind, Option.bind_eq_some_iff, pure, Option.some.injEq] at h
  obtain ⟨_, _, _, _, x, hx, rfl⟩ := h
  exact ⟨by simpa using buildIndex_sparse hx, rfl⟩

theorem writeDelta_form {l : DictLevel K V} {cs : List (TripleChange × Triple)}
    {S : List (LayerData K V)} {d : LayerData K V} (h : writeDelta l cs S = some d) :
    d.ChildForm := by
  unfold writeDelta at h
  simp only [Option.bind_eq_bind, Option.bind_eq_some_iff, pure, Option.some.injEq] at h
  obtain ⟨x, hx, y, hy, rfl⟩ := h
  exact ⟨buildIndex_sparse hx, y, rfl, buildIndex_sparse hy⟩

theorem deltaRollupUpto_form {mem disk S : List (LayerData K V)} {d : LayerData K V}
    (h : deltaRollupUpto mem disk S = some d) : d.ChildForm := by
  unfold deltaRollupUpto at h
  simp only [Option.bind_eq_bind, Option.bind_eq_some_iff] at h
  obtain ⟨_, _, _, _, h⟩ := h
  exact writeDelta_form h

theorem impreciseDeltaRollupUpto_form {mem S : List (LayerData K V)} {d : LayerData K V}
    (h : impreciseDeltaRollupUpto mem S = some d) : d.ChildForm := by
  unfold impreciseDeltaRollupUpto at h
  simp only [Option.bind_eq_bind, Option.bind_eq_some_iff] at h
  obtain ⟨_, _, _, _, h⟩ := h
  exact writeDelta_form h

theorem squash_form {S : List (LayerData K V)} {d : LayerData K V} (h : squash S = some d) :
    d.BaseForm := by
  unfold squash at h
  simp only [Option.bind_eq_bind, Option.bind_eq_some_iff] at h
  obtain ⟨_, _, _, _, _, _, h⟩ := h
  exact buildBase_form h

theorem squashUpto_form {nv p : Nat} {T S : List (LayerData K V)} {d : LayerData K V}
    (h : squashUpto nv p T S = some d) : d.ChildForm := by
  unfold squashUpto at h
  simp only [Option.bind_eq_bind, Option.bind_eq_some_iff, pure, Option.some.injEq] at h
  obtain ⟨_, _, _, _, _, _, _, _, _, _, _, _, _, _, x, hx, y, hy, rfl⟩ := h
  exact ⟨buildIndex_sparse hx, y, rfl, buildIndex_sparse hy⟩

end Rollup

theorem BaseMerge.mergeBases_form {ds : List (LayerData K V)} {d : LayerData K V}
    (h : BaseMerge.mergeBases ds = some d) : d.BaseForm := by
  unfold BaseMerge.mergeBases at h
  simp only [Option.bind_eq_bind, Option.bind_eq_some_iff] at h
  obtain ⟨_, _, h⟩ := h
  exact buildBase_form h

namespace Store

variable {st : Store K V}

/-- What is going to be written has the right form. -/
def PlanForm : Plan K V → Prop
  | .existing _ => True
  | .write e => e.Form

theorem performRollupView_form {v : Nat → View K V} {l : InternalLayer K V} {pl : Plan K V}
    (h : performRollupView v l = .ok pl) : PlanForm pl := by
  have hw : ∀ {pl : Plan K V}, (do
      let d ← Out.ofOption (Rollup.deltaRollup l.stack)
      return (.write { parent := none, data := d } : Plan K V)) = .ok pl → PlanForm pl := by
    intro pl h
    obtain ⟨d, h1, h2⟩ := Out.bind_eq_ok.1 h
    simp only [Out.pure_eq, Out.ok.injEq] at h2
    subst h2
    exact Rollup.deltaRollup_form (Out.ofOption_ok.1 h1)
  unfold performRollupView at h
  split at h
  · simp only [Out.ok.injEq] at h
    subst h
    trivial
  · split at h
    · split at h
      · cases h
      · split at h
        · simp only [Out.ok.injEq] at h
          subst h
          trivial
        · exact hw h
    · exact hw h

theorem performRollupUptoWithView_form {mk : Store K V → InternalLayer K V → List (LayerData K V) →
      Out (LayerData K V)} {v : Nat → View K V} {f : Nat}
    {l : InternalLayer K V} {upto : Name} {pl : Plan K V}
    (hmk : ∀ S d, mk st l S = .ok d → d.ChildForm)
    (h : performRollupUptoWithView mk v f st l upto = .ok pl) : PlanForm pl := by
  have hw : ∀ {pl : Plan K V}, (do
      let r ← getLayerView (fun t => v (t + 3)) f st upto
      match r.1 with
      | none => .err
      | some pl => do
        let d ← mk st l pl.stack
        return (.write { parent := some upto, data := d } : Plan K V)) = .ok pl → PlanForm pl := by
    intro pl h
    obtain ⟨⟨r, cs⟩, h1, h2⟩ := Out.bind_eq_ok.1 h
    cases r with
    | none => cases h2
    | some a =>
      obtain ⟨d, h3, h4⟩ := Out.bind_eq_ok.1 h2
      simp only [Out.pure_eq, Out.ok.injEq] at h4
      subst h4
      exact hmk _ _ h3
  unfold performRollupUptoWithView at h
  split at h
  · simp only [Out.ok.injEq] at h
    subst h
    trivial
  · split at h
    · simp only [Out.ok.injEq] at h
      subst h
      trivial
    · split at h
      · split at h
        · cases h
        · split at h
          · cases h
          · split at h
            · simp only [Out.ok.injEq] at h
              subst h
              trivial
            · exact hw h
      · exact hw h

theorem squash_planForm {l : InternalLayer K V} {pl : Plan K V} (h : squash l = .ok pl) :
    PlanForm pl := by
  obtain ⟨d, h1, h2⟩ := Out.bind_eq_ok.1 h
  simp only [Out.pure_eq, Out.ok.injEq] at h2
  subst h2
  exact Rollup.squash_form (Out.ofOption_ok.1 h1)

theorem squashUptoView_planForm {v : Nat → View K V} {f : Nat} {l : InternalLayer K V}
    {upto : Name} {pl : Plan K V} (h : squashUptoView v f st l upto = .ok pl) : PlanForm pl := by
  unfold squashUptoView at h
  obtain ⟨⟨nv, p⟩, _, h⟩ := Out.bind_eq_ok.1 h
  obtain ⟨names, _, h⟩ := Out.bind_eq_ok.1 h
  obtain ⟨T, _, h⟩ := Out.bind_eq_ok.1 h
  obtain ⟨⟨r, cs⟩, h1, h⟩ := Out.bind_eq_ok.1 h
  cases r with
  | none => cases h
  | some a =>
    obtain ⟨d, h3, h2⟩ := Out.bind_eq_ok.1 h
    simp only [Out.pure_eq, Out.ok.injEq] at h2
    subst h2
    exact Rollup.squashUpto_form (Out.ofOption_ok.1 h3)

theorem mergeBase_planForm {ns : List Name} {pl : Plan K V} (h : st.mergeBase ns = .ok pl) :
    PlanForm pl := by
  unfold mergeBase at h
  obtain ⟨ds, _, h⟩ := Out.bind_eq_ok.1 h
  obtain ⟨d, h3, h2⟩ := Out.bind_eq_ok.1 h
  simp only [Out.pure_eq, Out.ok.injEq] at h2
  subst h2
  exact BaseMerge.mergeBases_form (Out.ofOption_ok.1 h3)

end Store

namespace World

open Store

/-- The forms of all layers and of all that is going to be written. -/
structure Forms (w : World K V) : Prop where
  store : ∀ n e, w.store.get? n = some e → e.Form
  plans : ∀ q ∈ w.plans, PlanForm q.2

theorem Forms.write {w w' : World K V} (h : Forms w) {new : Name} {e : Entry K V} (he : e.Form)
    (hs : w'.store = (new, e) :: w.store) (hp : w'.plans = w.plans) : Forms w' := by
  refine ⟨?_, by rw [hp]; exact h.plans⟩
  intro n e' hg
  rw [hs] at hg
  unfold get? at hg
  split at hg
  · cases hg; exact he
  · exact h.store n e' hg

theorem Forms.plan {w w' : World K V} (h : Forms w) {t : Task} {pl : Plan K V} (he : PlanForm pl)
    (hs : w'.store = w.store) (hp : w'.plans = (t, pl) :: w.plans) : Forms w' := by
  refine ⟨by rw [hs]; exact h.store, ?_⟩
  rw [hp]
  intro q' hq'
  rcases List.mem_cons.1 hq' with rfl | hq'
  · exact he
  · exact h.plans q' hq'

theorem Forms.step {safe : Bool} {w w' : World K V} (h : Forms w) (hs : Step safe w w') :
    Forms w' := by
  cases hs with
  | load _ _ _ => exact ⟨h.store, h.plans⟩
  | cacheLayer _ => exact ⟨h.store, h.plans⟩
  | evict _ => exact ⟨h.store, h.plans⟩
  | commitBase _ _ hd => exact h.write (e := { parent := none, data := _ }) hd.baseForm rfl rfl
  | @commit p l new ops d _ _ _ hd =>
    refine h.write (e := { parent := some _, data := _ }) (hd.childForm ?_) rfl rfl
    obtain ⟨rest, hr⟩ := l.levels_eq
    simp [InternalLayer.stack, hr]
  | importLayer _ _ _ _ hf _ _ => exact h.write hf rfl rfl
  | decideRollup _ _ hp => exact h.plan (performRollupView_form hp) rfl rfl
  | decideRollupUpto _ _ _ hp =>
    refine h.plan (performRollupUptoWithView_form (mk := preciseDelta _) (fun S d h => ?_) hp) rfl rfl
    obtain ⟨_, _, h⟩ := Out.bind_eq_ok.1 h
    obtain ⟨_, _, h⟩ := Out.bind_eq_ok.1 h
    obtain ⟨_, _, h⟩ := Out.bind_eq_ok.1 h
    exact Rollup.deltaRollupUpto_form (Out.ofOption_ok.1 h)
  | decideImpreciseRollupUpto _ _ _ hp =>
    refine h.plan (performRollupUptoWithView_form (mk := impreciseDelta _) (fun S d h => ?_) hp) rfl rfl
    obtain ⟨_, _, h⟩ := Out.bind_eq_ok.1 h
    obtain ⟨_, _, h⟩ := Out.bind_eq_ok.1 h
    exact Rollup.impreciseDeltaRollupUpto_form (Out.ofOption_ok.1 h)
  | planSquash _ hp => exact h.plan (squash_planForm hp) rfl rfl
  | decideSquashUpto _ _ hp => exact h.plan (squashUptoView_planForm hp) rfl rfl
  | planMerge _ hp => exact h.plan (mergeBase_planForm hp) rfl rfl
  | keep _ => exact ⟨h.store, h.plans⟩
  | writeRollup hm _ => exact h.write (h.plans _ hm) rfl rfl
  | writeSquash hm _ => exact h.write (h.plans _ hm) rfl rfl
  | writeSquashUpto hm _ => exact h.write (h.plans _ hm) rfl rfl
  | writeMerge hm _ => exact h.write (h.plans _ hm) rfl rfl
  | @register n r _ =>
    refine ⟨?_, h.plans⟩
    intro m e he
    replace he : (registerRollup w.store n r).get? m = some e := he
    unfold registerRollup at he
    split at he
    · exact h.store m e he
    · rw [get?_setRollup] at he
      split at he
      · obtain ⟨e', h1, rfl⟩ := Option.map_eq_some_iff.1 he
        exact h.store m e' h1
      · exact h.store m e he

theorem Run.forms {safe : Bool} {w : World K V} (h : Run safe w) : Forms w := by
  induction h with
  | start => exact ⟨fun n e h => by simp [get?] at h, fun q h => by cases h⟩
  | step _ hs ih => exact ih.step hs

end World

end Verif
