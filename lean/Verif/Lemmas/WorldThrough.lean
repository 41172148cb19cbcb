import Verif.Lemmas.Through
import Verif.Lemmas.WorldMerge

/-!
Invariants of the world about rollups: only rolled up names stand for rollups in loaded layers,
and only rollups have id maps.
-/

set_option linter.unusedSectionVars false
set_option linter.unusedVariables false

namespace Verif

open SimpleBuilder Spec

variable {K V : Type} [LinearOrder K] [LinearOrder V]

theorem buildBase_plain {nodes preds : List K} {values : List V} {ts : List Triple}
    {d : LayerData K V} (h : buildBase nodes preds values ts = some d) : d.Plain := by
  unfold buildBase at h
  simp only [Option.bind_eq_bind, Option.bind_eq_some_iff, pure, Option.some.injEq] at h
  obtain ⟨_, _, _, _, _, _, x, hx, rfl⟩ := h
  exact ⟨rfl, rfl⟩

theorem buildChild_plain {S : List (LayerData K V)} {nodes preds : List K} {values : List V}
    {as rs : List Triple} {d : LayerData K V}
    (h : buildChild S nodes preds values as rs = some d) : d.Plain := by
  unfold buildChild at h
  simp only [Option.bind_eq_bind, Option.bind_eq_some_iff, pure, Option.some.injEq] at h
  obtain ⟨_, _, _, _, _, _, _, _, _, _, _, _, _, _, _, _, x, hx, y, hy, rfl⟩ := h
  exact ⟨rfl, rfl⟩

theorem Commits.plain {S : List (LayerData K V)} {ops : List (Op K V)} {d : LayerData K V}
    (h : Commits S ops d) : d.Plain := by
  obtain ⟨b, nv, pm, h1, _, _, h4⟩ := h
  unfold commitWith at h4
  simp only [Option.bind_eq_bind, Option.bind_eq_some_iff] at h4
  obtain ⟨q, _, h5⟩ := h4
  split at h5
  · exact buildBase_plain h5
  · exact buildChild_plain h5

theorem Rollup.squash_plain {S : List (LayerData K V)} {d : LayerData K V}
    (h : Rollup.squash S = some d) : d.Plain := by
  unfold Rollup.squash at h
  simp only [Option.bind_eq_bind, Option.bind_eq_some_iff] at h
  obtain ⟨_, _, _, _, _, _, h⟩ := h
  exact buildBase_plain h

theorem Rollup.squashUpto_plain {nv p : Nat} {T S : List (LayerData K V)} {d : LayerData K V}
    (h : Rollup.squashUpto nv p T S = some d) : d.Plain := by
  unfold Rollup.squashUpto at h
  simp only [Option.bind_eq_bind, Option.bind_eq_some_iff, pure, Option.some.injEq] at h
  obtain ⟨_, _, _, _, _, _, _, _, _, _, _, _, _, _, x, hx, y, hy, rfl⟩ := h
  exact ⟨rfl, rfl⟩

theorem BaseMerge.mergeBases_plain {ds : List (LayerData K V)} {d : LayerData K V}
    (h : BaseMerge.mergeBases ds = some d) : d.Plain := by
  unfold BaseMerge.mergeBases at h
  simp only [Option.bind_eq_bind, Option.bind_eq_some_iff] at h
  obtain ⟨_, _, h⟩ := h
  exact buildBase_plain h

namespace World

open Store

/-- Layers that are not rollups have no id maps. -/
structure PlainInv (w : World K V) : Prop where
  store : ∀ n e, w.store.get? n = some e → (∀ m, ¬ w.log.rolledUp m n) → e.data.Plain
  plans : ∀ t e, (t, Plan.write e) ∈ w.plans → (∀ m, t ≠ .rollup m) → e.data.Plain

theorem PlainInv.write {w w' : World K V} (h : PlainInv w) {ev : Event (VTriple K V)}
    {e : Entry K V} (he : (∀ m p, ev ≠ .rollup ev.new m p) → e.data.Plain)
    (hs : w'.store = (ev.new, e) :: w.store) (hl : w'.log = ev :: w.log)
    (hp : w'.plans = w.plans) : PlainInv w' := by
  refine ⟨?_, by rw [hp]; exact h.plans⟩
  intro n e' hg hr
  rw [hl] at hr
  rw [hs] at hg
  unfold get? at hg
  split at hg
  · rename_i hn
    cases hg
    refine he ?_
    intro m p hev
    exact hr m ⟨p, by rw [← hn, ← hev]; exact List.mem_cons_self ..⟩
  · refine h.store n e' hg (fun m hm => ?_)
    obtain ⟨p, hp⟩ := hm
    exact hr m ⟨p, List.mem_cons_of_mem _ hp⟩

theorem PlainInv.plan {w w' : World K V} (h : PlainInv w) {t : Task} {pl : Plan K V}
    (he : ∀ e, pl = .write e → (∀ m, t ≠ .rollup m) → e.data.Plain)
    (hs : w'.store = w.store) (hl : w'.log = w.log)
    (hp : w'.plans = (t, pl) :: w.plans) : PlainInv w' := by
  refine ⟨by rw [hs, hl]; exact h.store, ?_⟩
  rw [hp]
  intro t' e hq ht
  rcases List.mem_cons.1 hq with hq | hq
  · cases hq
    exact he e rfl ht
  · exact h.plans t' e hq ht

theorem PlainInv.step {safe : Bool} {w w' : World K V} (h : PlainInv w) (hs : Step safe w w') :
    PlainInv w' := by
  cases hs with
  | load _ _ _ => exact ⟨h.store, h.plans⟩
  | cacheLayer _ => exact ⟨h.store, h.plans⟩
  | evict _ => exact ⟨h.store, h.plans⟩
  | @commitBase new ops d _ _ hd =>
    exact h.write (ev := .commit new none _) (e := { parent := none, data := d })
      (fun _ => hd.plain) rfl rfl rfl
  | @commit p l new ops d _ _ _ hd =>
    exact h.write (ev := .commit new (some p) _) (e := { parent := some p, data := d })
      (fun _ => hd.plain) rfl rfl rfl
  | @importLayer new e S T _ _ _ _ _ hp _ =>
    exact h.write (ev := .imported new e.parent T) (fun _ => hp) rfl rfl rfl
  | decideRollup _ _ hp => exact h.plan (fun _ _ hn => absurd rfl (hn _)) rfl rfl rfl
  | decideRollupUpto _ _ _ hp => exact h.plan (fun _ _ hn => absurd rfl (hn _)) rfl rfl rfl
  | decideImpreciseRollupUpto _ _ _ hp => exact h.plan (fun _ _ hn => absurd rfl (hn _)) rfl rfl rfl
  | planSquash _ hp =>
    refine h.plan ?_ rfl rfl rfl
    rintro e rfl _
    unfold Store.squash at hp
    obtain ⟨d, h1, h2⟩ := Out.bind_eq_ok.1 hp
    simp only [Out.pure_eq, Out.ok.injEq, Plan.write.injEq] at h2
    subst h2
    exact Rollup.squash_plain (Out.ofOption_ok.1 h1)
  | decideSquashUpto _ _ hp =>
    refine h.plan ?_ rfl rfl rfl
    rintro e rfl _
    unfold Store.squashUptoView at hp
    obtain ⟨_, _, hp⟩ := Out.bind_eq_ok.1 hp
    obtain ⟨_, _, hp⟩ := Out.bind_eq_ok.1 hp
    obtain ⟨_, _, hp⟩ := Out.bind_eq_ok.1 hp
    obtain ⟨r, _, hp⟩ := Out.bind_eq_ok.1 hp
    split at hp
    · cases hp
    · obtain ⟨d, h1, h2⟩ := Out.bind_eq_ok.1 hp
      simp only [Out.pure_eq, Out.ok.injEq, Plan.write.injEq] at h2
      subst h2
      exact Rollup.squashUpto_plain (Out.ofOption_ok.1 h1)
  | planMerge _ hp =>
    refine h.plan ?_ rfl rfl rfl
    rintro e rfl _
    unfold Store.mergeBase at hp
    obtain ⟨_, _, hp⟩ := Out.bind_eq_ok.1 hp
    obtain ⟨d, h1, h2⟩ := Out.bind_eq_ok.1 hp
    simp only [Out.pure_eq, Out.ok.injEq, Plan.write.injEq] at h2
    subst h2
    exact BaseMerge.mergeBases_plain (Out.ofOption_ok.1 h1)
  | keep _ => exact ⟨h.store, h.plans⟩
  | @writeRollup n e new hm _ =>
    exact h.write (ev := .rollup new n e.parent) (fun hn => absurd rfl (hn _ _)) rfl rfl rfl
  | @writeSquash n e new hm _ =>
    exact h.write (ev := .squash new n) (fun _ => h.plans _ _ hm (by simp)) rfl rfl rfl
  | @writeSquashUpto n u e new hm _ =>
    exact h.write (ev := .squashUpto new n u) (fun _ => h.plans _ _ hm (by simp)) rfl rfl rfl
  | @writeMerge ns e new hm _ =>
    exact h.write (ev := .merge new ns) (fun _ => h.plans _ _ hm (by simp)) rfl rfl rfl
  | @register n r _ =>
    refine ⟨?_, h.plans⟩
    intro m e he
    replace he : (registerRollup w.store n r).get? m = some e := he
    unfold registerRollup at he
    split at he
    · exact h.store m e he
    · rw [get?_setRollup] at he
      split at he
      · obtain ⟨e', h1, rfl⟩ := Option.map_eq_some_iff.1 he
        exact h.store m e' h1
      · exact h.store m e he

theorem Run.plain {safe : Bool} {w : World K V} (h : Run safe w) : PlainInv w := by
  induction h with
  | start => exact ⟨fun n e h => by simp [get?] at h, fun t e h => by cases h⟩
  | step _ hs ih => exact ih.step hs

/-- Only names with a registered rollup stand for rollups in loaded layers, and rollups stay
registered. -/
structure ThroughInv (w : World K V) : Prop where
  kept : ∀ v ∈ w.seen, ∀ n, v.store.rollup? n ≠ none → w.store.rollup? n ≠ none
  seen : ∀ v ∈ w.seen, ∀ n l, v.cache n = some l → Through (fun n => w.store.rollup? n ≠ none) l
  held : ∀ q ∈ w.held, Through (fun n => w.store.rollup? n ≠ none) q.2
  loaded : ∀ l ∈ w.loaded, Through (fun n => w.store.rollup? n ≠ none) l

theorem ThroughInv.cache {w : World K V} (h : ThroughInv w) :
    ∀ n l, w.cache n = some l → Through (fun n => w.store.rollup? n ≠ none) l :=
  h.seen _ (List.mem_cons_self ..)

theorem rollup?_cons {st : Store K V} {new : Name} {e : Entry K V} (hn : st.get? new = none) {n : Name}
    (h : st.rollup? n ≠ none) : Store.rollup? ((new, e) :: st) n ≠ none := by
  unfold Store.rollup? at h ⊢
  have hne : new ≠ n := by
    rintro rfl
    rw [hn] at h
    exact h rfl
  rw [get?_cons_ne hne]
  exact h

theorem rollup?_register {st : Store K V} {m r n : Name} (h : st.rollup? n ≠ none) :
    (registerRollup st m r).rollup? n ≠ none := by
  unfold registerRollup
  split
  · exact h
  · unfold Store.rollup? at h ⊢
    rw [get?_setRollup]
    split
    · rename_i e
      subst e
      cases hg : st.get? n with
      | none => rw [hg] at h; exact absurd rfl h
      | some e => simp
    · exact h

theorem ThroughInv.grow {w w' : World K V} (h : ThroughInv w)
    (hs : ∀ n, w.store.rollup? n ≠ none → w'.store.rollup? n ≠ none)
    (hp : w'.past = w.seen)
    (hcache : ∀ n l, w'.cache n = some l → w.cache n = some l ∨
      Through (fun n => w.store.rollup? n ≠ none) l)
    (hheld : ∀ q ∈ w'.held, q ∈ w.held ∨ Through (fun n => w.store.rollup? n ≠ none) q.2)
    (hloaded : ∀ l ∈ w'.loaded, l ∈ w.loaded ∨ Through (fun n => w.store.rollup? n ≠ none) l) :
    ThroughInv w' := by
  have mono : ∀ {l : InternalLayer K V}, Through (fun n => w.store.rollup? n ≠ none) l →
      Through (fun n => w'.store.rollup? n ≠ none) l := fun {l} => Through.mono hs
  refine ⟨?_, ?_, ?_, ?_⟩
  · intro v hv n hr
    unfold World.seen at hv
    rw [hp] at hv
    rcases List.mem_cons.1 hv with rfl | hv
    · exact hr
    · exact hs n (h.kept v hv n hr)
  · intro v hv n l hc
    unfold World.seen at hv
    rw [hp] at hv
    rcases List.mem_cons.1 hv with rfl | hv
    · rcases hcache n l hc with hc | hc
      · exact mono (h.cache n l hc)
      · exact mono hc
    · exact mono (h.seen v hv n l hc)
  · intro q hq
    rcases hheld q hq with hq | hq
    · exact mono (h.held q hq)
    · exact mono hq
  · intro l hl
    rcases hloaded l hl with hl | hl
    · exact mono (h.loaded l hl)
    · exact mono hl

theorem Run.through {w : World K V} (h : Run true w) : ThroughInv w := by
  induction h with
  | start =>
    refine ⟨?_, ?_, fun q h => (by cases h), fun q h => (by cases h)⟩
    · intro v hv n hr
      simp only [World.seen, List.mem_cons, List.not_mem_nil, or_false] at hv
      subst hv
      exact hr
    · intro v hv n l hc
      simp only [World.seen, List.mem_cons, List.not_mem_nil, or_false] at hv
      subst hv
      cases hc
  | @step w w' hr hs ih =>
    have hl : ∀ n, w.store.rollup? n ≠ none → w.store.rollup? n ≠ none := fun _ h => h
    cases hs with
    | load hv hm hld =>
      obtain ⟨g1, g2⟩ := getLayerView_through (R := fun n => w.store.rollup? n ≠ none)
        (fun t n l hc => ih.seen _ (List.mem_of_getElem? (hv t)) n l hc)
        (fun t n r hr => ih.kept _ (List.mem_of_getElem? (hv t)) n (by rw [hr]; exact Option.some_ne_none _)) hld
      refine ih.grow hl rfl (fun _ _ h => Or.inl h) ?_ ?_
      · intro q hq
        rcases List.mem_cons.1 hq with rfl | hq
        · exact Or.inr g1
        · exact Or.inl hq
      · intro l' hl'
        rcases List.mem_append.1 hl' with hl' | hl'
        · exact Or.inr (g2 l' hl')
        · exact Or.inl hl'
    | cacheLayer hld =>
      refine ih.grow hl rfl ?_ (fun _ h => Or.inl h) (fun _ h => Or.inl h)
      intro n l' hc
      simp only [Cache.insert] at hc
      split at hc
      · cases hc
        exact Or.inr (ih.loaded _ hld)
      · exact Or.inl hc
    | evict hsub =>
      exact ih.grow hl rfl (fun n l' hc => Or.inl (hsub n l' hc)) (fun _ h => Or.inl h)
        (fun _ h => Or.inl h)
    | commitBase hn _ _ =>
      exact ih.grow (fun _ => rollup?_cons hn) rfl (fun _ _ h => Or.inl h) (fun _ h => Or.inl h) (fun _ h => Or.inl h)
    | commit _ hn _ _ =>
      exact ih.grow (fun _ => rollup?_cons hn) rfl (fun _ _ h => Or.inl h) (fun _ h => Or.inl h) (fun _ h => Or.inl h)
    | importLayer hn _ _ _ _ _ _ =>
      exact ih.grow (fun _ => rollup?_cons hn) rfl (fun _ _ h => Or.inl h) (fun _ h => Or.inl h) (fun _ h => Or.inl h)
    | decideRollup _ _ _ =>
      exact ih.grow hl rfl (fun _ _ h => Or.inl h) (fun _ h => Or.inl h) (fun _ h => Or.inl h)
    | decideRollupUpto _ _ _ _ =>
      exact ih.grow hl rfl (fun _ _ h => Or.inl h) (fun _ h => Or.inl h) (fun _ h => Or.inl h)
    | decideImpreciseRollupUpto _ _ _ _ =>
      exact ih.grow hl rfl (fun _ _ h => Or.inl h) (fun _ h => Or.inl h) (fun _ h => Or.inl h)
    | planSquash _ _ =>
      exact ih.grow hl rfl (fun _ _ h => Or.inl h) (fun _ h => Or.inl h) (fun _ h => Or.inl h)
    | decideSquashUpto _ _ _ =>
      exact ih.grow hl rfl (fun _ _ h => Or.inl h) (fun _ h => Or.inl h) (fun _ h => Or.inl h)
    | planMerge _ _ =>
      exact ih.grow hl rfl (fun _ _ h => Or.inl h) (fun _ h => Or.inl h) (fun _ h => Or.inl h)
    | keep _ =>
      exact ih.grow hl rfl (fun _ _ h => Or.inl h) (fun _ h => Or.inl h) (fun _ h => Or.inl h)
    | writeRollup _ hn =>
      exact ih.grow (fun _ => rollup?_cons hn) rfl (fun _ _ h => Or.inl h) (fun _ h => Or.inl h) (fun _ h => Or.inl h)
    | writeSquash _ hn =>
      exact ih.grow (fun _ => rollup?_cons hn) rfl (fun _ _ h => Or.inl h) (fun _ h => Or.inl h) (fun _ h => Or.inl h)
    | writeSquashUpto _ hn =>
      exact ih.grow (fun _ => rollup?_cons hn) rfl (fun _ _ h => Or.inl h) (fun _ h => Or.inl h) (fun _ h => Or.inl h)
    | writeMerge _ hn =>
      exact ih.grow (fun _ => rollup?_cons hn) rfl (fun _ _ h => Or.inl h) (fun _ h => Or.inl h) (fun _ h => Or.inl h)
    | register _ =>
      exact ih.grow (fun _ => rollup?_register) rfl (fun _ _ h => Or.inl h) (fun _ h => Or.inl h) (fun _ h => Or.inl h)

theorem line_above {T : Type} {h : History T} {n upto : Nat} {L us : List Nat} (h1 : h.Line n L)
    (h2 : h.Line upto us) : ∀ {ns : List Nat}, L = us ++ ns → ∀ m ∈ ns, h.Ancestor m n ∧
      ∃ p, h.parent m = some p ∧ h.Ancestor upto p := by
  have hself : upto ∈ us := (h2.ancestor upto).2 (.self _)
  induction h1 with
  | root g =>
    intro ns e m hm
    cases us with
    | nil => cases hself
    | cons a us =>
      simp only [List.cons_append, List.cons.injEq] at e
      have := e.2.symm
      simp only [List.append_eq_nil_iff] at this
      rw [this.2] at hm
      cases hm
  | @step n p L g h1 ih =>
    intro ns e m hm
    have hne : ns ≠ [] := List.ne_nil_of_mem hm
    obtain ⟨ns', rfl⟩ : ∃ ns', ns = ns' ++ [n] := by
      refine ⟨ns.dropLast, ?_⟩
      have h3 := List.dropLast_concat_getLast hne
      have h4 : (L ++ [n]).getLast? = (us ++ ns).getLast? := by rw [e]
      rw [List.getLast?_append_of_ne_nil _ hne, List.getLast?_concat,
        List.getLast?_eq_some_getLast hne, Option.some.injEq] at h4
      rw [h4]
      exact h3.symm
    rw [← List.append_assoc] at e
    have e' : L = us ++ ns' := List.append_cancel_right e
    rcases List.mem_append.1 hm with hm | hm
    · obtain ⟨k1, k2⟩ := ih e' m hm
      exact ⟨.up g k1, k2⟩
    · simp only [List.mem_cons, List.not_mem_nil, or_false] at hm
      subst hm
      refine ⟨.self _, p, g, (h1.ancestor upto).1 ?_⟩
      rw [e']
      exact List.mem_append_left _ hself

theorem Run.uptoNames {w : World K V} (h : Run true w) {n upto : Nat}
    (hu : ∃ p, w.log.parent n = some p ∧ w.log.Ancestor upto p) :
    ∃ ns, w.store.stackNamesUpto n upto = .ok ns ∧ ∀ m ∈ ns, w.log.Ancestor m n ∧
      ∃ p, w.log.parent m = some p ∧ w.log.Ancestor upto p := by
  obtain ⟨ns, us, h1, h2, h3, _⟩ := (h.shape.closed.stackNamesUpto h.shape.parent n upto).1 hu
  exact ⟨ns, h1, line_above h3 h2 rfl⟩

/-- A rollup down to `upto` succeeds when no rollup of a layer above `upto` is
registered and none of them is a rollup. -/
theorem Run.rollupUpto_plan {w : World K V} (h : Run true w) (hf : w.log.noRollupOfRollup)
    {q upto : Name} {l : InternalLayer K V} (hl : (q, l) ∈ w.held)
    (hu : ∃ p, w.log.parent q = some p ∧ w.log.Ancestor upto p) 
    (hx : ∀ m, w.log.Ancestor m q → (∃ p, w.log.parent m = some p ∧ w.log.Ancestor upto p) →
      w.store.rollup? m = none ∧ ∀ r, ¬ w.log.rolledUp r m)
    {c : Cache K V} (hc : CacheOk w.store c) :
    SafePrecise w.store l upto ∧ SafeImprecise w.store l upto ∧
    (w.log.parent q ≠ some upto →
      (∃ e, performRollupUpto w.store c l upto = .ok (.write e) ∧ e.parent = some upto) ∧
      (∃ e, performImpreciseRollupUpto w.store c l upto = .ok (.write e) ∧
        e.parent = some upto)) := by
  obtain ⟨hn, hq⟩ := (h.named hf).held _ hl
  simp only at hn hq
  subst hq
  have hlo := (h.inv.held _ hl).1
  obtain ⟨ns, h1, h2⟩ := h.uptoNames hu
  obtain ⟨a, b, d⟩ := performRollupUpto_direct h.inv.ok hc hlo hn
    (h.through.held _ hl) h1 (R := fun n => w.store.rollup? n ≠ none)
    (fun m hm hr => hr (hx m (h2 m hm).1 (h2 m hm).2).1)
    (fun m hm e he => h.plain.store m e he (hx m (h2 m hm).1 (h2 m hm).2).2)
  refine ⟨a, b, fun hp => d ?_ ?_⟩
  · rw [hn.parentName hlo, h.shape.parent]
    exact hp
  · exact (hx l.name (.self _) hu).1

/-- Nothing is registered where nothing was rolled up. -/
theorem Run.unregistered {w : World K V} (h : Run true w) {q upto : Name}
    (hx : w.log.untouched q upto) : ∀ m, w.log.Ancestor m q →
      (∃ p, w.log.parent m = some p ∧ w.log.Ancestor upto p) →
      w.store.rollup? m = none ∧ ∀ r, ¬ w.log.rolledUp r m := by
  intro m h1 h2
  refine ⟨?_, fun r => (hx m h1 h2 r).2⟩
  cases hr : w.store.rollup? m with
  | none => rfl
  | some r => exact absurd (h.inv.log.rolled m r hr) (hx m h1 h2 r).1

end World

end Verif
