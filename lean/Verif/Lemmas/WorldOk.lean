import Verif.Model.World
import Verif.Lemmas.StoreNamed
import Verif.Lemmas.Forms

/-!
The invariant of the world: every state that can occur, whatever the schedule.
-/

set_option linter.unusedSectionVars false
set_option linter.unusedVariables false

namespace Verif

open SimpleBuilder Spec

variable {K V : Type} [LinearOrder K] [LinearOrder V]

/-! ### Calls -/

theorem idTripleToString_res {S : List (LayerData K V)} {Ps Ns : List (List Triple)}
    (h : StackOk S Ps Ns) (u : Triple) (t : VTriple K V) :
    Stack.idTripleToString S u = some (some t) ↔ Res S t.toG u := by
  obtain ⟨r, h1, h2⟩ := idTripleToString_spec h u
  rw [h1, ← h2]
  simp

theorem VTriple.toG_inj {t u : VTriple K V} (h : t.toG = u.toG) : t = u := by
  cases t; cases u
  simp only [VTriple.toG, GTriple.mk.injEq, Obj.node.injEq] at h
  obtain ⟨rfl, rfl, rfl⟩ := h
  rfl

theorem adds_calls {S : List (LayerData K V)} {Ps Ns : List (List Triple)} (h : StackOk S Ps Ns)
    (ops : List (Op K V)) (t : VTriple K V) :
    Adds S ops t.toG ↔ added (ops.filterMap (opCall S)) t := by
  unfold Adds added
  rw [List.mem_filterMap]
  refine exists_congr fun op => and_congr_right fun _ => ?_
  cases op with
  | addValue u =>
    simp only [Op.adds, opCall, Option.some.injEq, Call.add.injEq]
    constructor
    · intro he; exact (VTriple.toG_inj he).symm
    · rintro rfl; rfl
  | removeValue u => simp [Op.adds, opCall]
  | removeId u =>
    simp only [Op.adds, opCall]
    split <;> simp
  | addId u =>
    simp only [Op.adds, opCall, ← idTripleToString_res h]
    split
    · next t' e => rw [e]; simp
    · next e =>
      simp only [reduceCtorEq, iff_false]
      exact e t

theorem removes_calls {S : List (LayerData K V)} {Ps Ns : List (List Triple)} (h : StackOk S Ps Ns)
    (ops : List (Op K V)) (t : VTriple K V) :
    Removes S ops t.toG ↔ removed (ops.filterMap (opCall S)) t := by
  unfold Removes removed
  rw [List.mem_filterMap]
  refine exists_congr fun op => and_congr_right fun _ => ?_
  cases op with
  | removeValue u =>
    simp only [Op.removes, opCall, Option.some.injEq, Call.remove.injEq]
    constructor
    · intro he; exact (VTriple.toG_inj he).symm
    · rintro rfl; rfl
  | addValue u => simp [Op.removes, opCall]
  | addId u =>
    simp only [Op.removes, opCall]
    split <;> simp
  | removeId u =>
    simp only [Op.removes, opCall, ← idTripleToString_res h]
    split
    · next t' e => rw [e]; simp
    · next e =>
      simp only [reduceCtorEq, iff_false]
      exact e t

theorem commit_after {S : List (LayerData K V)} (hS : Reachable S) {ops : List (Op K V)}
    (hk : ∀ op ∈ ops, IdsKnown S op) {d : LayerData K V} (hd : Commits S ops d)
    (t : VTriple K V) : content (d :: S) t.toG ↔
      after (fun t => content S t.toG) (ops.filterMap (opCall S)) t := by
  obtain ⟨Ps, Ns, hok⟩ := hS.good
  obtain ⟨P, N, hc⟩ := commits_committed hok hk hd
  rw [hc.content hok, adds_calls hok, removes_calls hok]
  unfold after
  tauto

theorem after_congr {T : Type} {A B : T → Prop} (h : ∀ t, A t ↔ B t) (calls : List (Call T)) (t : T) :
    after A calls t ↔ after B calls t := by
  unfold after
  rw [h]

namespace Store

variable {st st' : Store K V}

/-! ### The history -/

/-- The history describes the store. -/
structure LogOk (st : Store K V) (log : History (VTriple K V)) : Prop where
  known : ∀ n, st.has n = true ↔ log.known n
  parent : ∀ n, st.has n = true → st.parent? n = log.parent n
  triples : ∀ n S, Raw st n S → ∀ t : VTriple K V, content S t.toG ↔ log.triples n t
  rolled : ∀ n r, st.rollup? n = some r → log.rolledUp n r

theorem LogOk.write (ho : Ok st) {log : History (VTriple K V)} (h : LogOk st log) {ev : Event (VTriple K V)}
    (hn : st.get? ev.new = none) {e : Entry K V} (hr : e.rollup = none) (hp : ev.parent = e.parent)
    {S : List (LayerData K V)} (hb : Below st e S) (hd : e.data.onTop S = e.data)
    (ht : ∀ t : VTriple K V, content (e.data :: S) t.toG ↔ History.triples (ev :: log) ev.new t) :
    LogOk ((ev.new, e) :: st) (ev :: log) := by
  have hx := Ext.cons hn e
  have hne : ∀ {m}, st.has m = true → ev.new ≠ m := by
    rintro m hm rfl
    obtain ⟨e, he⟩ := has_iff.1 hm
    rw [hn] at he
    cases he
  have hcase : ∀ m, Store.has ((ev.new, e) :: st) m = true ↔ m = ev.new ∨ st.has m = true := by
    intro m
    by_cases hm : ev.new = m
    · subst hm
      simp [Store.has, get?_cons_self]
    · have : ¬ m = ev.new := fun h => hm h.symm
      simp [Store.has, get?_cons_ne hm, this]
  refine ⟨?_, ?_, ?_, ?_⟩
  · intro m
    rw [hcase, h.known]
    unfold History.known
    constructor
    · rintro (rfl | ⟨x, hx, he⟩)
      · exact ⟨ev, by simp, rfl⟩
      · exact ⟨x, List.mem_cons_of_mem _ hx, he⟩
    · rintro ⟨x, hx, he⟩
      rcases List.mem_cons.1 hx with rfl | hx
      · exact Or.inl he.symm
      · exact Or.inr ⟨x, hx, he⟩
  · intro m hm
    by_cases he : m = ev.new
    · subst he
      simp only [parent?, get?_cons_self, Option.bind_some, History.parent, if_true, hp]
    · have hm' := ((hcase m).1 hm).resolve_left he
      have : ev.new ≠ m := fun h => he h.symm
      simp only [History.parent, he, if_false]
      rw [← h.parent m hm']
      simp [parent?, get?_cons_ne this]
  · intro m S' hS' t
    by_cases he : m = ev.new
    · subst he
      rw [hS'.unique (hb.raw hn hd)]
      exact ht t
    · have hm' : st.has m = true := ((hcase m).1 hS'.has).resolve_left he
      have : History.triples (ev :: log) m t ↔ log.triples m t := by
        simp only [History.triples, he, if_false]
      rw [this]
      obtain ⟨S0, h0, _⟩ := ho.raw' hm'
      rw [hS'.unique (h0.ext hx)]
      exact h.triples m S0 h0 t
  · intro m r hmr
    have : st.rollup? m = some r := by
      unfold rollup? at *
      by_cases hm : ev.new = m
      · subst hm
        simp [get?_cons_self, hr] at hmr
      · rwa [get?_cons_ne hm] at hmr
    obtain ⟨p, hp⟩ := h.rolled m r this
    exact ⟨p, List.mem_cons_of_mem _ hp⟩

theorem LogOk.nil : LogOk ([] : Store K V) [] where
  known n := by simp [Store.has, get?, History.known]
  parent n h := by simp [Store.has, get?] at h
  triples n S h := by
    have := h.has
    simp [Store.has, get?] at this
  rolled n r h := by simp [rollup?, get?] at h

theorem has_setRollup (n r m : Name) : (st.setRollup n r).has m = st.has m := by
  unfold Store.has
  rw [get?_setRollup]
  by_cases hm : m = n <;> simp [hm]

theorem parent?_setRollup (n r m : Name) : (st.setRollup n r).parent? m = st.parent? m := by
  unfold parent?
  rw [get?_setRollup]
  by_cases hm : m = n
  · simp only [hm, if_true]
    cases st.get? n <;> rfl
  · simp [hm]

theorem LogOk.setRollup {log : History (VTriple K V)} (h : LogOk st log) {n r : Name}
    (hr : log.rolledUp n r) : LogOk (st.setRollup n r) log where
  known m := by rw [has_setRollup]; exact h.known m
  parent m hm := by
    rw [has_setRollup] at hm
    rw [parent?_setRollup]
    exact h.parent m hm
  triples m S hS := h.triples m S (hS.ext (Ext.setRollup' st n r))
  rolled m r' hm := by
    unfold rollup? at hm
    rw [get?_setRollup] at hm
    by_cases he : m = n
    · simp only [he, if_true] at hm
      cases hg : st.get? n with
      | none => simp [hg] at hm
      | some e =>
        simp only [hg, Option.map_some, Option.bind_some, Option.some.injEq] at hm
        subst hm
        rw [he]
        exact hr
    · simp only [he, if_false] at hm
      exact h.rolled m r' hm

/-- What the plan of a squash has to satisfy. -/
def SquashPlan (st : Store K V) (n : Name) (u : Option Name) (pl : Plan K V) : Prop :=
  ∃ e, pl = .write e ∧ e.parent = u ∧ Fit st e ∧ ∃ S R, Raw st n S ∧ Below st e R ∧
    ∀ g, content (e.data :: R) g ↔ content S g

theorem SquashPlan.ext (hx : Ext st st') {n : Name} {u : Option Name} {pl : Plan K V}
    (h : SquashPlan st n u pl) : SquashPlan st' n u pl := by
  obtain ⟨e, h1, h2, h3, S, R, h4, h5, h6⟩ := h
  exact ⟨e, h1, h2, h3.ext hx, S, R, h4.ext hx, h5.ext hx, h6⟩

theorem squash_plan (ho : Ok st) {l : InternalLayer K V} (hl : LayerOk st l) {pl : Plan K V}
    (h : squash l = .ok pl) : SquashPlan st l.name none pl := by
  obtain ⟨d, rfl, h1, h2⟩ := squash_ok ho hl h
  obtain ⟨S, hS, ha, _⟩ := hl.stands ho
  obtain ⟨Ps, Ns, hok⟩ := (hl.reachable ho).good
  obtain ⟨d', P, k1, k2, k3, _⟩ := Rollup.squash_spec hok
  rw [h1] at k1
  cases k1
  exact ⟨_, rfl, rfl, h2, S, [], hS, rfl, fun g => (k3 g).trans (ha.same.content g).symm⟩

theorem squashUptoView_plan (ho : Ok st) {rolled : Name → Name → Prop} {v : Nat → View K V}
    (hv : ViewsOk rolled st v) {f : Nat} {l : InternalLayer K V} (hl : LayerOk st l) {upto : Name}
    {pl : Plan K V} (h : squashUptoView v f st l upto = .ok pl) :
    SquashPlan st l.name (some upto) pl := by
  obtain ⟨d, T, u, rfl, hu, ha, h1, h2, _⟩ := squashUptoView_ok ho hv hl h
  obtain ⟨S, hS, hal, _⟩ := hl.stands ho
  obtain ⟨Ps, Ns, hok⟩ := ha.right.good
  obtain ⟨d', k1, k2, k3, _⟩ := Rollup.squashUpto_spec hok
  rw [h1] at k1
  cases k1
  obtain ⟨R, r1, r2, _⟩ := hu
  have hr : Reachable (d :: u.stack) := Alike.squashUpto ha.right h1
  have hsame := (Alike.reload (T := [d]) hr r2.symm).same
  refine ⟨_, rfl, rfl, h2, S, R, hS, r1, fun g => ?_⟩
  exact (hsame.content g).symm.trans ((k3 g).trans ((hal.trans ha).same.content g).symm)

theorem squashUpto_plan (ho : Ok st) {l : InternalLayer K V} (hl : LayerOk st l) {upto : Name}
    {pl : Plan K V} (h : st.squashUpto l upto = .ok pl) : SquashPlan st l.name (some upto) pl :=
  squashUptoView_plan ho (rolled := fun n r => st.rollup? n = some r)
    (v := fun _ => ⟨st, noCache⟩) (f := st.loadFuel)
    ⟨fun _ => ⟨ho, (fun _ _ h => nomatch h), Ext.refl _⟩, fun _ => Ext.refl _, fun _ _ _ => rfl,
      fun _ _ _ h => h⟩ hl h

/-- What the plan of a merge has to satisfy. -/
def MergePlan (st : Store K V) (ns : List Name) (pl : Plan K V) : Prop :=
  ∃ e, pl = .write e ∧ e.parent = none ∧ Fit st e ∧ (∀ n ∈ ns, st.has n = true) ∧
    ∀ g, content [e.data] g ↔ ∃ n ∈ ns, ∃ S, Raw st n S ∧ content S g

theorem MergePlan.ext (ho : Ok st) (hx : Ext st st') {ns : List Name} {pl : Plan K V}
    (h : MergePlan st ns pl) : MergePlan st' ns pl := by
  obtain ⟨e, h1, h2, h3, h4, h5⟩ := h
  refine ⟨e, h1, h2, h3.ext hx, ?_, ?_⟩
  · intro n hn
    obtain ⟨S, hS, _⟩ := ho.raw' (h4 n hn)
    exact (hS.ext hx).has
  intro g
  rw [h5]
  constructor
  · rintro ⟨n, hn, S, hS, hg⟩
    exact ⟨n, hn, S, hS.ext hx, hg⟩
  · rintro ⟨n, hn, S', hS', hg⟩
    obtain ⟨S, hS, _⟩ := ho.raw' (h4 n hn)
    rw [hS'.unique (hS.ext hx)] at hg
    exact ⟨n, hn, S, hS, hg⟩

theorem baseFiles_iff : ∀ {ns : List Name} {ds : List (LayerData K V)}, st.baseFiles ns = .ok ds ↔
    List.Forall₂ (fun n d => ∃ e, st.get? n = some e ∧ e.parent = none ∧ e.data = d) ns ds
  | [], ds => by
    simp only [baseFiles, Out.ok.injEq, List.forall₂_nil_left_iff]
    exact eq_comm
  | n :: ns, ds => by
    rw [List.forall₂_cons_left_iff]
    unfold baseFiles
    cases he : st.get? n with
    | none => simp
    | some e =>
      cases hp : e.parent with
      | some p =>
        simp only [hp, Option.some.injEq, reduceCtorEq, false_iff]
        rintro ⟨b, u, ⟨e', h1, h2, _⟩, _⟩
        rw [← h1, hp] at h2
        cases h2
      | none =>
        simp only [hp, Out.bind_eq_ok, Out.pure_eq, Out.ok.injEq, Option.some.injEq]
        constructor
        · rintro ⟨r, h1, rfl⟩
          exact ⟨e.data, r, ⟨e, rfl, hp, rfl⟩, baseFiles_iff.1 h1, rfl⟩
        · rintro ⟨b, u, ⟨e', rfl, _, rfl⟩, h3, rfl⟩
          exact ⟨u, baseFiles_iff.2 h3, rfl⟩

theorem forall₂_mem_left {α β : Type} {R : α → β → Prop} {l : List α} {l' : List β}
    (h : List.Forall₂ R l l') : ∀ a ∈ l, ∃ b ∈ l', R a b := by
  induction h with
  | nil => intro a h; cases h
  | cons hab _ ih =>
    intro a ha
    rcases List.mem_cons.1 ha with rfl | ha
    · exact ⟨_, List.mem_cons_self .., hab⟩
    · obtain ⟨b, hb, hr⟩ := ih a ha
      exact ⟨b, List.mem_cons_of_mem _ hb, hr⟩

/-- The stored stack of a layer without parent. -/
theorem Ok.flat (ho : Ok st) {n : Name} {e : Entry K V} (he : st.get? n = some e)
    (hp : e.parent = none) : Raw st n [e.data] ∧ Reachable [e.data] := by
  obtain ⟨S, h1, h2, _⟩ := ho.raw he
  have h3 := ho.own he h1
  cases h1 with
  | base g1 g2 =>
    simp only [List.head?_cons, Option.some.injEq] at h3
    rw [h3] at h2
    refine ⟨?_, h2⟩
    rw [he] at g1
    cases g1
    have := Raw.base he hp
    rw [h3] at this
    exact this
  | child g1 g2 _ =>
    rw [he] at g1
    cases g1
    rw [hp] at g2
    cases g2

theorem mergeBase_plan (ho : Ok st) (hf : ∀ n e, st.get? n = some e → e.Form) {ns : List Name}
    (hc : ∀ n ∈ ns, ∀ e, st.get? n = some e → BaseMerge.Clean e.data) {pl : Plan K V}
    (h : st.mergeBase ns = .ok pl) : MergePlan st ns pl := by
  unfold mergeBase at h
  obtain ⟨ds, h1, h⟩ := Out.bind_eq_ok.1 h
  obtain ⟨d, h2, h⟩ := Out.bind_eq_ok.1 h
  simp only [Out.pure_eq, Out.ok.injEq] at h
  subst h
  rw [Out.ofOption_ok] at h2
  have hall := baseFiles_iff.1 h1
  have hback := forall₂_mem_left hall.flip
  have hall := forall₂_mem_left hall
  have hbase : ∀ n e, st.get? n = some e → e.parent = none → e.data.pos.subjects = none := by
    intro n e he hp
    have := hf n e he
    unfold Entry.Form at this
    rw [hp] at this
    exact this.1
  have hd : ∀ d ∈ ds, Reachable [d] ∧ BaseMerge.Clean d ∧ d.pos.subjects = none := by
    intro d hd
    obtain ⟨n, hn, e, g1, g2, rfl⟩ := hback d hd
    exact ⟨(ho.flat g1 g2).2, hc n hn e g1, hbase n e g1 g2⟩
  obtain ⟨m, P, k1, k2, k3, _⟩ := BaseMerge.mergeBases_spec
    (fun d h => BaseMerge.Mergeable.of_clean (hd d h).1.good (hd d h).2.1 (hd d h).2.2)
  rw [h2] at k1
  cases k1
  refine ⟨_, rfl, rfl, fit_base (Alike.merge (fun e he => (hd e he).1) (fun e he => (hd e he).2) h2),
    ?_, ?_⟩
  · intro n hn
    obtain ⟨_, _, e, g1, _⟩ := hall n hn
    exact has_iff.2 ⟨e, g1⟩
  · intro g
    show content [d] g ↔ _
    rw [k3]
    constructor
    · rintro ⟨d, hd, hg⟩
      obtain ⟨n, hn, e, g1, g2, rfl⟩ := hback d hd
      exact ⟨n, hn, _, (ho.flat g1 g2).1, hg⟩
    · rintro ⟨n, hn, S, hS, hg⟩
      obtain ⟨d, hd, e, g1, g2, rfl⟩ := hall n hn
      cases hS.unique (ho.flat g1 g2).1
      exact ⟨_, hd, hg⟩

/-- What a plan has to satisfy. -/
def PlanOk (st : Store K V) (log : History (VTriple K V)) : Task × Plan K V → Prop
  | (.rollup n, .existing r) => AlikeN st n r ∧
      (n = r ∨ (st.index n < st.index r ∧ log.rolledUp n r))
  | (.rollup n, .write e) => RollupPlan log.rolledUp st n (.write e)
  | (.squash n, pl) => SquashPlan st n none pl
  | (.squashUpto n u, pl) => SquashPlan st n (some u) pl
  | (.merge ns, pl) => MergePlan st ns pl

theorem PlanOk.ext (ho : Ok st) (hx : Ext st st') (hi : ∀ n, st.has n = true → st'.index n = st.index n)
    {log log' : History (VTriple K V)} (hlog : ∀ e ∈ log, e ∈ log') :
    ∀ {q : Task × Plan K V}, PlanOk st log q → PlanOk st' log' q
  | (.rollup n, .existing r), h => by
    obtain ⟨h1, h2⟩ := h
    refine ⟨h1.ext hx, ?_⟩
    rcases h2 with h2 | ⟨h2, p, h3⟩
    · exact Or.inl h2
    · obtain ⟨_, _, g1, g2, _⟩ := h1
      right
      rw [hi n g1.has, hi r g2.has]
      exact ⟨h2, p, hlog _ h3⟩
  | (.rollup n, .write e), h => RollupPlan.ext (rolled := log.rolledUp) hx h
  | (.squash n, pl), h => SquashPlan.ext hx h
  | (.squashUpto n u, pl), h => SquashPlan.ext hx h
  | (.merge ns, pl), h => MergePlan.ext ho hx h

theorem has_mono (hx : Ext st st') {n : Name} (h : st.has n = true) : st'.has n = true := by
  obtain ⟨e, he⟩ := has_iff.1 h
  obtain ⟨e', he', _⟩ := hx n e he
  exact has_iff.2 ⟨e', he'⟩

theorem RollupPlan.planOk {log : History (VTriple K V)} {n : Name} {pl : Plan K V}
    (h : RollupPlan log.rolledUp st n pl) : PlanOk st log (.rollup n, pl) := by
  cases pl <;> exact h

end Store

namespace World

open Store

/-- The invariant. -/
structure Inv (w : World K V) : Prop where
  ok : Ok w.store
  log : LogOk w.store w.log
  seen : ∀ v ∈ w.seen, Ok v.store ∧ CacheOk v.store v.cache ∧ Ext v.store w.store ∧
    ∀ n r, v.store.rollup? n = some r → w.log.rolledUp n r
  index : ∀ v ∈ w.seen, ∀ n, v.store.has n = true → w.store.index n = v.store.index n
  order : w.seen.Pairwise (fun a b => Ext b.store a.store)
  held : ∀ q ∈ w.held, LayerOk w.store q.2 ∧ Stands w.store q.1 q.2
  loaded : ∀ l ∈ w.loaded, LayerOk w.store l
  plans : ∀ q ∈ w.plans, PlanOk w.store w.log q
  pending : ∀ q ∈ w.pending, PlanOk w.store w.log (.rollup q.1, .existing q.2)

theorem Inv.cache {w : World K V} (h : Inv w) : CacheOk w.store w.cache :=
  (h.seen _ (List.mem_cons_self ..)).2.1

theorem Inv.start : Inv ({} : World K V) where
  ok := Ok.nil
  log := LogOk.nil
  seen v hv := by
    simp only [World.seen, List.mem_cons, List.not_mem_nil, or_false] at hv
    subst hv
    refine ⟨Ok.nil, ?_, Ext.refl _, ?_⟩
    · intro n l h; cases h
    · intro n r h; simp [rollup?, get?] at h
  index v hv n hn := by
    simp only [World.seen, List.mem_cons, List.not_mem_nil, or_false] at hv
    subst hv
    rfl
  order := by simp [World.seen]
  held q h := by cases h
  loaded q h := by cases h
  plans q h := by cases h
  pending q h := by cases h

/-- The history and the indexes of an extended store. -/
structure Grows (w w' : World K V) : Prop where
  ext : Ext w.store w'.store
  index : ∀ n, w.store.has n = true → w'.store.index n = w.store.index n
  log : ∀ e ∈ w.log, e ∈ w'.log
  past : w'.past = w.seen

theorem Inv.grow {w w' : World K V} (h : Inv w) (g : Grows w w') (hok : Ok w'.store)
    (hlog : LogOk w'.store w'.log) (hcache : CacheOk w'.store w'.cache)
    (hheld : ∀ q ∈ w'.held, q ∈ w.held ∨ (LayerOk w'.store q.2 ∧ Stands w'.store q.1 q.2))
    (hloaded : ∀ l ∈ w'.loaded, l ∈ w.loaded ∨ LayerOk w'.store l)
    (hplans : ∀ q ∈ w'.plans, q ∈ w.plans ∨ PlanOk w'.store w'.log q)
    (hpending : ∀ q ∈ w'.pending, q ∈ w.pending ∨
      PlanOk w'.store w'.log (.rollup q.1, .existing q.2)) : Inv w' where
  ok := hok
  log := hlog
  seen v hv := by
    unfold World.seen at hv
    rw [g.past] at hv
    rcases List.mem_cons.1 hv with rfl | hv
    · exact ⟨hok, hcache, Ext.refl _, hlog.rolled⟩
    · obtain ⟨h1, h2, h3, h4⟩ := h.seen v hv
      refine ⟨h1, h2, h3.trans g.ext, fun n r hr => ?_⟩
      obtain ⟨p, hp⟩ := h4 n r hr
      exact ⟨p, g.log _ hp⟩
  index v hv n hn := by
    unfold World.seen at hv
    rw [g.past] at hv
    rcases List.mem_cons.1 hv with rfl | hv
    · rfl
    · rw [g.index n (has_mono (h.seen v hv).2.2.1 hn), h.index v hv n hn]
  order := by
    unfold World.seen
    rw [g.past]
    refine List.pairwise_cons.2 ⟨?_, h.order⟩
    intro v hv
    exact (h.seen v hv).2.2.1.trans g.ext
  held q hq := by
    rcases hheld q hq with hq | hq
    · exact ⟨(h.held q hq).1.ext g.ext, (h.held q hq).2.ext g.ext⟩
    · exact hq
  loaded l hl := by
    rcases hloaded l hl with hl | hl
    · exact (h.loaded l hl).ext g.ext
    · exact hl
  plans q hq := by
    rcases hplans q hq with hq | hq
    · exact PlanOk.ext h.ok g.ext g.index g.log (h.plans q hq)
    · exact hq
  pending q hq := by
    rcases hpending q hq with hq | hq
    · exact PlanOk.ext h.ok g.ext g.index g.log (h.pending q hq)
    · exact hq

/-- A step that changes nothing that is stored. -/
theorem Inv.same {w w' : World K V} (h : Inv w) (hs : w'.store = w.store) (hl : w'.log = w.log)
    (hp : w'.past = w.seen) (hcache : CacheOk w.store w'.cache)
    (hheld : ∀ q ∈ w'.held, q ∈ w.held ∨ (LayerOk w.store q.2 ∧ Stands w.store q.1 q.2))
    (hloaded : ∀ l ∈ w'.loaded, l ∈ w.loaded ∨ LayerOk w.store l)
    (hplans : ∀ q ∈ w'.plans, q ∈ w.plans ∨ PlanOk w.store w.log q)
    (hpending : ∀ q ∈ w'.pending, q ∈ w.pending ∨
      PlanOk w.store w.log (.rollup q.1, .existing q.2)) : Inv w' :=
  h.grow ⟨by rw [hs]; exact Ext.refl _, by rw [hs]; intros; rfl, by rw [hl]; exact fun _ h => h, hp⟩
    (by rw [hs]; exact h.ok) (by rw [hs, hl]; exact h.log) (by rw [hs]; exact hcache)
    (by rw [hs]; exact hheld) (by rw [hs]; exact hloaded) (by rw [hs, hl]; exact hplans)
    (by rw [hs, hl]; exact hpending)

theorem pairwise_get {α : Type} {R : α → α → Prop} {l : List α} (h : l.Pairwise R)
    (hr : ∀ a, R a a) {i j : Nat} (hij : i ≤ j) {a b : α} (ha : l[i]? = some a)
    (hb : l[j]? = some b) : R a b := by
  obtain ⟨h1, rfl⟩ := List.getElem?_eq_some_iff.1 ha
  obtain ⟨h2, rfl⟩ := List.getElem?_eq_some_iff.1 hb
  rcases Nat.lt_or_eq_of_le hij with h' | rfl
  · exact List.pairwise_iff_getElem.1 h i j h1 h2 h'
  · exact hr _

/-- The views of a load. -/
theorem Inv.views {w : World K V} (h : Inv w) {v : Nat → View K V} {i : Nat → Nat}
    (hv : ∀ t, w.seen[i t]? = some (v t)) (hi : ∀ t, i (t + 1) ≤ i t) :
    (∀ t, Ok (v t).store ∧ CacheOk (v t).store (v t).cache ∧ Ext (v t).store w.store) ∧
    (∀ t, Ext (v t).store (v (t + 1)).store) ∧
    (∀ t n r, (v t).store.rollup? n = some r → w.log.rolledUp n r) := by
  have hmem : ∀ t, v t ∈ w.seen := fun t => List.mem_of_getElem? (hv t)
  refine ⟨fun t => ?_, fun t => ?_, fun t => (h.seen _ (hmem t)).2.2.2⟩
  · obtain ⟨h1, h2, h3, _⟩ := h.seen _ (hmem t)
    exact ⟨h1, h2, h3⟩
  · exact pairwise_get h.order (fun a => Ext.refl _) (hi t) (hv (t + 1)) (hv t)

/-- The views of a task. -/
theorem Inv.sees {w : World K V} (h : Inv w) {v : Nat → View K V} (hv : w.Sees v) :
    ViewsOk w.log.rolledUp w.store v := by
  obtain ⟨i, hi, hv⟩ := hv
  have g : ∀ t, ∃ u, u ∈ w.seen ∧ (v t).store = u.store ∧
      ∀ n l, (v t).cache n = some l → u.cache n = some l := fun t => by
    obtain ⟨u, h1, h2⟩ := hv t
    exact ⟨u, List.mem_of_getElem? h1, h2⟩
  refine ⟨fun t => ?_, fun t => ?_, fun t n hn => ?_, fun t n r hr => ?_⟩
  · obtain ⟨u, h1, h2, h3⟩ := g t
    obtain ⟨k1, k2, k3, _⟩ := h.seen u h1
    rw [h2]
    exact ⟨k1, fun n l hc => k2 n l (h3 n l hc), k3⟩
  · obtain ⟨u, h1, h2, _⟩ := hv t
    obtain ⟨u', h1', h2', _⟩ := hv (t + 1)
    rw [h2, h2']
    exact pairwise_get h.order (fun a => Ext.refl _) (hi t) h1' h1
  · obtain ⟨u, h1, h2, _⟩ := g t
    rw [h2] at hn ⊢
    exact h.index u h1 n hn
  · obtain ⟨u, h1, h2, _⟩ := g t
    rw [h2] at hr
    exact (h.seen u h1).2.2.2 n r hr

/-- Writing a layer. -/
theorem Inv.write {w w' : World K V} (h : Inv w) {ev : Event (VTriple K V)} {e : Entry K V}
    (hn : w.store.get? ev.new = none) (hf : Fit w.store e) (hp : ev.parent = e.parent)
    (ht : ∀ S, Below w.store e S → ∀ t : VTriple K V,
      content (e.data :: S) t.toG ↔ History.triples (ev :: w.log) ev.new t)
    (hs : w'.store = (ev.new, e) :: w.store) (hl : w'.log = ev :: w.log) (hpa : w'.past = w.seen)
    (hc : w'.cache = w.cache) (hh : w'.held = w.held) (hlo : w'.loaded = w.loaded)
    (hpl : w'.plans = w.plans)
    (hpe : ∀ q ∈ w'.pending, q ∈ w.pending ∨
      PlanOk w'.store w'.log (.rollup q.1, .existing q.2)) : Inv w' := by
  obtain ⟨hro, S, hb, hd, hr⟩ := hf
  have hx : Ext w.store ((ev.new, e) :: w.store) := Ext.cons hn e
  refine h.grow ⟨by rw [hs]; exact hx, ?_, by rw [hl]; exact fun _ h => List.mem_cons_of_mem _ h, hpa⟩
    ?_ ?_ ?_ (by rw [hh]; exact fun _ h => Or.inl h) (by rw [hlo]; exact fun _ h => Or.inl h)
    (by rw [hpl]; exact fun _ h => Or.inl h) hpe
  · intro n hnn
    rw [hs]
    refine index_cons_ne ?_ e
    rintro rfl
    obtain ⟨x, hx⟩ := has_iff.1 hnn
    rw [hn] at hx
    cases hx
  · rw [hs]; exact h.ok.write hn ⟨hro, S, hb, hd, hr⟩
  · rw [hs, hl]; exact h.log.write h.ok hn hro hp hb hd (ht S hb)
  · rw [hs, hc]; exact h.cache.ext hx

theorem Below.unique' {st : Store K V} {e : Entry K V} {S R : List (LayerData K V)}
    (h : Below st e S) (h' : Below st e R) : S = R := by
  unfold Below at h h'
  cases hp : e.parent with
  | none => rw [hp] at h h'; rw [h, h']
  | some p => rw [hp] at h h'; exact Raw.unique h h'

theorem Inv.step {w w' : World K V} (h : Inv w) (hf : Forms w) (hs : Step true w w') : Inv w' := by
  cases hs with
  | @load v i f n l cs hv hi hl =>
    obtain ⟨h1, h2, h3⟩ := h.views hv hi
    obtain ⟨g1, g2, _⟩ := getLayerView_sound h.ok h1 h2 hl
    refine h.same rfl rfl rfl h.cache ?_ ?_ (fun _ h => Or.inl h) (fun _ h => Or.inl h)
    · intro q hq
      rcases List.mem_cons.1 hq with rfl | hq
      · exact Or.inr (g1 l rfl)
      · exact Or.inl hq
    · intro l' hl'
      rcases List.mem_append.1 hl' with hl' | hl'
      · exact Or.inr (g2 l' hl')
      · exact Or.inl hl'
  | cacheLayer hl =>
    refine h.same rfl rfl rfl ?_ (fun _ h => Or.inl h) (fun _ h => Or.inl h) (fun _ h => Or.inl h)
      (fun _ h => Or.inl h)
    intro n l' hc
    simp only [Cache.insert] at hc
    split at hc
    · next he =>
      cases hc
      exact ⟨h.loaded _ hl, he.symm⟩
    · exact h.cache n l' hc
  | evict hsub =>
    refine h.same rfl rfl rfl ?_ (fun _ h => Or.inl h) (fun _ h => Or.inl h) (fun _ h => Or.inl h)
      (fun _ h => Or.inl h)
    intro n l' hc
    exact h.cache n l' (hsub n l' hc)
  | @commitBase new ops d hn hk hd =>
    have hr : Reachable [d] := Reachable.none.commit hk hd
    refine h.write (ev := .commit new none _) (e := { parent := none, data := d }) hn (fit_base hr)
      rfl ?_ rfl rfl rfl rfl rfl rfl rfl (fun _ h => Or.inl h)
    intro S hS t
    have : S = [] := hS
    subst this
    rw [commit_after Reachable.none hk hd]
    simp only [History.triples, Event.new, if_true]
    refine after_congr (fun t => ?_) _ _
    simp only [iff_false]
    rintro ⟨u, ⟨hu, _⟩, _⟩
    simp [Stack.objectId, VTriple.toG, Stack.nodeId] at hu
  | @commit p l new ops d hm hn hk hd =>
    obtain ⟨hl, hst⟩ := h.held _ hm
    have hr : Reachable (d :: l.stack) := (hl.reachable h.ok).commit hk hd
    refine h.write (ev := .commit new (some p) _) (e := { parent := some p, data := d }) hn
      (Stands.fit hst hr) rfl ?_ rfl rfl rfl rfl rfl rfl rfl (fun _ h => Or.inl h)
    intro S hS t
    obtain ⟨R, hR, ha, _⟩ := hst
    have : S = R := Raw.unique hS hR
    subst this
    have hsame : Same (d :: l.stack) (d :: S) := (Alike.reload (T := [d]) hr ha.symm).same
    show content (d :: S) t.toG ↔ _
    rw [← hsame.content, commit_after (hl.reachable h.ok) hk hd]
    simp only [History.triples, Event.new, if_true]
    refine after_congr (fun t => ?_) _ _
    rw [← ha.same.content]
    exact h.log.triples p S hR t
  | @importLayer new e S T hn hr hb hd hf hp hT =>
    refine h.write (ev := .imported new e.parent T) (e := e) hn ⟨hr, S, hb, hd.onTop, hd⟩ rfl ?_
      rfl rfl rfl rfl rfl rfl rfl (fun _ h => Or.inl h)
    intro S' hS' t
    cases Below.unique' hS' hb
    simp only [History.triples, Event.new, if_true]
    rw [hT]
    obtain ⟨Ps, Ns, hok⟩ := hd.good
    exact (valueTripleExists_iff hok t).symm
  | decideRollup hm hv hp =>
    refine h.same rfl rfl rfl h.cache (fun _ h => Or.inl h) (fun _ h => Or.inl h) ?_
      (fun _ h => Or.inl h)
    intro q hq
    rcases List.mem_cons.1 hq with rfl | hq
    · exact Or.inr (performRollupView_ok h.ok (h.sees hv) (h.held _ hm).1 hp).planOk
    · exact Or.inl hq
  | decideRollupUpto hm hv hsafe hp =>
    refine h.same rfl rfl rfl h.cache (fun _ h => Or.inl h) (fun _ h => Or.inl h) ?_
      (fun _ h => Or.inl h)
    intro q hq
    rcases List.mem_cons.1 hq with rfl | hq
    · exact Or.inr
        (performRollupUptoView_ok h.ok (h.sees hv) (h.held _ hm).1 (hsafe rfl) hp).planOk
    · exact Or.inl hq
  | decideImpreciseRollupUpto hm hv hsafe hp =>
    refine h.same rfl rfl rfl h.cache (fun _ h => Or.inl h) (fun _ h => Or.inl h) ?_
      (fun _ h => Or.inl h)
    intro q hq
    rcases List.mem_cons.1 hq with rfl | hq
    · exact Or.inr
        (performImpreciseRollupUptoView_ok h.ok (h.sees hv) (h.held _ hm).1 (hsafe rfl) hp).planOk
    · exact Or.inl hq
  | planSquash hm hp =>
    refine h.same rfl rfl rfl h.cache (fun _ h => Or.inl h) (fun _ h => Or.inl h) ?_
      (fun _ h => Or.inl h)
    intro q hq
    rcases List.mem_cons.1 hq with rfl | hq
    · exact Or.inr (squash_plan h.ok (h.held _ hm).1 hp)
    · exact Or.inl hq
  | decideSquashUpto hm hv hp =>
    refine h.same rfl rfl rfl h.cache (fun _ h => Or.inl h) (fun _ h => Or.inl h) ?_
      (fun _ h => Or.inl h)
    intro q hq
    rcases List.mem_cons.1 hq with rfl | hq
    · exact Or.inr (squashUptoView_plan h.ok (h.sees hv) (h.held _ hm).1 hp)
    · exact Or.inl hq
  | planMerge hsafe hp =>
    refine h.same rfl rfl rfl h.cache (fun _ h => Or.inl h) (fun _ h => Or.inl h) ?_
      (fun _ h => Or.inl h)
    intro q hq
    rcases List.mem_cons.1 hq with rfl | hq
    · exact Or.inr (mergeBase_plan h.ok hf.store (hsafe rfl) hp)
    · exact Or.inl hq
  | keep hm =>
    refine h.same rfl rfl rfl h.cache (fun _ h => Or.inl h) (fun _ h => Or.inl h)
      (fun _ h => Or.inl h) ?_
    intro q hq
    rcases List.mem_cons.1 hq with rfl | hq
    · exact Or.inr (h.plans _ hm)
    · exact Or.inl hq
  | @writeRollup n e new hm hn =>
    have hpl : RollupPlan w.log.rolledUp w.store n (.write e) := h.plans _ hm
    refine h.write (ev := .rollup new n e.parent) (e := e) hn hpl.1 rfl ?_ rfl rfl rfl rfl rfl rfl rfl
      ?_
    · intro S hS t
      obtain ⟨_, Q, R, g1, g2, g3, _⟩ := hpl
      cases Below.unique' hS g2
      rw [← g3.same.content, h.log.triples n Q g1 t]
      simp only [History.triples, Event.new, if_true]
    · intro q hq
      rcases List.mem_cons.1 hq with rfl | hq
      · right
        obtain ⟨g1, g2⟩ := hpl.alikeN hn
        exact ⟨g1, Or.inr ⟨g2, e.parent, by simp⟩⟩
      · exact Or.inl hq
  | @writeSquash n e new hm hn =>
    obtain ⟨e', he, h1, h2, Q, R, h3, h4, h5⟩ : SquashPlan w.store n none (.write e) := h.plans _ hm
    cases he
    refine h.write (ev := .squash new n) (e := e) hn h2 h1.symm ?_ rfl rfl rfl rfl rfl rfl rfl
      (fun _ h => Or.inl h)
    intro S hS t
    cases Below.unique' hS h4
    rw [h5, h.log.triples n Q h3 t]
    simp only [History.triples, Event.new, if_true]
  | @writeSquashUpto n u e new hm hn =>
    obtain ⟨e', he, h1, h2, Q, R, h3, h4, h5⟩ : SquashPlan w.store n (some u) (.write e) :=
      h.plans _ hm
    cases he
    refine h.write (ev := .squashUpto new n u) (e := e) hn h2 h1.symm ?_ rfl rfl rfl rfl rfl rfl rfl
      (fun _ h => Or.inl h)
    intro S hS t
    cases Below.unique' hS h4
    rw [h5, h.log.triples n Q h3 t]
    simp only [History.triples, Event.new, if_true]
  | @writeMerge ns e new hm hn =>
    obtain ⟨e', he, h1, h2, h3, h4⟩ : MergePlan w.store ns (.write e) := h.plans _ hm
    cases he
    refine h.write (ev := .merge new ns) (e := e) hn h2 h1.symm ?_ rfl rfl rfl rfl rfl rfl rfl
      (fun _ h => Or.inl h)
    intro S hS t
    have : S = [] := by
      unfold Below at hS
      rw [h1] at hS
      exact hS
    subst this
    rw [h4]
    simp only [History.triples, Event.new, if_true]
    constructor
    · rintro ⟨n, hn, R, hR, hc⟩
      exact ⟨n, hn, (h.log.triples n R hR t).1 hc⟩
    · rintro ⟨n, hn, hc⟩
      obtain ⟨R, hR, _⟩ := h.ok.raw' (h3 n hn)
      exact ⟨n, hn, R, hR, (h.log.triples n R hR t).2 hc⟩
  | @register n r hm =>
    obtain ⟨h1, h2⟩ : PlanOk w.store w.log (.rollup n, .existing r) := h.pending _ hm
    by_cases hnr : n = r
    · have : registerRollup w.store n r = w.store := by simp [registerRollup, hnr]
      rw [this]
      exact h.same rfl rfl rfl h.cache (fun _ h => Or.inl h) (fun _ h => Or.inl h)
        (fun _ h => Or.inl h) (fun _ h => Or.inl h)
    · have : registerRollup w.store n r = w.store.setRollup n r := by simp [registerRollup, hnr]
      rw [this]
      obtain ⟨h2, h3⟩ := h2.resolve_left hnr
      have hx := Ext.setRollup w.store n r
      exact h.grow ⟨hx, fun m _ => index_setRollup w.store n r m, fun _ h => h, rfl⟩
        (h.ok.setRollup h1 h2) (h.log.setRollup h3) (h.cache.ext hx) (fun _ h => Or.inl h)
        (fun _ h => Or.inl h) (fun _ h => Or.inl h) (fun _ h => Or.inl h)

theorem Run.inv {w : World K V} (h : Run true w) : Inv w := by
  induction h with
  | start => exact Inv.start
  | step hr hs ih => exact ih.step hr.forms hs

/-! ### Names -/

/-- Every layer reports its stored parent, and the name it was asked for by. -/
structure NamedInv (w : World K V) : Prop where
  seen : ∀ v ∈ w.seen, ∀ n l, v.cache n = some l → Named v.store l
  held : ∀ q ∈ w.held, Named w.store q.2 ∧ q.2.name = q.1
  loaded : ∀ l ∈ w.loaded, Named w.store l

theorem NamedInv.grow {w w' : World K V} (h : NamedInv w) (hx : Ext w.store w'.store)
    (hp : w'.past = w.seen) (hcache : ∀ n l, w'.cache n = some l → Named w'.store l)
    (hheld : ∀ q ∈ w'.held, q ∈ w.held ∨ (Named w'.store q.2 ∧ q.2.name = q.1))
    (hloaded : ∀ l ∈ w'.loaded, l ∈ w.loaded ∨ Named w'.store l) : NamedInv w' where
  seen v hv := by
    unfold World.seen at hv
    rw [hp] at hv
    rcases List.mem_cons.1 hv with rfl | hv
    · exact hcache
    · exact h.seen v hv
  held q hq := by
    rcases hheld q hq with hq | hq
    · exact ⟨(h.held q hq).1.ext hx, (h.held q hq).2⟩
    · exact hq
  loaded l hl := by
    rcases hloaded l hl with hl | hl
    · exact (h.loaded l hl).ext hx
    · exact hl

theorem NamedInv.cache {w : World K V} (h : NamedInv w) :
    ∀ n l, w.cache n = some l → Named w.store l := h.seen _ (List.mem_cons_self ..)

theorem rolledUp_mono {T : Type} {h h' : History T} (hm : ∀ e ∈ h, e ∈ h')
    (hf : h'.noRollupOfRollup) : h.noRollupOfRollup := by
  rintro n r r' ⟨p, hp⟩ ⟨p', hp'⟩
  exact hf n r r' ⟨p, hm _ hp⟩ ⟨p', hm _ hp'⟩

theorem Step.log_mono {safe : Bool} {w w' : World K V} (h : Step safe w w') :
    ∀ e ∈ w.log, e ∈ w'.log := by
  cases h <;> first | exact fun _ h => h | exact fun _ h => List.mem_cons_of_mem _ h

theorem Step.held_mono {safe : Bool} {w w' : World K V} (h : Step safe w w') :
    ∀ e ∈ w.held, e ∈ w'.held := by
  cases h <;> first | exact fun _ h => h | exact fun _ h => List.mem_cons_of_mem _ h

theorem Step.ext {safe : Bool} {w w' : World K V} (h : Step safe w w') : Ext w.store w'.store := by
  cases h with
  | load _ _ _ => exact Ext.refl _
  | cacheLayer _ => exact Ext.refl _
  | evict _ => exact Ext.refl _
  | commitBase hn _ _ => exact Ext.cons hn _
  | commit _ hn _ _ => exact Ext.cons hn _
  | importLayer hn _ _ _ _ _ _ => exact Ext.cons hn _
  | decideRollup _ _ _ => exact Ext.refl _
  | decideRollupUpto _ _ _ _ => exact Ext.refl _
  | decideImpreciseRollupUpto _ _ _ _ => exact Ext.refl _
  | planSquash _ _ => exact Ext.refl _
  | decideSquashUpto _ _ _ => exact Ext.refl _
  | planMerge _ _ => exact Ext.refl _
  | keep _ => exact Ext.refl _
  | writeRollup _ hn => exact Ext.cons hn _
  | writeSquash _ hn => exact Ext.cons hn _
  | writeSquashUpto _ hn => exact Ext.cons hn _
  | writeMerge _ hn => exact Ext.cons hn _
  | @register n r _ =>
    show Ext w.store (registerRollup w.store n r)
    unfold registerRollup
    split
    · exact Ext.refl _
    · exact Ext.setRollup _ _ _

theorem Step.past_eq {safe : Bool} {w w' : World K V} (h : Step safe w w') : w'.past = w.seen := by
  cases h <;> rfl

theorem Inv.named_load {w : World K V} (hi : Inv w) (h : NamedInv w)
    (hf : w.log.noRollupOfRollup) {v : Nat → View K V} {i : Nat → Nat}
    (hv : ∀ t, w.seen[i t]? = some (v t)) (hm : ∀ t, i (t + 1) ≤ i t) {f : Nat} {n : Name}
    {l : InternalLayer K V} {cs : List (InternalLayer K V)}
    (hl : getLayerView v f w.store n = .ok (some l, cs)) :
    Named w.store l ∧ l.name = n ∧ ∀ c ∈ cs, Named w.store c := by
  obtain ⟨h1, h2, h3⟩ := hi.views hv hm
  refine getLayerView_named (fun t => (h1 t).2.2) ?_ ?_ hl
  · intro t m l' hc
    exact ⟨h.seen _ (List.mem_of_getElem? (hv t)) m l' hc, ((h1 t).2.1 m l' hc).2⟩
  · intro t t' m r hr
    cases hr' : (v t').store.rollup? r with
    | none => rfl
    | some r' => exact absurd (h3 t' r r' hr') (hf m r r' (h3 t m r hr))

theorem Run.named {w : World K V} (h : Run true w) (hf : w.log.noRollupOfRollup) : NamedInv w := by
  induction h with
  | start =>
    refine ⟨?_, fun q h => (by cases h), fun q h => (by cases h)⟩
    intro v hv n l hc
    simp only [World.seen, List.mem_cons, List.not_mem_nil, or_false] at hv
    subst hv
    cases hc
  | @step w w' hr hs ih =>
    have ih := ih (rolledUp_mono hs.log_mono hf)
    have hx := hs.ext
    have hc0 : ∀ n l, w.cache n = some l → Named w'.store l :=
      fun n l hc => (ih.cache n l hc).ext hx
    cases hs with
    | load hv hm hl =>
      obtain ⟨g1, g2, g3⟩ := hr.inv.named_load ih hf hv hm hl
      refine ih.grow hx rfl hc0 ?_ ?_
      · intro q hq
        rcases List.mem_cons.1 hq with rfl | hq
        · exact Or.inr ⟨g1, g2⟩
        · exact Or.inl hq
      · intro l' hl'
        rcases List.mem_append.1 hl' with hl' | hl'
        · exact Or.inr (g3 l' hl')
        · exact Or.inl hl'
    | cacheLayer hl =>
      refine ih.grow hx rfl ?_ (fun _ h => Or.inl h) (fun _ h => Or.inl h)
      intro n l' hc
      simp only [Cache.insert] at hc
      split at hc
      · cases hc
        exact ih.loaded _ hl
      · exact hc0 n l' hc
    | evict hsub =>
      refine ih.grow hx rfl ?_ (fun _ h => Or.inl h) (fun _ h => Or.inl h)
      intro n l' hc
      exact hc0 n l' (hsub n l' hc)
    | commitBase hn _ _ => exact ih.grow hx rfl hc0 (fun _ h => Or.inl h) (fun _ h => Or.inl h)
    | commit _ hn _ _ => exact ih.grow hx rfl hc0 (fun _ h => Or.inl h) (fun _ h => Or.inl h)
    | importLayer _ _ _ _ _ _ _ =>
      exact ih.grow hx rfl hc0 (fun _ h => Or.inl h) (fun _ h => Or.inl h)
    | decideRollup _ _ _ => exact ih.grow hx rfl hc0 (fun _ h => Or.inl h) (fun _ h => Or.inl h)
    | decideRollupUpto _ _ _ _ => exact ih.grow hx rfl hc0 (fun _ h => Or.inl h) (fun _ h => Or.inl h)
    | decideImpreciseRollupUpto _ _ _ _ =>
      exact ih.grow hx rfl hc0 (fun _ h => Or.inl h) (fun _ h => Or.inl h)
    | planSquash _ _ => exact ih.grow hx rfl hc0 (fun _ h => Or.inl h) (fun _ h => Or.inl h)
    | decideSquashUpto _ _ _ => exact ih.grow hx rfl hc0 (fun _ h => Or.inl h) (fun _ h => Or.inl h)
    | planMerge _ _ => exact ih.grow hx rfl hc0 (fun _ h => Or.inl h) (fun _ h => Or.inl h)
    | keep _ => exact ih.grow hx rfl hc0 (fun _ h => Or.inl h) (fun _ h => Or.inl h)
    | writeRollup _ hn => exact ih.grow hx rfl hc0 (fun _ h => Or.inl h) (fun _ h => Or.inl h)
    | writeSquash _ hn => exact ih.grow hx rfl hc0 (fun _ h => Or.inl h) (fun _ h => Or.inl h)
    | writeSquashUpto _ hn => exact ih.grow hx rfl hc0 (fun _ h => Or.inl h) (fun _ h => Or.inl h)
    | writeMerge _ hn => exact ih.grow hx rfl hc0 (fun _ h => Or.inl h) (fun _ h => Or.inl h)
    | register _ => exact ih.grow hx rfl hc0 (fun _ h => Or.inl h) (fun _ h => Or.inl h)

end World

end Verif
