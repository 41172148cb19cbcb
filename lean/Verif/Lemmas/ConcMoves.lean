import Verif.Lemmas.ConcSteps

/-!
The later steps of a call among many are as specified (`Verif.Conc.Effect`), or have no effect.
-/

set_option linter.unusedSectionVars false

namespace Verif.Conc

open Spec SimpleBuilder Store Api

variable {K V L : Type} [LinearOrder K] [LinearOrder V] [DecidableEq L]
  {M : Shop K V L} {A : CState K V L} {w : World K V} {t : Nat} {k : Nat} {ch : Choice K V L}

theorem match_mono {exc : Nat → Prop} {a a' : State K V L} {past past' : List (State K V L)}
    {w w' : World K V} {seen seen' : List (View K V)} {st : Option (Stage K V L)}
    {p : Option (Conc.Pending K V L)} (h : Match w seen past a st p) (hw : World.Later true w w')
    (hg : Grew exc a a') (he : ∀ b cs load, p = some (.closing b cs load) → ¬ exc b)
    (hs : ∃ more, seen' = more ++ seen) (hr : Remembers past a past' a')
    (hh : ∀ i n : Nat, a.handles[i]? = some n → a.log.known n)
    (hp : ∀ n q, a.log.parent n = some q → a.log.known q) : Match w' seen' past' a' st p := by
  cases h with
  | none => exact .none
  | some h =>
    exact .some (h.mono hw hg (fun b cs load e => he b cs load (by rw [e])) hs hr hh hp)

theorem CSim.handlesKnown (h : CSim M A w) (i n : Nat) (hi : A.now.handles[i]? = some n) :
    A.now.log.known n := by
  obtain ⟨_, _, hn, _⟩ := h.handle hi
  exact hn

/-- The world goes on, and the store does not. -/
theorem CSim.later (h : CSim M A w) {w' : World K V} (hl : World.Later true w w')
    (hs : Sim M.session w' A.now) : CSim M A w' :=
  { sim := hs
    loaded := fun l hx => hl.loaded l (h.loaded l hx)
    seen := h.seen.trans hl.seen
    top := h.top
    calls := fun u => match_mono (h.calls u) (exc := fun _ => False) hl .refl
      (fun _ _ _ _ hx => hx) ⟨[], rfl⟩ .refl h.handlesKnown h.sim.layers.parentKnown
    apart := h.apart
    began := h.began }

/-- A rollup down to an ancestor loads the ancestor. -/
theorem CSim.underLoads (h : CSim M A w) (c : Req K V L) :
    ∃ w', World.Later true w w' ∧ CSim M A w' ∧ ∀ l ∈ underLoads M.session c, l ∈ w'.loaded := by
  unfold Conc.underLoads
  split
  · split
    · exact ⟨w, .now, h, noLayers⟩
    · rename_i y hy
      split
      · rename_i l cs hg
        have hst : World.Step true w { w with
            held := (y.name, l) :: w.held, loaded := cs ++ w.loaded, past := w.seen } :=
          .load (v := fun _ => ⟨w.store, w.cache⟩) (i := fun _ => 0) (f := w.store.loadFuel)
            (fun _ => rfl) (fun _ => Nat.le_refl _) (by
              rw [← h.sim.store, ← h.sim.cache] at hg
              exact hg)
        exact ⟨_, .step .now hst, h.later (.step .now hst)
          (h.sim.passes (.step h.sim.layers.run hst) rfl rfl
            (fun q hq => List.mem_cons_of_mem _ hq) rfl),
          fun l hl => List.mem_append_left _ hl⟩
      · exact ⟨w, .now, h, noLayers⟩
  · exact ⟨w, .now, h, noLayers⟩

/-- A step after the world has gone on. -/
theorem Moves.after {p : Conc.Pending K V L} {w' : World K V} (hl : World.Later true w w')
    {st : Stage K V L} {s : Session K V L} {ls : List (InternalLayer K V)}
    (hls : ∀ l ∈ ls, l ∈ w'.loaded) (h : Moves M A t w' p (st, s, [])) :
    Moves M A t w p (st, s, ls) := by
  cases h with
  | quiet h1 h2 _ h4 => exact .quiet (hl.trans h1) h2 (fun l hx => h1.loaded l (hls l hx)) h4
  | effect h1 h2 h3 _ h5 =>
    exact .effect (hl.trans h1) h2 h3 (fun l hx => h1.loaded l (hls l hx)) h5

/-- A plan is made. -/
theorem Moves.plan (h : CSim M A w) {p : Conc.Pending K V L} {w' : World K V}
    (hst : World.Step true w w') (hs : w'.store = w.store) (hl : w'.log = w.log)
    (hh : w'.held = w.held) (hc : w'.cache = w.cache) {st : Stage K V L}
    (hat : At w' M.seen A.past A.now st p) : Moves M A t w p (st, M.session, []) :=
  .quiet (.step .now hst)
    (h.sim.passes (.step h.sim.layers.run hst) hs hl (fun q hq => by rw [hh]; exact hq) hc)
    noLayers hat

theorem continues_openWrite (h : CSim M A w) {i n : Nat} {l : InternalLayer K V}
    (ht : A.calls t = some (.asked (.openWrite i) k)) (hch : ch.Possible M.session)
    (hi : A.now.handles[i]? = some n) (hl : (n, l) ∈ w.held) :
    Moves M A t w (.asked (.openWrite i) k)
      ((continues M.session ch (.openWrite i) l).1, (continues M.session ch (.openWrite i) l).2, []) := by
  obtain ⟨x, hx, hn, _, hxn, _⟩ := h.handle hi
  obtain ⟨fr, _⟩ := h.sim.fresh hch.new.1 hch.new.2 hch.lost
  unfold continues
  dsimp only
  rw [hx]
  dsimp only
  rw [hxn]
  refine .once ht .now (.openWrite hi fr) (List.append_nil _).symm
    (h.sim.newBuilder (y := ⟨ch.new, some n, some []⟩) ?_ fr) ?_
  · refine ⟨rfl, rfl, ?_, Or.inr ⟨[], _, rfl, rfl, (by intro o ho; cases ho), rfl⟩⟩
    intro q hq
    cases hq
    exact ⟨hn, hl⟩
  · rw [h.sim.buildersLength]
    exact .done .refl .nil

theorem continues_squash (h : CSim M A w) {i n : Nat} {l : InternalLayer K V}
    (hi : A.now.handles[i]? = some n) (hl : (n, l) ∈ w.held) :
    Moves M A t w (.asked (.squash i) k)
      ((continues M.session ch (.squash i) l).1, (continues M.session ch (.squash i) l).2, []) := by
  obtain ⟨x, hx, hn, _⟩ := h.handle hi
  have hlo := (h.sim.layers.run.inv.held _ hl).1
  obtain ⟨hln, _⟩ := h.sim.layers.named hn hl
  obtain ⟨pl, hpl⟩ := squash_total h.sim.layers.run.inv.ok hlo
  obtain ⟨e, rfl, _⟩ := squash_plan h.sim.layers.run.inv.ok hlo hpl
  unfold continues
  dsimp only
  rw [hpl]
  refine .plan h (.planSquash hl hpl) rfl rfl rfl rfl (.writingSquash hi ?_)
  rw [← hln]
  exact List.mem_cons_self ..

theorem continues_squashUpto (h : CSim M A w) {i j n m : Nat} {l : InternalLayer K V}
    (ht : A.calls t = some (.asked (.squashUpto i j) k))
    (hi : A.now.handles[i]? = some n) (hj : A.now.handles[j]? = some m) (hl : (n, l) ∈ w.held) :
    Moves M A t w (.asked (.squashUpto i j) k)
      ((continues M.session ch (.squashUpto i j) l).1,
        (continues M.session ch (.squashUpto i j) l).2, []) := by
  obtain ⟨x, hx, hn, _⟩ := h.handle hi
  obtain ⟨y, hy, hm, _, hym, _⟩ := h.handle hj
  have hlo := (h.sim.layers.run.inv.held _ hl).1
  obtain ⟨hln, _⟩ := h.sim.layers.named hn hl
  obtain ⟨u1, u2⟩ := h.sim.layers.run.shape.closed.stackNamesUpto h.sim.layers.run.shape.parent n m
  unfold continues
  dsimp only
  rw [withLayer_some hy, hym, ← h.sim.store]
  by_cases hu : A.now.Under m n
  · obtain ⟨ns, _, hns, _⟩ := u1 ((h.sim.layers.underIff hn).2 hu)
    obtain ⟨pl, hpl⟩ := squashUpto_total h.sim.layers.run.inv.ok hlo (upto := m)
      (by rw [hln]; exact hns)
    obtain ⟨e, rfl, _⟩ := squashUpto_plan h.sim.layers.run.inv.ok hlo hpl
    rw [hpl]
    refine .plan h (.planSquashUpto hl hpl) rfl rfl rfl rfl (.writingUpto hi hj hu ?_)
    rw [← hln]
    exact List.mem_cons_self ..
  · have hns := u2 (fun hx => hu ((h.sim.layers.underIff hn).1 hx))
    obtain ⟨S, r1, _, r2⟩ := h.sim.layers.run.inv.ok.raw' (h.sim.layers.has hm)
    have hcnt := countsLoop_eq r1 w.store.fuel (by unfold fuel; omega)
    have : w.store.squashUpto l m = .err := by
      unfold Store.squashUpto
      rw [hcnt, hln, hns]
      rfl
    rw [this]
    exact .says h ht (.squashUptoWrong hi hj hu)

/-- A rollup has decided. -/
theorem rolls_moves (h : CSim M A w) {c : Req K V L} {n : Nat} {l : InternalLayer K V}
    (ht : A.calls t = some (.asked c k)) (hn : A.now.log.known n) (hl : (n, l) ∈ w.held)
    {pl : Out (Plan K V)} (hp : RollPlan w A.now c n l pl) :
    Moves M A t w (.asked c k) (planned (.rolling c l.name) pl, M.session, []) := by
  obtain ⟨hln, _⟩ := h.sim.layers.named hn hl
  cases hp with
  | @existing r h1 h2 h3 =>
    rw [hln] at h3
    by_cases hr : n = r
    · subst hr
      refine .once ht (.step .now h3) h2 (List.append_nil _).symm
        (h.sim.passes (.step h.sim.layers.run h3) rfl rfl (fun _ hq => hq) rfl) ?_
      show At _ _ _ _ (.rolling c l.name _) _
      rw [hln]
      exact .rollingDone (List.mem_cons_self ..)
    · obtain ⟨h4, h5⟩ := h1.resolve_left hr
      refine .plan h h3 rfl rfl rfl rfl ?_
      show At _ _ _ _ (.rolling c l.name _) _
      rw [hln]
      obtain ⟨_, _, _, h6, _⟩ := h.sim.layers.run.inv.ok.rollup h4
      refine .rollingAgain hr (List.mem_cons_self ..) h6.has rfl h5 (h.began _ _ _ ht)
        ⟨A.now, since_self, ?_⟩
      rw [h.sim.layers.rolledIs n hn, h4]
      rfl
  | wrong h1 => exact .says h ht h1
  | write h1 h2 h3 _ h4 =>
    rw [hln] at h4
    refine .plan h h4 rfl rfl rfl rfl ?_
    show At _ _ _ _ (.rolling c l.name _) _
    rw [hln]
    exact .rollingWrite (List.mem_cons_self ..) h2 (h.began _ _ _ ht) ⟨A.now, since_self, h3⟩

/-- A call goes on with the layer that it has loaded. -/
theorem continues_moves (h : CSim M A w) {c : Req K V L} {n : Nat} {l : InternalLayer K V}
    (ht : A.calls t = some (.asked c k)) (hch : ch.Possible M.session)
    (hin : A.InContract (.asked c k)) (hn : A.now.log.known n) (ho : Of A.now n c)
    (hl : (n, l) ∈ w.held) :
    Moves M A t w (.asked c k) ((continues M.session ch c l).1, (continues M.session ch c l).2, []) := by
  obtain ⟨hin, _⟩ := hin
  cases c with
  | openWrite i => exact continues_openWrite h ht hch ho hl
  | squash i => exact continues_squash h ho hl
  | squashUpto i j =>
    obtain ⟨_, m, hj⟩ := hin
    exact continues_squashUpto h ht ho hj hl
  | rollup i =>
    unfold continues
    dsimp only
    rw [← h.sim.store]
    exact rolls_moves h ht hn hl (h.sim.planRollup ho hn hl)
  | rollupUpto i j =>
    obtain ⟨n', m, hi, hj, hx⟩ := hin
    have e : n' = n := Option.some.inj (hi.symm.trans ho)
    subst e
    obtain ⟨y, hy, hm, _, hym, _⟩ := h.handle hj
    unfold continues
    dsimp only
    rw [withLayer_some hy, hym, ← h.sim.store, ← h.sim.cache]
    exact rolls_moves h ht hn hl (h.sim.planUpto ho hj hx hl (fun _ _ hc => hc))
  | impreciseRollupUpto i j =>
    obtain ⟨n', m, hi, hj, hx⟩ := hin
    have e : n' = n := Option.some.inj (hi.symm.trans ho)
    subst e
    obtain ⟨y, hy, hm, _, hym, _⟩ := h.handle hj
    unfold continues
    dsimp only
    rw [withLayer_some hy, hym, ← h.sim.store]
    exact rolls_moves h ht hn hl (h.sim.planImprecise ho hj hx hl
      (fun _ _ hc => by cases hc))
  | _ => exact ho.elim

theorem sets_setHead (h : CSim M A w) {l : L} {i n : Nat} {d : LabelData Name}
    (ht : A.calls t = some (.asked (.setHead l i) k)) (hi : A.now.handles[i]? = some n)
    (ha : ∀ r, d.layer = some r → A.now.log.Ancestor r n) (htr : Tracks A.past A.now k l d) :
    Moves M A t w (.asked (.setHead l i) k)
      ((sets M.session (.setHead l i) l n d).1, (sets M.session (.setHead l i) l n d).2, []) := by
  obtain ⟨x, hx, hn, _⟩ := h.handle hi
  unfold sets
  dsimp only
  cases hg : M.session.labels.get? l with
  | none =>
    rw [set_missing hg]
    exact .says h ht (.setHeadMissing (h.sim.noGraph.2 hg))
  | some d' =>
    have hd := h.sim.graph hg
    by_cases hv : d'.version = d.version
    · rcases set_same (disk := M.session.disk) (n := some n) hg hv with e | ⟨hd', e⟩
      · rw [e]
        rcases htr.2 with ⟨p, hp, hp'⟩ | ⟨o, v, h1, h2, h3⟩
        · rw [hv] at hd
          exact .effect .now (.setHeadAgain hi hd ⟨htr.1, ha⟩ hp hp')
            (h.sim.insertGraph l hn) noLayers (.done .refl .nil)
        · rw [hd] at h1
          cases h1
          have h3 := h3 hv
          rw [h3, hv] at hd
          exact .once ht .now (.setHead hd hi ha) (List.append_nil _).symm
            (h.sim.insertGraph l hn) (.done .refl .nil)
      · rw [e]
        refine .effect .now (.setHeadLate hi hd ⟨htr.1, ha⟩ ?_) h.sim noLayers (.done .refl .nil)
        intro e
        exact hd' (Prod.ext_iff.1 e).1.symm
    · rw [set_late hg hv]
      refine .effect .now (.setHeadLate hi hd ⟨htr.1, ha⟩ ?_) h.sim noLayers (.done .refl .nil)
      intro e
      exact hv (Prod.ext_iff.1 e).2.symm

theorem sets_force (h : CSim M A w) {l : L} {i n : Nat} {d : LabelData Name}
    (ht : A.calls t = some (.asked (.forceSetHead l i) k)) (hk : k ≤ A.past.length)
    (hi : A.now.handles[i]? = some n) :
    Moves M A t w (.asked (.forceSetHead l i) k)
      ((sets M.session (.forceSetHead l i) l n d).1, (sets M.session (.forceSetHead l i) l n d).2, []) := by
  obtain ⟨x, hx, hn, _⟩ := h.handle hi
  unfold sets
  dsimp only
  cases hg : M.session.labels.get? l with
  | none =>
    rw [set_missing hg]
    exact .says h ht (.forceSetHeadMissing (h.sim.noGraph.2 hg))
  | some d' =>
    have hd := h.sim.graph hg
    by_cases hv : d'.version = d.version
    · rcases set_same (disk := M.session.disk) (n := some n) hg hv with e | ⟨_, e⟩
      · rw [e]
        rw [hv] at hd
        exact .once ht .now (.forceSetHead hd hi) (List.append_nil _).symm
            (h.sim.insertGraph l hn) (.done .refl .nil)
      · rw [e]
        exact .quiet .now h.sim noLayers (.start hk)
    · rw [set_late hg hv]
      exact .quiet .now h.sim noLayers (.start hk)

theorem sets_version (h : CSim M A w) {l : L} {i n : Nat} {d : LabelData Name}
    (ht : A.calls t = some (.asked (.forceSetHeadVersion l i d.version) k))
    (hi : A.now.handles[i]? = some n) (htr : Tracks A.past A.now k l d) :
    Moves M A t w (.asked (.forceSetHeadVersion l i d.version) k)
      ((sets M.session (.forceSetHeadVersion l i d.version) l n d).1,
        (sets M.session (.forceSetHeadVersion l i d.version) l n d).2, []) := by
  obtain ⟨x, hx, hn, _⟩ := h.handle hi
  unfold sets
  dsimp only
  cases hg : M.session.labels.get? l with
  | none =>
    rw [set_missing hg]
    exact .says h ht (.forceSetHeadVersionMissing (h.sim.noGraph.2 hg))
  | some d' =>
    have hd := h.sim.graph hg
    by_cases hv : d'.version = d.version
    · rcases set_same (disk := M.session.disk) (n := some n) hg hv with e | ⟨hd', e⟩
      · rw [e]
        rw [hv] at hd
        exact .once ht .now (.forceSetHeadVersion hd hi) (List.append_nil _).symm
            (h.sim.insertGraph l hn) (.done .refl .nil)
      · rw [e]
        rw [hv] at hd
        rcases htr.2 with ⟨p, hp, hp'⟩ | ⟨o, v, h1, h2, h3⟩
        · exact .effect .now (.versionAgain hi hd hp hp') h.sim noLayers (.done .refl .nil)
        · rw [hd] at h1
          cases h1
          exact absurd (h3 rfl) hd'
    · rw [set_late hg hv]
      exact .says h ht (.forceSetHeadVersionRefused hd hv)

/-- The rest of a load. -/
theorem search_moves (h : CSim M A w) {g : Goal K V L} {n : Nat} {ch : CChoice K V L}
    (hch : ch.Possible M (.search g n k)) {p : Conc.Pending K V L} {pre post : List (View K V)}
    {v : View K V} (hw : Wants A.now n g p) (hs : M.seen = pre ++ v :: post)
    (hk : post.length + 1 = k) (hv : v.store.has n = true) :
    Moves M A t w p (advance M ch (.search g n k)) := by
  obtain ⟨i, h1, h2, h3⟩ := hch.views g n k rfl
  have h4 := hch.rounds g n k rfl
  rw [← h.sim.store] at h4
  have hi : i 0 = pre.length := by
    rw [hs, List.length_append, List.length_cons] at h1
    omega
  have h0 : ch.views 0 = v := by
    have := h3 0
    rw [hi, hs, List.getElem?_append_right (Nat.le_refl _), Nat.sub_self] at this
    exact (Option.some.inj this).symm
  obtain ⟨l, cs, h5, h6⟩ := World.Run.loads h.sim.layers.run h.sim.layers.flat h.seen h3 h2
    (n := n) (by rw [h0]; exact hv) h4
  simp only [advance, ← h.sim.store, h5]
  refine .quiet (.step .now h6)
    (h.sim.passes (.step h.sim.layers.run h6) rfl rfl (fun q hq => List.mem_cons_of_mem _ hq) rfl)
    (fun l hl => List.mem_append_left _ hl) ?_
  cases hw with
  | answer h7 h8 => exact .done h8 (.cons ⟨h7, List.mem_cons_self ..⟩ .nil)
  | use h7 h8 => exact .holds h7 h8 (List.mem_cons_self ..)

theorem writing_squash (h : CSim M A w) {i n : Nat} {e : Entry K V}
    (ht : A.calls t = some (.asked (.squash i) k)) {ch : CChoice K V L}
    (hch : ch.base.Possible M.session) (hi : A.now.handles[i]? = some n)
    (hp : (.squash n, .write e) ∈ w.plans) :
    Moves M A t w (.asked (.squash i) k) (advance M ch (.writing (.squash i) (.write e))) := by
  obtain ⟨x, hx, hn, _⟩ := h.handle hi
  obtain ⟨fr, hnew⟩ := h.sim.fresh hch.new.1 hch.new.2 hch.lost
  have hst := World.Step.writeSquash (safe := true) hp hnew
  obtain ⟨j, k1, k2⟩ := h.sim.writeSquash fr hnew hn (h.sim.layers.run.inv.plans _ hp)
    (Or.inl ⟨rfl, rfl⟩) (.step h.sim.layers.run hst) rfl rfl rfl rfl
  exact .once ht (.step .now hst) (.squash hi fr k2) rfl k1
    (.fetch (.answer (History.known_cons.2 (Or.inl rfl)) (fun _ => rfl)))

theorem writing_upto (h : CSim M A w) {i j n m : Nat} {e : Entry K V}
    (ht : A.calls t = some (.asked (.squashUpto i j) k)) {ch : CChoice K V L}
    (hch : ch.base.Possible M.session) (hi : A.now.handles[i]? = some n)
    (hj : A.now.handles[j]? = some m) (hu : A.now.Under m n)
    (hp : (.squashUpto n m, .write e) ∈ w.plans) :
    Moves M A t w (.asked (.squashUpto i j) k) (advance M ch (.writing (.squashUpto i j) (.write e))) := by
  obtain ⟨x, hx, hn, _⟩ := h.handle hi
  obtain ⟨y, hy, hm, _⟩ := h.handle hj
  obtain ⟨fr, hnew⟩ := h.sim.fresh hch.new.1 hch.new.2 hch.lost
  have hst := World.Step.writeSquashUpto (safe := true) hp hnew
  obtain ⟨q, k1, k2⟩ := h.sim.writeSquash fr hnew hn (h.sim.layers.run.inv.plans _ hp)
    (Or.inr ⟨m, rfl, rfl, hm⟩) (.step h.sim.layers.run hst) rfl rfl rfl rfl
  exact .once ht (.step .now hst) (.squashUpto hi hj hu fr k2) rfl k1
    (.fetch (.answer (History.known_cons.2 (Or.inl rfl)) (fun _ => rfl)))

theorem writing_merge (h : CSim M A w) {ns : List Nat} {e : Entry K V}
    (ht : A.calls t = some (.asked (.merge ns) k)) {ch : CChoice K V L}
    (hch : ch.base.Possible M.session) (hns : ∀ n ∈ ns, A.now.log.known n ∧ A.now.log.parent n = none)
    (hp : (.merge ns, .write e) ∈ w.plans) :
    Moves M A t w (.asked (.merge ns) k) (advance M ch (.writing (.merge ns) (.write e))) := by
  obtain ⟨fr, hnew⟩ := h.sim.fresh hch.new.1 hch.new.2 hch.lost
  have hst := World.Step.writeMerge (safe := true) hp hnew
  obtain ⟨q, k1, k2⟩ := h.sim.writeMerge fr hnew hns (h.sim.layers.run.inv.plans _ hp)
    (.step h.sim.layers.run hst) rfl rfl rfl rfl
  exact .once ht (.step .now hst) (.merge hns fr k2) (List.append_nil _).symm k1 (.done .refl .nil)

theorem rolls_known (h : CSim M A w) {c : Req K V L} {n : Nat} {upto : Option Nat}
    (hr : Rolls A.now c n upto) : A.now.log.known n ∧ ∀ p, upto = some p → A.now.Under p n := by
  cases hr with
  | all h1 h2 => exact ⟨(h.handle h1).choose_spec.2.1, by intro p hp; cases hp⟩
  | upto h1 h2 h3 h4 h5 =>
    refine ⟨(h.handle h1).choose_spec.2.1, ?_⟩
    intro p hp
    cases hp
    exact h4

theorem rolling_write (h : CSim M A w) {c : Req K V L} {n : Nat} {e : Entry K V}
    {ch : CChoice K V L} (_ : A.calls t = some (.asked c k))
    (hch : ch.base.Possible M.session) (hp : (.rollup n, .write e) ∈ w.plans)
    (hr : Rolls A.now c n e.parent) (hne : ∃ q ∈ since A.now A.past k, Needs q n e.parent) :
    Moves M A t w (.asked c k) (advance M ch (.rolling c n (.write e))) := by
  obtain ⟨q, hq, hne⟩ := hne
  obtain ⟨hn, hu⟩ := rolls_known h hr
  obtain ⟨fr, hnew⟩ := h.sim.fresh hch.new.1 hch.new.2 hch.lost
  have hst := World.Step.writeRollup (safe := true) hp hnew
  refine .effect (.step .now hst) (.hide hr hq hne fr)
    (h.sim.hide (.step h.sim.layers.run hst) fr hnew hn rfl rfl rfl rfl) noLayers
    (.written ?_ hn (List.mem_cons_self ..) ?_ ?_ hu)
  · rintro rfl
    exact fr.1 hn
  · show Store.has ((ch.base.new, e) :: w.store) ch.base.new = true
    simp [Store.has, get?_cons_self]
  · show Store.parent? ((ch.base.new, e) :: w.store) ch.base.new = e.parent
    simp [Store.parent?, get?_cons_self]

theorem written_again (h : CSim M A w) {c : Req K V L} {n r : Nat} {ch : CChoice K V L}
    (_ : A.calls t = some (.asked c k)) (hnr : n ≠ r) (hp : (n, r) ∈ w.pending)
    (hr : Rolls A.now c n (w.store.parent? r))
    (hq : ∃ q ∈ since A.now A.past k, q.rolled n = some (w.store.parent? r)) :
    Moves M A t w (.asked c k) (advance M ch (.written n r)) := by
  obtain ⟨q, hq, hqr⟩ := hq
  obtain ⟨hn, hu⟩ := rolls_known h hr
  have hst := World.Step.register (safe := true) hp
  exact .effect (.step .now hst) (.again hr hq hqr)
    (h.sim.settle (.step h.sim.layers.run hst) hn hnr rfl rfl rfl rfl hu) noLayers .invalidating

theorem written_moves (h : CSim M A w) {n r : Nat} {ch : CChoice K V L}
    (_ : A.calls t = some (.rolling n (w.store.parent? r))) (hnr : n ≠ r) (hn : A.now.log.known n)
    (hp : (n, r) ∈ w.pending) (hu : ∀ p, w.store.parent? r = some p → A.now.Under p n) :
    Moves M A t w (.rolling n (w.store.parent? r)) (advance M ch (.written n r)) := by
  have hst := World.Step.register (safe := true) hp
  refine .effect (.step .now hst) .settle
    (h.sim.settle (.step h.sim.layers.run hst) hn hnr rfl rfl rfl rfl hu) noLayers
      .invalidating

theorem taken_moves (h : CSim M A w) {x : HeldBuilder K V} {sb : SimpleBuilder K V} {load : Bool}
    {b : Nat} {ops : List (Op K V)} {y : Builder K V} {ch : CChoice K V L}
    (hch : ch.base.Possible M.session)
    (ht : A.calls t = some (.closing b (ops.filterMap (opCall x.below)) load))
    (hy : A.now.builders[b]? = some y) (hc : y.calls = none) (hn : y.name = x.name)
    (hp : y.parent = x.on.map Prod.fst) (hh : ∀ q, x.on = some q → A.now.log.known q.1 ∧ q ∈ w.held)
    (h1 : ¬ A.now.log.known y.name) (h2 : y.name ∉ A.now.hidden)
    (h3 : (SimpleBuilder.new x.below).run ops = some sb)
    (h4 : ∀ op ∈ ops, IdsKnown x.below op ∧ opCall x.below op ≠ none) :
    Moves M A t w (.closing b (ops.filterMap (opCall x.below)) load)
      (advance M ch (.taken x sb load)) := by
  obtain ⟨d, w', i, g1, g2, _, g3, g4⟩ :=
    h.sim.writeCommit hy hc hn hp hh ⟨h1, h2⟩ h3 h4 hch.nv hch.pm
  simp only [advance, g1]
  cases load with
  | false =>
    exact .effect (.step .now g2) (.write hy g4 (Or.inl ⟨rfl, rfl, rfl⟩))
      g3 noLayers (.done .refl .nil)
  | true =>
    refine .effect (.step .now g2) (.write hy g4 (Or.inr ⟨rfl, rfl, rfl⟩))
      g3 noLayers ?_
    rw [← hn]
    exact .fetch (.answer (History.known_cons.2 (Or.inl rfl)) (fun _ => rfl))

theorem byValue_call {S S' : List (LayerData K V)} {op : Op K V} (h : ByValue op) :
    ∃ c, opCall S op = some c ∧ opCall S' op = some c ∧ IdsKnown S op := by
  rcases h with ⟨t, rfl⟩ | ⟨t, rfl⟩
  · exact ⟨_, rfl, rfl, trivial⟩
  · exact ⟨_, rfl, rfl, trivial⟩

theorem applying_moves (h : CSim M A w) {b : Nat} {op : Op K V} {ops : List (Op K V)}
    {strict : Bool} {y : Builder K V} {ch : CChoice K V L}
    (ht : A.calls t = some (.applying b ((op :: ops).filterMap (opCall [])) strict))
    (hin : A.InContract (.applying b ((op :: ops).filterMap (opCall [])) strict))
    (hy : A.now.builders[b]? = some y) (hv : ∀ op' ∈ op :: ops, ByValue op') :
    Moves M A t w (.applying b ((op :: ops).filterMap (opCall [])) strict)
      (advance M ch (.applying b (op :: ops) strict)) := by
  obtain ⟨x, hx, hxy⟩ := h.sim.builder hy
  obtain ⟨c, c1, c2, c3⟩ := byValue_call (S := x.below) (S' := []) (hv op (List.mem_cons_self ..))
  have hrest : ∀ op' ∈ ops, ByValue op' := fun o ho => hv o (List.mem_cons_of_mem _ ho)
  have e0 : (op :: ops).filterMap (opCall []) = c :: ops.filterMap (opCall []) := by
    rw [List.filterMap_cons, c2]
  rw [e0] at ht hin ⊢
  simp only [advance, hx]
  rcases hxy.lock with ⟨h1, h2⟩ | ⟨ops0, sb, h1, h3, h4, h2⟩
  · have e1 : BuilderUse.withBuilder x.lock op = (.refused, x.lock) := by rw [h1]; rfl
    rw [e1]
    dsimp only
    rw [h.sim.setLockSame hx]
    cases strict with
    | true =>
      obtain ⟨z, hz, hz'⟩ := hin
      rw [hy] at hz
      cases hz
      exact absurd h2 hz'
    | false =>
      exact .effect .now (.applySkip hy h2) h.sim noLayers (.applying hy hrest)
  · obtain ⟨b1, _, _, _⟩ := h.sim.below hxy
    obtain ⟨sb', g1, g2⟩ := run_more b1 h3 (fun o ho => (h4 o ho).1) c3
    have e1 : BuilderUse.withBuilder x.lock op = (.done, .open sb') := by
      rw [h1]; simp only [BuilderUse.withBuilder, g1]
    rw [e1]
    have hs := h.sim.setBuilder (x' := { x with lock := .open sb' })
      (y' := { y with calls := some (ops0.filterMap (opCall x.below) ++ [c]) }) hy
      ⟨hxy.name, hxy.parent, hxy.held, Or.inr ⟨ops0 ++ [op], sb', rfl, g2, (by
        intro o ho
        rw [List.mem_append, List.mem_singleton] at ho
        rcases ho with ho | rfl
        · exact h4 o ho
        · exact ⟨c3, by show opCall x.below _ ≠ none; rw [c1]; simp⟩), (by
        show _ = some ((ops0 ++ [op]).filterMap (opCall x.below))
        rw [List.filterMap_append]
        simp [c1])⟩⟩ rfl (fun _ => by rw [h2]; simp)
    refine .effect .now (.apply hy h2) hs noLayers
      (.applying (y := { y with calls := some (ops0.filterMap (opCall x.below) ++ [c]) }) ?_ hrest)
    show (A.now.builders.set b _)[b]? = _
    rw [List.getElem?_set_self (List.getElem?_eq_some_iff.1 hy).1]

theorem finds_some {s : Session K V L} {c : Req K V L} {l : InternalLayer K V}
    (h : finds s c l = true) : (s.store.rollup? l.name).isSome := by
  unfold finds at h
  split at h
  · simp only [Bool.and_eq_true] at h; exact h.2
  · split at h
    · simp only [Bool.and_eq_true] at h; exact h.2
    · cases h
  · split at h
    · simp only [Bool.and_eq_true] at h; exact h.2
    · cases h
  · cases h

/-- A step of a call is as specified. -/
theorem advance_moves (h : CSim M A w) {ch : CChoice K V L} {st : Stage K V L}
    {p : Conc.Pending K V L} (ht : A.calls t = some p) (hat : At w M.seen A.past A.now st p)
    (hin : A.InContract p) (hch : ch.Possible M st) : Moves M A t w p (advance M ch st) := by
  cases hat with
  | start h1 => exact begins_moves h ht h1 hin.1 hch.base
  | fetch h1 =>
    obtain ⟨w', g1, g2, g3⟩ := look_at h (by cases h1 <;> assumption) _ _
    exact .quiet g1 g2 noLayers (g3 _ _ h1)
  | search h1 h2 h3 h4 => exact search_moves h hch h1 h2 h3 h4
  | @holds c l n k h1 h2 h3 =>
    simp only [advance]
    split
    · rename_i hf
      refine .quiet .now h.sim noLayers (.reading h1 h2 h3 ?_)
      rw [h.sim.store]
      exact finds_some hf
    · obtain ⟨w1, g1, g2, g3⟩ := h.underLoads c
      exact .after g1 g3 (continues_moves g2 ht hch.base hin h1 h2 (g1.held _ h3))
  | @reading c l n k h1 h2 h3 h4 =>
    rw [h.sim.store] at h4
    obtain ⟨r, hr⟩ := Option.isSome_iff_exists.1 h4
    simp only [advance, hr]
    obtain ⟨w1, g1, g2, g3⟩ := h.underLoads c
    exact .after g1 g3 (continues_moves g2 ht hch.base hin h1 h2 (g1.held _ h3))
  | asking h1 h2 h3 h4 h5 =>
    obtain ⟨x, hx, hn, _⟩ := h.handle h2
    obtain ⟨b, g1, g2⟩ := h.sim.isAncestor hn _
    have hb := g2.2 h4
    subst hb
    simp only [advance, h3, g1]
    refine .quiet .now h.sim noLayers (.setting h1 h2 ?_ h5)
    intro r hr
    rw [h3] at hr
    cases hr
    exact h4
  | askingNot h1 h2 h3 =>
    obtain ⟨b, g1, g2⟩ := h.sim.isAncestor h1 _
    cases b with
    | true => exact absurd (g2.1 rfl) h3
    | false =>
      simp only [advance, h2, g1]
      exact .quiet .now h.sim noLayers (.done .refl .nil)
  | setting h1 h2 h3 h4 => exact sets_setHead h ht h2 h3 h4
  | settingForce h1 h2 => exact sets_force h ht h1 h2
  | settingVersion _ h2 h3 h4 => subst h3; exact sets_version h ht h2 h4
  | writingSquash h1 h2 => exact writing_squash h ht hch.base h1 h2
  | writingUpto h1 h2 h3 h4 => exact writing_upto h ht hch.base h1 h2 h3 h4
  | writingMerge h1 h2 => exact writing_merge h ht hch.base h1 h2
  | rollingDone h1 =>
    exact .plan h (.keep h1) rfl rfl rfl rfl (.writtenDone (List.mem_cons_self ..))
  | rollingAgain h1 h2 h3 h4 h5 h6 h7 =>
    exact .plan h (.keep h2) rfl rfl rfl rfl
      (.writtenAgain h1 (List.mem_cons_self ..) h3 h4 h5 h6 h7)
  | rollingWrite h1 h2 h3 h4 => exact rolling_write h ht hch.base h1 h2 h4
  | writtenDone h1 =>
    simp only [advance, registerRollup, if_true]
    exact .quiet .now h.sim noLayers .invalidating
  | writtenAgain h1 h2 h3 h4 h5 h6 h7 => subst h4; exact written_again h ht h1 h2 h5 h7
  | written h1 h2 h3 h4 h5 h6 => subst h5; exact written_moves h ht h1 h2 h3 h6
  | @invalidating n =>
    simp only [advance]
    rw [← h.sim.cache]
    have hst := World.Step.evict (safe := true) (remove_sub w.cache n)
    exact .quiet (.step .now hst)
      (h.sim.frame (.step h.sim.layers.run hst) rfl rfl (fun _ hq => hq)) noLayers (.done .refl .nil)
  | taken h1 h2 h3 h4 h5 h6 h7 h8 h9 => exact taken_moves h hch.base ht h1 h2 h3 h4 h5 h6 h7 h8 h9
  | @applying b ops strict y h1 h2 =>
    cases ops with
    | nil =>
      exact .effect .now .applied h.sim noLayers
        (.done .refl .nil)
    | cons op ops => exact applying_moves h ht hin h1 h2
  | done h1 h2 => exact .quiet .now h.sim noLayers (.done h1 h2)

end Verif.Conc
