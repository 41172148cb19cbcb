import Verif.Lemmas.ApiRollup
import Verif.Lemmas.ApplyOk

/-!
Builders are as specified (`Verif.Api.Step`).
-/

namespace Verif.Api

open Spec SimpleBuilder Store World Session

variable {K V L : Type} [LinearOrder K] [LinearOrder V] [DecidableEq L]
  {s : Session K V L} {w : World K V} {a : State K V L} {ch : Choice K V L}

/-- What is below a builder. -/
theorem Sim.below (h : Sim s w a) {x : HeldBuilder K V} {y : Builder K V}
    (hb : BuilderSim w a.log x y) : Reachable x.below ∧ a.baseIds y.parent = idsOf x.below ∧
      NodesOnly x.below ∧ ∀ t, triplesOf x.below t ↔ a.log.below y.parent t := by
  rw [hb.parent]
  unfold HeldBuilder.below
  cases hq : x.on with
  | none =>
    refine ⟨.none, idsOf_nil.symm, ?_, ?_⟩
    · rintro g ⟨u, _, hx⟩; exact absurd hx (noTriples u)
    · intro t
      refine ⟨?_, False.elim⟩
      rintro ⟨u, _, hx⟩; exact absurd hx (noTriples u)
  | some q =>
    obtain ⟨h1, h2⟩ := hb.held q hq
    exact h.layers.held h1 h2

theorem Sim.withBuilder (h : Sim s w a) {b : Nat} {x : HeldBuilder K V} (hx : s.builders[b]? = some x)
    (k : HeldBuilder K V → Ans K V L × Session K V L) : s.withBuilder b k = k x := by
  have _ := h
  unfold Session.withBuilder
  rw [hx]

/-- The change that a call on a builder is. -/
theorem opCall_means {S : List (LayerData K V)} (hS : Reachable S) {e : Edit K V}
    {c : Call (VTriple K V)} (hm : Edit.Means (idsOf S) e c) :
    opCall S (toOp e) = some c ∧ IdsKnown S (toOp e) := by
  obtain ⟨Ps, Ns, hok⟩ := hS.good
  cases e with
  | addValue t =>
    cases c with
    | add t' => exact ⟨by rw [show t' = t from hm]; rfl, trivial⟩
    | remove t' => exact hm.elim
  | removeValue t =>
    cases c with
    | add t' => exact hm.elim
    | remove t' => exact ⟨by rw [show t' = t from hm]; rfl, trivial⟩
  | addId u =>
    cases c with
    | add t =>
      have hr := (code_iff hS t u).1 hm
      refine ⟨?_, (Res.range hok hr).2⟩
      simp only [toOp, opCall, (idTripleToString_res hok u t).2 hr]
    | remove t => exact hm.elim
  | removeId u =>
    cases c with
    | add t => exact hm.elim
    | remove t =>
      have hr := (code_iff hS t u).1 hm
      refine ⟨?_, (Res.range hok hr).2⟩
      simp only [toOp, opCall, (idTripleToString_res hok u t).2 hr]

/-- One more change. -/
theorem run_more {S : List (LayerData K V)} (hS : Reachable S) {ops : List (Op K V)}
    {b : SimpleBuilder K V} (hr : (SimpleBuilder.new S).run ops = some b)
    (hk : ∀ op ∈ ops, IdsKnown S op) {op : Op K V} (ho : IdsKnown S op) :
    ∃ b', b.step op = some b' ∧ (SimpleBuilder.new S).run (ops ++ [op]) = some b' := by
  obtain ⟨Ps, Ns, hok⟩ := hS.good
  obtain ⟨b', hb', _⟩ := commits_exist hok (ops := ops ++ [op]) (by
    intro o ho'
    rw [List.mem_append, List.mem_singleton] at ho'
    rcases ho' with ho' | rfl
    · exact hk o ho'
    · exact ho)
  refine ⟨b', ?_, hb'⟩
  rw [SimpleBuilder.run_append, hr] at hb'
  simp only [Option.bind_some, SimpleBuilder.run] at hb'
  cases hst : b.step op with
  | none => rw [hst] at hb'; cases hb'
  | some c => rw [hst] at hb'; exact hb'

theorem Sim.createBase (h : Sim s w a) (hch : ch.Possible s) :
    SimulatesAt w a .createBase (s.perform ch .createBase) := by
  obtain ⟨fr, _⟩ := h.fresh hch.new.1 hch.new.2 hch.lost
  refine ⟨_, ?_, h.newBuilder (y := ⟨ch.new, none, some []⟩) ?_ fr⟩
  · show Step a _ (.builder s.builders.length) _
    rw [h.buildersLength]
    exact .createBase fr
  · exact ⟨rfl, rfl, (by intro q hq; cases hq), Or.inr ⟨[], _, rfl, rfl, (by intro o ho; cases ho), rfl⟩⟩

theorem Sim.openWrite (h : Sim s w a) (hch : ch.Possible s) {i : Nat} (hi : a.Held i) :
    Simulates a (.openWrite i) (s.perform ch (.openWrite i)) := by
  obtain ⟨n, hi⟩ := hi
  obtain ⟨x, hx, hn, hxh⟩ := h.handle hi
  obtain ⟨hxn, _⟩ := h.layers.named hn hxh
  simp only [perform]
  rw [h.withLayer hx, hxn]
  obtain ⟨l, w1, h1, h2, h3, h4, h5⟩ := h.load hn .failed
  rw [h1]
  obtain ⟨fr, _⟩ := h2.fresh hch.new.1 hch.new.2 hch.lost
  refine ⟨w1, _, ?_, h2.newBuilder (y := ⟨ch.new, some n, some []⟩) ?_ fr⟩
  · show Step a _ (.builder s.builders.length) _
    rw [h.buildersLength]
    exact .openWrite hi fr
  · refine ⟨rfl, rfl, ?_, Or.inr ⟨[], _, rfl, rfl, (by intro o ho; cases ho), rfl⟩⟩
    intro q hq
    cases hq
    exact ⟨hn, by rw [h5]; exact List.mem_cons_self ..⟩

theorem Sim.builderName (h : Sim s w a) {b : Nat} (hb : a.Built b) :
    SimulatesAt w a (.builderName b) (s.perform ch (.builderName b)) := by
  obtain ⟨y, hy⟩ := hb
  obtain ⟨x, hx, hxy⟩ := h.builder hy
  simp only [perform]
  rw [h.withBuilder hx, ← hxy.name]
  exact ⟨a, .builderName hy, h⟩

theorem Sim.builderParent (h : Sim s w a) {b : Nat} (hb : a.Built b) :
    SimulatesAt w a (.builderParent b) (s.perform ch (.builderParent b)) := by
  obtain ⟨y, hy⟩ := hb
  obtain ⟨x, hx, hxy⟩ := h.builder hy
  simp only [perform]
  rw [h.withBuilder hx]
  have hp := hxy.parent
  cases ho : x.on with
  | none =>
    rw [ho] at hp
    exact ⟨a, .builderParentNone hy hp, h⟩
  | some q =>
    rw [ho] at hp
    obtain ⟨h1, h2⟩ := hxy.held q ho
    refine ⟨_, ?_, h.hold h1 h2⟩
    show Step a _ (.layer s.layers.length) _
    rw [h.handlesLength]
    exact .builderParent hy hp

theorem Sim.committed (h : Sim s w a) {b : Nat} (hb : a.Built b) :
    SimulatesAt w a (.committed b) (s.perform ch (.committed b)) := by
  obtain ⟨y, hy⟩ := hb
  obtain ⟨x, hx, hxy⟩ := h.builder hy
  simp only [perform]
  rw [h.withBuilder hx]
  rcases hxy.lock with ⟨h1, h2⟩ | ⟨ops, sb, h1, _, _, h2⟩
  · rw [h1]
    exact ⟨a, .committed (f := true) hy (by simp [h2]), h⟩
  · rw [h1]
    exact ⟨a, .committed (f := false) hy (by simp [h2]), h⟩

/-- A lock that is as it was. -/
theorem Sim.setLockSame (h : Sim s w a) {b : Nat} {x : HeldBuilder K V}
    (hx : s.builders[b]? = some x) : s.setLock b x x.lock = s := by
  have _ := h
  unfold setLock
  have : s.builders.set b { x with lock := x.lock } = s.builders := by
    apply List.ext_getElem?
    intro i
    rw [List.getElem?_set]
    split
    · rename_i e
      subst e
      rw [hx]
      split
      · rfl
      · rename_i hlt
        exact absurd (List.getElem?_eq_some_iff.1 hx).1 hlt
    · rfl
  rw [this]

theorem Sim.edit (h : Sim s w a) {b : Nat} {e : Edit K V} (hin : InContract a (.edit b e)) :
    SimulatesAt w a (.edit b e) (s.perform ch (.edit b e)) := by
  obtain ⟨y, hy, hm⟩ := hin
  obtain ⟨x, hx, hxy⟩ := h.builder hy
  obtain ⟨b1, b2, _, _⟩ := h.below hxy
  simp only [perform]
  rw [h.withBuilder hx]
  rcases hxy.lock with ⟨h1, h2⟩ | ⟨ops, sb, h1, h3, h4, h2⟩
  · have e1 : BuilderUse.withBuilder x.lock (toOp e) = (.refused, x.lock) := by rw [h1]; rfl
    rw [e1]
    dsimp only
    rw [h.setLockSame hx]
    exact ⟨a, .editCommitted hy h2, h⟩
  · obtain ⟨c, hc⟩ := hm (by rw [h2]; simp)
    have hc' := hc
    rw [b2] at hc'
    obtain ⟨c1, c2⟩ := opCall_means b1 hc'
    obtain ⟨sb', g1, g2⟩ := run_more b1 h3 (fun o ho => (h4 o ho).1) c2
    have e1 : BuilderUse.withBuilder x.lock (toOp e) = (.done, .open sb') := by
      rw [h1]; simp only [BuilderUse.withBuilder, g1]
    rw [e1]
    refine ⟨_, .edit hy h2 hc, ?_⟩
    refine h.setBuilder (x' := { x with lock := .open sb' }) hy ?_ rfl (fun _ => by rw [h2]; simp)
    refine ⟨hxy.name, hxy.parent, hxy.held, Or.inr ⟨ops ++ [toOp e], sb', rfl, g2, ?_, ?_⟩⟩
    · intro o ho
      rw [List.mem_append, List.mem_singleton] at ho
      rcases ho with ho | rfl
      · exact h4 o ho
      · exact ⟨c2, by show opCall x.below _ ≠ none; rw [c1]; simp⟩
    · show _ = some ((ops ++ [toOp e]).filterMap (opCall x.below))
      rw [List.filterMap_append]
      simp [c1]

/-- The subjects of a committed layer are nodes. -/
theorem commit_nodes {S : List (LayerData K V)} (hS : Reachable S) (hN : NodesOnly S)
    {ops : List (Op K V)} (hk : ∀ op ∈ ops, IdsKnown S op ∧ opCall S op ≠ none)
    {d : LayerData K V} (hd : Commits S ops d) : NodesOnly (d :: S) := by
  obtain ⟨Ps, Ns, hok⟩ := hS.good
  obtain ⟨P, N, hc⟩ := commits_committed hok (fun o ho => (hk o ho).1) hd
  intro g hg
  rcases (hc.content hok g).1 hg with ⟨⟨op, ho, hx⟩, _⟩ | ⟨hx, _⟩
  · cases op with
    | addValue t => exact ⟨t, hx⟩
    | addId u =>
      have hq := (hk _ ho).2
      simp only [opCall] at hq
      cases hs : Stack.idTripleToString S u with
      | none => rw [hs] at hq; exact absurd rfl hq
      | some o =>
        cases o with
        | none => rw [hs] at hq; exact absurd rfl hq
        | some t => exact ⟨t, Res.inj hok hx ((idTripleToString_res hok u t).1 hs)⟩
    | removeValue t => exact hx.elim
    | removeId u => exact hx.elim
  · exact hN g hx

omit [LinearOrder K] [LinearOrder V] in
theorem commit_triples {lg : History (VTriple K V)} {n : Nat} {p : Option Nat}
    {cs : List (Call (VTriple K V))} (t : VTriple K V) :
    History.triples (.commit n p cs :: lg) n t ↔ after (lg.below p) cs t := by
  cases p <;> simp [History.triples, Event.new, History.below, after]

/-- A commit that has closed its builder `y` with the changes `ops` writes the layer. -/
theorem Sim.writeCommit (h : Sim s w a) {b : Nat} {x : HeldBuilder K V} {y : Builder K V}
    (hy : a.builders[b]? = some y) (hyc : y.calls = none) (hname : y.name = x.name)
    (hpar : y.parent = x.on.map Prod.fst)
    (hheld : ∀ q, x.on = some q → a.log.known q.1 ∧ q ∈ w.held)
    (hun : ¬ a.log.known y.name ∧ y.name ∉ a.hidden) {ops : List (Op K V)} {sb : SimpleBuilder K V}
    (h3 : (SimpleBuilder.new x.below).run ops = some sb)
    (h4 : ∀ op ∈ ops, IdsKnown x.below op ∧ opCall x.below op ≠ none)
    {nv : List (Obj K V × Nat) → List (Obj K V × Nat)} {pm : List (K × Nat) → List (K × Nat)} (hnv : ∀ l, (nv l).Perm l) (hpm : ∀ l, (pm l).Perm l) :
    ∃ d w' i, sb.commitWith (nv sb.nvMap) (pm sb.pMap) = some d ∧ World.Step true w w' ∧
      w'.loaded = w.loaded ∧
      Sim { s with store := (x.name, { parent := x.on.map Prod.fst, data := d }) :: s.store } w'
        (a.add (.commit y.name y.parent (ops.filterMap (opCall x.below))) i) ∧
      i.Fits (a.baseIds y.parent) (after (a.log.below y.parent) (ops.filterMap (opCall x.below))) := by
  have hxy : BuilderSim w a.log { x with lock := .taken } y :=
    ⟨hname, hpar, hheld, Or.inl ⟨rfl, hyc⟩⟩
  obtain ⟨b1, b2, b3, b4⟩ := h.below hxy
  change Reachable x.below at b1
  change NodesOnly x.below at b3
  obtain ⟨Ps, Ns, hok⟩ := b1.good
  obtain ⟨sb', g1, g2⟩ := commits_exist hok (fun o ho => (h4 o ho).1)
  rw [h3] at g1
  cases g1
  obtain ⟨d, _, _, hd, _⟩ := g2.commit hok (hnv sb.nvMap) (hpm sb.pMap)
  have hC : Commits x.below ops d := ⟨sb, _, _, h3, hnv _, hpm _, hd⟩
  have hnew : w.store.get? y.name = none := h.layers.unknown.2 hun
  have hrun : ∃ w', World.Step true w w' ∧ w'.loaded = w.loaded ∧
      w'.store = (y.name, { parent := y.parent, data := d }) :: w.store ∧
      w'.log = .commit y.name y.parent (ops.filterMap (opCall x.below)) :: w.log ∧
      w'.held = w.held ∧ w'.cache = w.cache ∧
      Fit w.store { parent := y.parent, data := d } ∧
      ∀ R, Below w.store { parent := y.parent, data := d } R → NodesOnly (d :: R) := by
    have hre : Reachable (d :: x.below) := b1.commit (fun o ho => (h4 o ho).1) hC
    have hno := commit_nodes b1 b3 h4 hC
    cases hq : x.on with
    | none =>
      have hbl : x.below = [] := by unfold HeldBuilder.below; rw [hq]
      have hp : y.parent = none := by rw [hpar, hq]; rfl
      rw [hbl] at hC h4 hre hno
      rw [hp, hbl]
      refine ⟨_, .commitBase hnew (fun o ho => (h4 o ho).1) hC, rfl, rfl, rfl, rfl, rfl,
        fit_base hre, ?_⟩
      intro R hR
      rw [show R = [] from hR]; exact hno
    | some q =>
      obtain ⟨p, l⟩ := q
      obtain ⟨_, hl⟩ := hheld _ hq
      have hbl : x.below = l.stack := by unfold HeldBuilder.below; rw [hq]
      have hp : y.parent = some p := by rw [hpar, hq]; rfl
      rw [hbl] at hC h4 hre hno
      rw [hp, hbl]
      have hst := (h.layers.run.inv.held _ hl).2
      refine ⟨_, .commit hl hnew (fun o ho => (h4 o ho).1) hC, rfl, rfl, rfl, rfl, rfl,
        hst.fit hre, ?_⟩
      intro R hR
      obtain ⟨R', f1, f2, _⟩ := hst
      have hRR : R = R' := Raw.unique hR f1
      subst hRR
      have := (Alike.reload (T := [d]) hre f2.symm).same
      intro g hg
      exact hno g ((this.content g).2 hg)
  obtain ⟨w', r1, r0, r2, r3, r4, r5, r6, r7⟩ := hrun
  obtain ⟨i, k1, k2⟩ := h.write (.step h.layers.run r1)
    (ev := .commit y.name y.parent (ops.filterMap (opCall x.below)))
    (e := { parent := y.parent, data := d }) (by intro a b p x; cases x) hnew (by
      intro z hz hzc hzn
      obtain ⟨j, hj⟩ := List.mem_iff_getElem?.1 hz
      have hjb : j = b := by
        refine (List.getElem?_inj (l := a.builders.map (·.name)) ?_ h.distinct).1 ?_
        · rw [List.length_map]; exact (List.getElem?_eq_some_iff.1 hj).1
        · rw [List.getElem?_map, List.getElem?_map, hj, hy]
          exact congrArg some hzn
      subst hjb
      rw [hj] at hy
      cases hy
      exact hzc hyc) r2 r3 r4 r5 rfl (by
      intro p hp
      have hp' : y.parent = some p := hp
      rw [hpar] at hp'
      cases hq : x.on with
      | none => rw [hq] at hp'; cases hp'
      | some q =>
        rw [hq] at hp'
        cases hp'
        exact (hheld _ hq).1) r6 (by
      intro t
      refine (commit_triples t).trans (Iff.trans ?_ (commit_triples t).symm)
      refine after_congr (fun t => ?_) _ t
      show w.log.below y.parent t ↔ a.log.below y.parent t
      rw [hpar]
      cases hq : x.on with
      | none => exact Iff.rfl
      | some q => exact h.layers.triples q.1 (hheld _ hq).1 t) r7
  refine ⟨d, w', i, hd, r1, r0, ?_, ?_⟩
  · rw [← hpar, ← hname]
    exact k1
  · have : History.triples (.commit y.name y.parent (ops.filterMap (opCall x.below)) :: a.log) y.name =
        after (a.log.below y.parent) (ops.filterMap (opCall x.below)) := by
      funext t
      exact propext (commit_triples t)
    rw [← this]
    exact k2

/-- A commit. -/
theorem Sim.committing (h : Sim s w a) (hch : ch.Possible s) {b : Nat} {x : HeldBuilder K V}
    {y : Builder K V} (hy : a.builders[b]? = some y) (hxy : BuilderSim w a.log x y)
    {cs : List (Call (VTriple K V))} (hcs : y.calls = some cs)
    {k : Session K V L → Ans K V L × Session K V L} {r : Req K V L}
    (hk : ∀ (i : Ids K V) w' s', i.Fits (a.baseIds y.parent) (after (a.log.below y.parent) cs) →
      s'.layers = s.layers →  s'.cache = s.cache →
      Sim s' w' ((a.add (.commit y.name y.parent cs) i).setBuilder b { y with calls := none }) →
      Simulates a r (k s')) : Simulates a r (s.committing ch b x k) := by
  rcases hxy.lock with ⟨_, h2⟩ | ⟨ops, sb, h1, h3, h4, h2⟩
  · rw [hcs] at h2; cases h2
  have hcs' : cs = ops.filterMap (opCall x.below) := by
    rw [hcs] at h2; exact Option.some.inj h2
  have hs1 := h.setBuilder (x' := { x with lock := .taken }) (y' := { y with calls := none }) hy
    ⟨hxy.name, hxy.parent, hxy.held, Or.inl ⟨rfl, rfl⟩⟩ rfl (fun hx => absurd rfl hx)
  have hun := h.unborn y (List.mem_of_getElem? hy) (by rw [hcs]; simp)
  have hb' : (a.setBuilder b { y with calls := none }).builders[b]? =
      some { y with calls := none } := by
    show (a.builders.set b _)[b]? = _
    rw [List.getElem?_set_self (List.getElem?_eq_some_iff.1 hy).1]
  obtain ⟨d, w', i, hd, _, _, k1, k2⟩ := hs1.writeCommit hb' rfl hxy.name hxy.parent hxy.held hun h3 h4
    hch.nv hch.pm
  have e1 : s.committing ch b x k = k { s.setLock b x .taken with
      store := (x.name, { parent := x.on.map Prod.fst, data := d }) :: s.store } := by
    unfold Session.committing
    rw [h1]
    dsimp only [BuilderUse.takeBuilder]
    rw [hd]
  rw [e1]
  rw [hcs'] at hk
  exact hk i w' _ k2 rfl rfl k1

/-- A commit of a builder that was committed. -/
theorem Sim.committingTwice (h : Sim s w a) {b : Nat} {x : HeldBuilder K V} {y : Builder K V}
    (hx : s.builders[b]? = some x) (hxy : BuilderSim w a.log x y) (hc : y.calls = none)
    (k : Session K V L → Ans K V L × Session K V L) : s.committing ch b x k = (.failed, s) := by
  rcases hxy.lock with ⟨h1, _⟩ | ⟨_, _, _, _, _, h2⟩
  · have e1 : BuilderUse.takeBuilder x.lock = (.inr .refused, x.lock) := by rw [h1]; rfl
    unfold Session.committing
    rw [e1]
    dsimp only
    rw [h.setLockSame hx]
    rfl
  · rw [hc] at h2; cases h2

theorem Sim.commitNoLoad (h : Sim s w a) (hch : ch.Possible s) {b : Nat} (hb : a.Built b) :
    Simulates a (.commitNoLoad b) (s.perform ch (.commitNoLoad b)) := by
  obtain ⟨y, hy⟩ := hb
  obtain ⟨x, hx, hxy⟩ := h.builder hy
  simp only [perform]
  rw [h.withBuilder hx]
  cases hcs : y.calls with
  | none =>
    rw [h.committingTwice hx hxy hcs]
    exact ⟨w, a, .commitTwice hy hcs (Or.inl rfl), h⟩
  | some cs =>
    refine h.committing hch hy hxy hcs ?_
    intro i w' s' hi _ _ hs
    exact ⟨w', _, .commitNoLoad hy hcs hi, hs⟩

theorem Sim.commit (h : Sim s w a) (hch : ch.Possible s) {b : Nat} (hb : a.Built b) :
    Simulates a (.commit b) (s.perform ch (.commit b)) := by
  obtain ⟨y, hy⟩ := hb
  obtain ⟨x, hx, hxy⟩ := h.builder hy
  simp only [perform]
  rw [h.withBuilder hx]
  cases hcs : y.calls with
  | none =>
    rw [h.committingTwice hx hxy hcs]
    exact ⟨w, a, .commitTwice hy hcs (Or.inr rfl), h⟩
  | some cs =>
    refine h.committing hch hy hxy hcs ?_
    intro i w' s' hi hl hc hs
    obtain ⟨w2, k3, _, _, _⟩ := hs.evict (c := ch.keep2 s'.cache) (hch.keep2 s'.cache)
    have hknown : ((a.add (.commit y.name y.parent cs) i).setBuilder b
        { y with calls := none }).log.known y.name := History.known_cons.2 (Or.inl rfl)
    obtain ⟨l, w3, m1, m2, _, _, m3⟩ := k3.load hknown .panicked
    rw [← hxy.name, m1]
    refine ⟨w3, _, ?_, m2.hold hknown (by rw [m3]; exact List.mem_cons_self ..)⟩
    show Step a _ (.layer s'.layers.length) _
    rw [hl, h.handlesLength]
    exact .commit hy hcs hi

/-- Calls with values, run on a builder. -/
theorem runs_more {S : List (LayerData K V)} (hS : Reachable S) :
    ∀ (more : List (Op K V)) {ops : List (Op K V)} {b : SimpleBuilder K V},
      (SimpleBuilder.new S).run ops = some b → (∀ op ∈ ops, IdsKnown S op) →
      (∀ op ∈ more, IdsKnown S op) →
      ∃ b', runIgnoring (.open b) more = (.ok (), .open b') ∧
        runUnwrapping (.open b) more = (.ok (), .open b') ∧
        (SimpleBuilder.new S).run (ops ++ more) = some b'
  | [], ops, b, h1, _, _ => ⟨b, rfl, rfl, by rw [List.append_nil]; exact h1⟩
  | op :: more, ops, b, h1, h2, h3 => by
    obtain ⟨b', g1, g2⟩ := run_more hS h1 h2 (h3 op (List.mem_cons_self ..))
    obtain ⟨b'', k1, k2, k3⟩ := runs_more hS more g2 (by
      intro o ho
      rw [List.mem_append, List.mem_singleton] at ho
      rcases ho with ho | rfl
      · exact h2 o ho
      · exact h3 _ (List.mem_cons_self ..)) (fun o ho => h3 o (List.mem_cons_of_mem _ ho))
    have e1 : BuilderUse.withBuilder (.open b) op = (.done, .open b') := by
      simp only [BuilderUse.withBuilder, g1]
    refine ⟨b'', ?_, ?_, by rw [List.append_assoc] at k3; exact k3⟩
    · rw [runIgnoring, e1]; exact k1
    · rw [runUnwrapping, e1]; exact k2

theorem runIgnoring_taken : ∀ ops : List (Op K V), runIgnoring .taken ops = (.ok (), .taken)
  | [] => rfl
  | op :: ops => by
    rw [runIgnoring]
    exact runIgnoring_taken ops

omit [LinearOrder K] [LinearOrder V] in
/-- Calls that lead from one set of triples to another. -/
theorem leads_of {S : List (LayerData K V)} {ops : List (Op K V)} {A B : VTriple K V → Prop}
    (h : ∀ op, op ∈ ops ↔ (∃ t, op = .addValue t ∧ B t ∧ ¬ A t) ∨
      ∃ t, op = .removeValue t ∧ A t ∧ ¬ B t) :
    State.Leads A B (ops.filterMap (opCall S)) ∧
      ∀ op ∈ ops, IdsKnown S op ∧ opCall S op ≠ none := by
  refine ⟨⟨fun t => ?_, fun t => ?_⟩, fun op ho => ?_⟩
  · unfold added
    rw [List.mem_filterMap]
    constructor
    · rintro ⟨op, ho, hc⟩
      rcases (h op).1 ho with ⟨t', rfl, h1⟩ | ⟨t', rfl, h1⟩
      · cases hc; exact h1
      · cases hc
    · intro ht
      exact ⟨.addValue t, (h _).2 (Or.inl ⟨t, rfl, ht⟩), rfl⟩
  · unfold removed
    rw [List.mem_filterMap]
    constructor
    · rintro ⟨op, ho, hc⟩
      rcases (h op).1 ho with ⟨t', rfl, h1⟩ | ⟨t', rfl, h1⟩
      · cases hc
      · cases hc; exact h1
    · intro ht
      exact ⟨.removeValue t, (h _).2 (Or.inr ⟨t, rfl, ht⟩), rfl⟩
  · rcases (h op).1 ho with ⟨t', rfl, _⟩ | ⟨t', rfl, _⟩
    · exact ⟨trivial, by simp [opCall]⟩
    · exact ⟨trivial, by simp [opCall]⟩

/-- The changes of a layer, as calls. -/
theorem Sim.deltaCalls (h : Sim s w a) {n : Nat} (hn : a.log.known n) {l : InternalLayer K V}
    (hl : (n, l) ∈ w.held) : ∃ ops, deltaCalls ⟨s.store, s.cache⟩ l = .ok ops ∧
      ∀ op, op ∈ ops ↔
        (∃ t, op = .addValue t ∧ a.log.triples n t ∧ ¬ a.log.below (a.log.parent n) t) ∨
        ∃ t, op = .removeValue t ∧ a.log.below (a.log.parent n) t ∧ ¬ a.log.triples n t := by
  obtain ⟨hln, _⟩ := h.layers.named hn hl
  obtain ⟨ops, h1, h2⟩ := h.layers.run.inv.applyDelta hl
  obtain ⟨e, he⟩ := has_iff.1 (h.layers.has hn)
  refine ⟨ops, ?_, fun op => ?_⟩
  · rw [← h1, ← h.store, ← h.cache]
    unfold Session.deltaCalls applyDeltaCalls View.additions View.removals
    rw [hln, View.changes_eq (v := ⟨w.store, w.cache⟩) h.layers.run.inv.cache he (fun _ _ => rfl),
      View.changes_eq (v := ⟨w.store, w.cache⟩) h.layers.run.inv.cache he (fun _ _ => rfl)]
    unfold tripleAdditions tripleRemovals
    rw [he]
  · rw [h2, hln]
    have hb : ∀ t, w.log.below (w.log.parent n) t ↔ a.log.below (a.log.parent n) t := by
      intro t
      rw [h.layers.parent n hn]
      cases hp : a.log.parent n with
      | none => exact Iff.rfl
      | some p => exact h.layers.triples p (h.layers.parentKnown n p hp) t
    simp only [History.addedBy, History.removedBy, hb, h.layers.triples n hn]

/-- Calls are made on a builder. -/
theorem Sim.applied (h : Sim s w a) (hch : ch.Possible s) {b : Nat} {x : HeldBuilder K V}
    {y : Builder K V} (hy : a.builders[b]? = some y) (hxy : BuilderSim w a.log x y)
    {cs : List (Call (VTriple K V))} (hcs : y.calls = some cs) {A B : VTriple K V → Prop}
    {ops : List (Op K V)}
    (ho : ∀ op, op ∈ ops ↔ (∃ t, op = .addValue t ∧ B t ∧ ¬ A t) ∨
      ∃ t, op = .removeValue t ∧ A t ∧ ¬ B t)
    {run : BuilderLock K V → List (Op K V) → Out Unit × BuilderLock K V}
    (hrun : run = runIgnoring ∨ run = runUnwrapping) {r : Req K V L}
    (hr : ∀ cs', State.Leads A B cs' →
      Step a r .done (a.setBuilder b { y with calls := some (cs ++ cs') })) :
    Simulates a r (s.applied ch b x run (.ok ops)) := by
  rcases hxy.lock with ⟨_, h2⟩ | ⟨ops0, sb, h1, h3, h4, h2⟩
  · rw [hcs] at h2; cases h2
  obtain ⟨b1, _, _, _⟩ := h.below hxy
  obtain ⟨l1, l2⟩ := leads_of (S := x.below) (ops := ch.calls ops) (A := A) (B := B)
    (fun op => by rw [← ho]; exact (hch.calls ops).mem_iff)
  obtain ⟨sb', g1, g2, g3⟩ := runs_more b1 (ch.calls ops) h3 (fun o ho => (h4 o ho).1)
    (fun o ho => (l2 o ho).1)
  have e1 : run x.lock (ch.calls ops) = (.ok (), .open sb') := by
    rw [h1]
    rcases hrun with rfl | rfl
    · exact g1
    · exact g2
  unfold Session.applied
  dsimp only
  rw [e1]
  refine ⟨w, _, hr _ l1, ?_⟩
  refine h.setBuilder (x' := { x with lock := .open sb' }) hy ?_ rfl (fun _ => by rw [hcs]; simp)
  refine ⟨hxy.name, hxy.parent, hxy.held, Or.inr ⟨ops0 ++ ch.calls ops, sb', rfl, g3, ?_, ?_⟩⟩
  · intro o ho
    rw [List.mem_append] at ho
    rcases ho with ho | ho
    · exact h4 o ho
    · exact l2 o ho
  · rw [hcs] at h2
    injection h2 with h2
    show some (cs ++ _) = some ((ops0 ++ ch.calls ops).filterMap (opCall x.below))
    rw [List.filterMap_append, h2]

theorem Sim.applyDelta (h : Sim s w a) (hch : ch.Possible s) {b i : Nat} (hb : a.Built b)
    (hi : a.Held i) : Simulates a (.applyDelta b i) (s.perform ch (.applyDelta b i)) := by
  obtain ⟨y, hy⟩ := hb
  obtain ⟨x, hx, hxy⟩ := h.builder hy
  obtain ⟨n, hi⟩ := hi
  obtain ⟨l, hl, hn, hlh⟩ := h.handle hi
  simp only [perform]
  rw [h.withBuilder hx, h.withLayer hl]
  obtain ⟨ops, h1, h2⟩ := h.deltaCalls hn hlh
  rw [h1]
  cases hcs : y.calls with
  | none =>
    rcases hxy.lock with ⟨k1, _⟩ | ⟨_, _, _, _, _, k2⟩
    · have e1 : runIgnoring x.lock (ch.calls ops) = (.ok (), x.lock) := by
        rw [k1]; exact runIgnoring_taken _
      unfold Session.applied
      dsimp only
      rw [e1]
      dsimp only
      rw [h.setLockSame hx]
      exact ⟨w, a, .applyDeltaCommitted hy hcs hi, h⟩
    · rw [hcs] at k2; cases k2
  | some cs =>
    exact h.applied hch hy hxy hcs h2 (Or.inl rfl) (fun cs' hl => .applyDelta hy hcs hi hl)

theorem Sim.applyDiff (h : Sim s w a) (hch : ch.Possible s) {b i : Nat}
    (hin : InContract a (.applyDiff b i)) :
    Simulates a (.applyDiff b i) (s.perform ch (.applyDiff b i)) := by
  obtain ⟨⟨n, hi⟩, y, hy, hc⟩ := hin
  obtain ⟨x, hx, hxy⟩ := h.builder hy
  obtain ⟨l, hl, hn, hlh⟩ := h.handle hi
  simp only [perform]
  rw [h.withBuilder hx, h.withLayer hl]
  obtain ⟨b1, _, _, b4⟩ := h.below hxy
  obtain ⟨l1, _, _, l4⟩ := h.layers.held hn hlh
  obtain ⟨ops, h1, h2⟩ := applyDiff_calls b1 l1
  rw [h1]
  cases hcs : y.calls with
  | none => exact absurd hcs hc
  | some cs =>
    refine h.applied hch hy hxy hcs (A := a.log.below y.parent) (B := a.log.triples n) (fun op => ?_)
      (Or.inr rfl) (fun cs' hl => .applyDiff hy hcs hi hl)
    rw [h2]
    simp only [← b4, ← l4]
    rfl

end Verif.Api
