import Verif.Lemmas.ApiLayers
import Verif.Lemmas.WorldMerge

/-!
Squashes, merges and rollups are as specified (`Verif.Api.Step`).
-/

namespace Verif.Api

open Spec SimpleBuilder Store World Session

variable {K V L : Type} [LinearOrder K] [LinearOrder V] [DecidableEq L]
  {s : Session K V L} {w : World K V} {a : State K V L} {ch : Choice K V L}

/-- A layer that has the triples that its event says is written. -/
theorem Sim.write (h : Sim s w a) {w' : World K V} (hr : Run true w') {ev : Event (VTriple K V)}
    {e : Entry K V} (hev : ∀ a b p, ev ≠ .rollup a b p) (hn : w.store.get? ev.new = none)
    (hb : ∀ y ∈ a.builders, y.calls ≠ none → y.name ≠ ev.new)
    (hs : w'.store = (ev.new, e) :: w.store) (hl : w'.log = ev :: w.log)
    (hh : w'.held = w.held) (hc : w'.cache = w.cache)
    (hp : e.parent = ev.parent) (hk : ∀ p, ev.parent = some p → a.log.known p)
    (hf : Fit w.store e)
    (ht : ∀ t, History.triples (ev :: w.log) ev.new t ↔ History.triples (ev :: a.log) ev.new t)
    (hN : ∀ R, Below w.store e R → NodesOnly (e.data :: R)) :
    ∃ i, Sim { s with store := (ev.new, e) :: s.store } w' (a.add ev i) ∧
      i.Fits (a.baseIds ev.parent) (History.triples (ev :: a.log) ev.new) := by
  obtain ⟨f1, R, f2, f3, f4⟩ := hf
  have hraw : Raw w'.store ev.new (e.data :: R) := by rw [hs]; exact f2.raw hn f3
  refine ⟨idsOf (e.data :: R), h.add hr hev hn hb hs hl hh hc f1 hk ht hraw (hN R f2), ?_⟩
  have hbase : a.baseIds ev.parent = idsOf R := by
    unfold Below at f2
    cases hq : ev.parent with
    | none => rw [hp, hq] at f2; dsimp only at f2; rw [f2, idsOf_nil]; rfl
    | some p =>
      rw [hp, hq] at f2
      exact h.layers.ids p R (hk p hq) f2
  rw [hbase]
  refine idsOf_fits (T := [e.data]) (S := R) f4 ?_
  intro t ht'
  rw [← ht, ← hl] at ht'
  exact (hr.inv.log.triples ev.new _ hraw t).2 ht'

/-- A squash writes its layer. -/
theorem Sim.writeSquash (h : Sim s w a) {new n : Nat} (fr : a.Fresh new)
    (hnew : w.store.get? new = none) (hn : a.log.known n)
    {u : Option Nat} {e : Entry K V} (hp : SquashPlan w.store n u (.write e)) {ev : Event (VTriple K V)}
    (he : ev = .squash new n ∧ u = none ∨ ∃ m, ev = .squashUpto new n m ∧ u = some m ∧
      a.log.known m) {w1 : World K V} (r1 : Run true w1) (r2 : w1.store = (new, e) :: w.store)
    (r3 : w1.log = ev :: w.log) (r4 : w1.held = w.held) (r5 : w1.cache = w.cache) :
    ∃ i, Sim { s with store := (new, e) :: s.store } w1 (a.add ev i) ∧
      i.Fits (a.baseIds u) (a.log.triples n) := by
  obtain ⟨e', ee, h2, h3, S, R, h4, h5, h6⟩ := hp
  cases ee
  have hevn : ev.new = new := by
    rcases he with ⟨rfl, _⟩ | ⟨m, rfl, _⟩ <;> rfl
  have hevp : ev.parent = u := by
    rcases he with ⟨rfl, rfl⟩ | ⟨m, rfl, rfl, _⟩ <;> rfl
  have hevr : ∀ a b p, ev ≠ .rollup a b p := by
    rcases he with ⟨rfl, _⟩ | ⟨m, rfl, _⟩ <;> (intro a b p x; cases x)
  have hevk : ∀ p, ev.parent = some p → a.log.known p := by
    intro p hp
    rcases he with ⟨rfl, rfl⟩ | ⟨m, rfl, rfl, hm⟩
    · cases hp
    · cases hp; exact hm
  have hevt : ∀ (lg : History (VTriple K V)) t, History.triples (ev :: lg) ev.new t ↔ lg.triples n t := by
    intro lg t
    rcases he with ⟨rfl, _⟩ | ⟨m, rfl, _⟩ <;> simp [History.triples, Event.new]
  obtain ⟨i, k1, k2⟩ := h.write r1 hevr (by rw [hevn]; exact hnew)
    (fun y hy _ => by rw [hevn]; exact fr.2.2.1 y hy) (by rw [hevn]; exact r2) r3 r4 r5
    (by rw [hevp, h2]) hevk h3
    (fun t => by rw [hevt, hevt]; exact h.layers.triples n hn t)
    (fun R' hR' => by
      have : R' = R := by
        unfold Below at hR' h5
        cases hq : e.parent with
        | none => rw [hq] at hR' h5; dsimp only at hR' h5; rw [hR', h5]
        | some p => rw [hq] at hR' h5; exact Raw.unique hR' h5
      subst this
      intro g hg
      exact h.layers.nodes n S hn h4 g ((h6 g).1 hg))
  rw [hevn] at k1
  have htr : History.triples (ev :: a.log) ev.new = a.log.triples n := by
    funext t; exact propext (hevt a.log t)
  rw [htr, hevp] at k2
  exact ⟨i, k1, k2⟩

/-- A squash. -/
theorem Sim.squashedAs (h : Sim s w a) (hch : ch.Possible s) {n : Nat} (hn : a.log.known n)
    {u : Option Nat} {pl : Plan K V} (hp : SquashPlan w.store n u pl) {ev : Event (VTriple K V)}
    (he : ev = .squash ch.new n ∧ u = none ∨ ∃ m, ev = .squashUpto ch.new n m ∧ u = some m ∧
      a.log.known m)
    (hr : ∀ e, pl = .write e →
      ∃ w', Run true w' ∧ w'.store = (ch.new, e) :: w.store ∧ w'.log = ev :: w.log ∧
        w'.held = w.held ∧ w'.cache = w.cache) {c : Req K V L}
    (hc : ∀ i : Ids K V, i.Fits (a.baseIds u) (a.log.triples n) → a.Fresh ch.new →
      Step a c (.layer a.handles.length) ((a.add ev i).hold ch.new)) :
    Simulates a c (s.squashed ch (.ok pl)) := by
  have hp' := hp
  obtain ⟨e, rfl, _⟩ := hp
  obtain ⟨w1, r1, r2, r3, r4, r5⟩ := hr e rfl
  obtain ⟨fr, hnew⟩ := h.fresh hch.new.1 hch.new.2 hch.lost
  have hevn : ev.new = ch.new := by
    rcases he with ⟨rfl, _⟩ | ⟨m, rfl, _⟩ <;> rfl
  obtain ⟨i, k1, k2⟩ := h.writeSquash fr hnew hn hp' he r1 r2 r3 r4 r5
  obtain ⟨w2, k3, k4, k5, k6⟩ := k1.evict (c := ch.keep2 s.cache) (hch.keep2 s.cache)
  have hknown : (a.add ev i).log.known ch.new := History.known_cons.2 (Or.inl hevn)
  obtain ⟨x, w3, m1, m2, _, _, m3⟩ := k3.load hknown .panicked
  have e1 : s.squashed ch (.ok (.write e)) =
      loading { s with store := (ch.new, e) :: s.store, cache := ch.keep2 s.cache } ch.new
        .panicked give := rfl
  rw [e1, m1]
  refine ⟨w3, _, ?_, m2.hold hknown (by rw [m3]; exact List.mem_cons_self ..)⟩
  show Step a c (.layer s.layers.length) _
  rw [h.handlesLength]
  exact hc i k2 fr

theorem Sim.squash (h : Sim s w a) (hch : ch.Possible s) {i : Nat} (hi : a.Held i) :
    Simulates a (.squash i) (s.perform ch (.squash i)) := by
  obtain ⟨n, hi⟩ := hi
  obtain ⟨x, hx, hn, hxh⟩ := h.handle hi
  obtain ⟨hxn, _⟩ := h.layers.named hn hxh
  simp only [perform]
  rw [h.withLayer hx, hxn]
  obtain ⟨l, w1, h1, h2, h3, h4, h5⟩ := h.load hn .failed
  rw [h1]
  have hl : (n, l) ∈ w1.held := by rw [h5]; exact List.mem_cons_self ..
  have hlo := (h2.layers.run.inv.held _ hl).1
  obtain ⟨hln, _⟩ := h2.layers.named hn hl
  obtain ⟨pl, hpl⟩ := squash_total h2.layers.run.inv.ok hlo
  have hp := squash_plan h2.layers.run.inv.ok hlo hpl
  rw [hln] at hp
  rw [hpl]
  refine h2.squashedAs ⟨hch.new, hch.nv, hch.pm, hch.calls, hch.labels, hch.keep, hch.keep2, hch.lost⟩ hn hp
    (ev := .squash ch.new n) (Or.inl ⟨rfl, rfl⟩) ?_ ?_
  · rintro e rfl
    have q1 := Run.step h2.layers.run (.planSquash hl hpl)
    have q2 := Run.step q1 (.writeSquash (new := ch.new) (List.mem_cons_self ..)
      (by show w1.store.get? ch.new = none; rw [h2.store]; exact hch.new.1))
    rw [hln] at q2
    exact ⟨_, q2, rfl, rfl, rfl, rfl⟩
  · intro j hj hf
    exact .squash hi hf hj

theorem Sim.squashUpto (h : Sim s w a) (hch : ch.Possible s) {i j : Nat} (hi : a.Held i)
    (hj : a.Held j) : Simulates a (.squashUpto i j) (s.perform ch (.squashUpto i j)) := by
  obtain ⟨n, hi⟩ := hi
  obtain ⟨x, hx, hn, hxh⟩ := h.handle hi
  obtain ⟨hxn, _⟩ := h.layers.named hn hxh
  obtain ⟨m, hj⟩ := hj
  obtain ⟨y, hy, hm, hyh⟩ := h.handle hj
  obtain ⟨hym, _⟩ := h.layers.named hm hyh
  simp only [perform]
  rw [h.withLayer hx, h.withLayer hy, hxn, hym]
  obtain ⟨l, w1, h1, h2, h3, h4, h5⟩ := h.load hn .failed
  rw [h1]
  have hl : (n, l) ∈ w1.held := by rw [h5]; exact List.mem_cons_self ..
  have hlo := (h2.layers.run.inv.held _ hl).1
  obtain ⟨hln, _⟩ := h2.layers.named hn hl
  obtain ⟨u1, u2⟩ := h2.layers.run.shape.closed.stackNamesUpto h2.layers.run.shape.parent n m
  show Simulates a _ (Session.squashed { s with cache := w1.cache } ch (Store.squashUpto s.store l m))
  have e1 : s.store = w1.store := h2.store.symm
  by_cases hu : a.Under m n
  · obtain ⟨ns, _, hns, _⟩ := u1 ((h2.layers.underIff hn).2 hu)
    obtain ⟨pl, hpl⟩ := squashUpto_total h2.layers.run.inv.ok hlo (upto := m)
      (by rw [hln]; exact hns)
    have hp := squashUpto_plan h2.layers.run.inv.ok hlo hpl
    rw [hln] at hp
    rw [show Store.squashUpto s.store l m = .ok pl by rw [e1]; exact hpl]
    refine h2.squashedAs ⟨hch.new, hch.nv, hch.pm, hch.calls, hch.labels, hch.keep, hch.keep2, hch.lost⟩ hn hp
      (ev := .squashUpto ch.new n m) (Or.inr ⟨m, rfl, rfl, hm⟩) ?_ ?_
    · rintro e rfl
      have q1 := Run.step h2.layers.run (.planSquashUpto hl hpl)
      have q2 := Run.step q1 (.writeSquashUpto (new := ch.new) (List.mem_cons_self ..)
        (by show w1.store.get? ch.new = none; rw [h2.store]; exact hch.new.1))
      rw [hln] at q2
      exact ⟨_, q2, rfl, rfl, rfl, rfl⟩
    · intro k hk hf
      exact .squashUpto hi hj hu hf hk
  · have hns := u2 (fun hx => hu ((h2.layers.underIff hn).1 hx))
    obtain ⟨S, r1, _, r2⟩ := h2.layers.run.inv.ok.raw' (h2.layers.has hm)
    have hcnt := countsLoop_eq r1 w1.store.fuel (by unfold fuel; omega)
    have : w1.store.squashUpto l m = .err := by
      unfold Store.squashUpto
      rw [hcnt, hln, hns]
      rfl
    rw [show Store.squashUpto s.store l m = .err by rw [e1]; exact this]
    exact ⟨w1, a, .squashUptoWrong hi hj hu, h2⟩

/-- A layer without parent can be merged. -/
theorem LayersSim.clean {log : History (VTriple K V)} {ids : Nat → Ids K V}
    {hidden : List Nat} {rolled : Nat → Option (Option Nat)} (h : LayersSim w log ids hidden rolled)
    {n : Nat} (hn : log.known n) (hp : log.parent n = none) :
    ∃ e, w.store.get? n = some e ∧ e.parent = none ∧ BaseMerge.Clean e.data := by
  obtain ⟨e, he⟩ := has_iff.1 (h.has hn)
  obtain ⟨S, hS, hR, _⟩ := h.run.inv.ok.raw' (h.has hn)
  have hep : e.parent = none := by
    have := h.run.shape.parent n
    unfold Store.parent? at this
    rw [he, h.parent n hn, hp] at this
    exact this
  have hpl := h.run.plain.store n e he (fun m hm => h.apart n hn ((h.hid n).2 ⟨m, hm⟩))
  refine ⟨e, he, hep, hpl.1, hpl.2, ?_⟩
  rcases h.run.inv.ok.cases he hS with ⟨_, rfl⟩ | ⟨p, R, hq, _⟩
  · have hN := h.nodes n _ hn hS
    obtain ⟨Ps, Ns, hok⟩ := hR.good
    have hrep := hok.rep
    cases hrep with
    | @cons _ _ P N Ps Ns h1 h2 h3 =>
      cases h3
      intro ts hts t ht
      rw [h1.triples] at hts
      cases hts
      have hpr : present [P] [N] t := Or.inl ht
      obtain ⟨q1, q2, q3⟩ := hok.present_range hpr
      obtain ⟨g, hg⟩ := Res.exists hok (hok.present_nonzero hpr) q1 q2 q3
      obtain ⟨b, hb, hb'⟩ := hok.exists_total t
      have : b = true := hb'.2 hpr
      subst this
      obtain ⟨v, rfl⟩ := hN g ⟨t, hg, hb⟩
      have hm := (BaseMerge.res_flat hok.counts hpl.1 hpl.2 _ t).1 hg
      have h1 := hm.1
      simp only [VTriple.toG] at h1
      rw [dictId_node] at h1
      exact (dictGet_of_id h1).2.2
  · rw [hep] at hq; cases hq

omit [LinearOrder K] [LinearOrder V] in
theorem baseFiles_wrong {st : Store K V} : ∀ {ns : List Name},
    (∃ n ∈ ns, ∀ e, st.get? n = some e → e.parent ≠ none) → st.baseFiles ns = .err
  | [], h => by obtain ⟨_, h, _⟩ := h; cases h
  | n :: ns, h => by
    unfold baseFiles
    cases he : st.get? n with
    | none => rfl
    | some e =>
      dsimp only
      cases hp : e.parent with
      | some p => rfl
      | none =>
        dsimp only
        rw [baseFiles_wrong (ns := ns)]
        · rfl
        · obtain ⟨m, hm, h⟩ := h
          rcases List.mem_cons.1 hm with rfl | hm
          · exact absurd hp (h e he)
          · exact ⟨m, hm, h⟩

/-- A merge writes its layer. -/
theorem Sim.writeMerge (h : Sim s w a) {new : Nat} {ns : List Nat} (fr : a.Fresh new)
    (hnew : w.store.get? new = none) (hg : ∀ n ∈ ns, a.log.known n ∧ a.log.parent n = none)
    {e : Entry K V} (hp : MergePlan w.store ns (.write e)) {w1 : World K V} (r1 : Run true w1)
    (r2 : w1.store = (new, e) :: w.store) (r3 : w1.log = .merge new ns :: w.log)
    (r4 : w1.held = w.held) (r5 : w1.cache = w.cache) :
    ∃ i, Sim { s with store := (new, e) :: s.store } w1 (a.add (.merge new ns) i) ∧
      i.Fits {} (fun t => ∃ n ∈ ns, a.log.triples n t) := by
  obtain ⟨e', he', hep, hf, _, hct⟩ := hp
  cases he'
  have hevt : ∀ (lg : History (VTriple K V)) t,
      History.triples (.merge new ns :: lg) new t ↔ ∃ n ∈ ns, lg.triples n t := by
    intro lg t; simp [History.triples, Event.new]
  obtain ⟨i, k1, k2⟩ := h.write r1 (ev := .merge new ns) (e := e)
    (by intro a b p x; cases x) hnew (fun y hy _ => fr.2.2.1 y hy) r2 r3 r4 r5 hep
    (by intro p hp; cases hp) hf
    (fun t => by
      show History.triples _ new t ↔ History.triples _ new t
      rw [hevt, hevt]
      constructor
      · rintro ⟨n, hn, ht⟩; exact ⟨n, hn, (h.layers.triples n (hg n hn).1 t).1 ht⟩
      · rintro ⟨n, hn, ht⟩; exact ⟨n, hn, (h.layers.triples n (hg n hn).1 t).2 ht⟩)
    (fun R hR => by
      have : R = [] := by unfold Below at hR; rw [hep] at hR; exact hR
      subst this
      intro g hx
      obtain ⟨n, hn, S, hS, hc⟩ := (hct g).1 hx
      exact h.layers.nodes n S (hg n hn).1 hS g hc)
  have htr : History.triples (.merge new ns :: a.log) new =
      fun t => ∃ n ∈ ns, a.log.triples n t := by
    funext t; exact propext (hevt a.log t)
  exact ⟨i, k1, by rw [← htr]; exact k2⟩

/-- What a merge decides. -/
theorem Sim.planMerge (h : Sim s w a) {ns : List Nat} (hns : ∀ n ∈ ns, a.Askable n) :
    ((∀ n ∈ ns, a.log.known n ∧ a.log.parent n = none) ∧ ∃ e, w.store.mergeBase ns = .ok (.write e) ∧
      World.Step true w { w with plans := (.merge ns, .write e) :: w.plans, past := w.seen }) ∨
    ((∃ n ∈ ns, ¬ (a.log.known n ∧ a.log.parent n = none)) ∧ w.store.mergeBase ns = .err) := by
  by_cases hg : ∀ n ∈ ns, a.log.known n ∧ a.log.parent n = none
  · have hcl : ∀ n ∈ ns, ∃ e, w.store.get? n = some e ∧ e.parent = none ∧ BaseMerge.Clean e.data :=
      fun n hn => h.layers.clean (hg n hn).1 (hg n hn).2
    have hcl' : ∀ n ∈ ns, ∀ e, w.store.get? n = some e → BaseMerge.Clean e.data := by
      intro n hn e he
      obtain ⟨e', he', _, hc⟩ := hcl n hn
      rw [he] at he'; cases he'; exact hc
    obtain ⟨e, hpl, _⟩ := mergeBase_total h.layers.run.inv.ok h.layers.run.forms.store hcl
    exact Or.inl ⟨hg, e, hpl, .planMerge (fun _ => hcl') hpl⟩
  · have hbad : ∃ n ∈ ns, ¬ (a.log.known n ∧ a.log.parent n = none) := by
      by_contra hx
      apply hg
      intro n hn
      by_contra hy
      exact hx ⟨n, hn, hy⟩
    refine Or.inr ⟨hbad, ?_⟩
    unfold mergeBase
    rw [baseFiles_wrong]
    · rfl
    · obtain ⟨n, hn, hb⟩ := hbad
      refine ⟨n, hn, ?_⟩
      intro e he hep
      have hk : a.log.known n := by
        have h1 := (h.layers.run.inv.log.known n).1 (has_iff.2 ⟨e, he⟩)
        rcases (h.layers.known n).1 h1 with h2 | h2
        · exact h2
        · exact absurd h2 (hns n hn).1
      refine hb ⟨hk, ?_⟩
      rw [← h.layers.parent n hk, ← h.layers.run.shape.parent n]
      unfold Store.parent?
      rw [he]; exact hep

theorem Sim.merge (h : Sim s w a) (hch : ch.Possible s) {ns : List Nat}
    (hns : ∀ n ∈ ns, a.Askable n) : Simulates a (.merge ns) (s.perform ch (.merge ns)) := by
  show Simulates a _ (s.merged ch.new (s.store.mergeBase ns))
  rcases h.planMerge hns with ⟨hg, e, hpl, hst⟩ | ⟨hbad, herr⟩
  · obtain ⟨fr, hnew⟩ := h.fresh hch.new.1 hch.new.2 hch.lost
    have q1 := Run.step h.layers.run hst
    have q2 := Run.step q1 (.writeMerge (new := ch.new) (List.mem_cons_self ..) hnew)
    obtain ⟨i, k1, k2⟩ := h.writeMerge fr hnew hg (q1.inv.plans _ (List.mem_cons_self ..)) q2
      rfl rfl rfl rfl
    rw [show s.store.mergeBase ns = .ok (.write e) by rw [← h.store]; exact hpl]
    exact ⟨_, a.add (.merge ch.new ns) i, .merge hg fr k2, k1⟩
  · rw [show s.store.mergeBase ns = .err by rw [← h.store]; exact herr]
    exact ⟨w, a, .mergeWrong hbad, h⟩

end Verif.Api
