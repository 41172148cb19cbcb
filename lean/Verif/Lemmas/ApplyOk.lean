import Verif.Lemmas.StoreBuilder
import Verif.Lemmas.WorldMore

/-!
What `apply_delta` and `apply_diff` ask of a builder, and what a builder that is shared
writes.
-/

namespace Verif

open SimpleBuilder Spec

set_option linter.unusedSectionVars false

variable {K V : Type} [LinearOrder K] [LinearOrder V]

/-! ### No panics -/

namespace BuilderUse

/-- No call has an id that the parent does not know. -/
def Known (S : List (LayerData K V)) (h : Calls (BuilderOp (Op K V)) BuilderRes) : Prop :=
  ∀ i c op, h i = some c → c.op = .change op → IdsKnown S op

theorem Inv.known {S : List (LayerData K V)} {s : BuilderUse K V}
    {G : List (Effect (BuilderOp (Op K V)) BuilderRes)} (h : Inv S s G) (hk : Known S s.calls) :
    ∀ op ∈ changesOf G, IdsKnown S op := by
  have key : ∀ G' : List (Effect (BuilderOp (Op K V)) BuilderRes), (∀ e ∈ G', e ∈ G) →
      ∀ op ∈ changesOf G', IdsKnown S op := by
    intro G'
    induction G' with
    | nil => intro _ op ho; cases ho
    | cons e G' ih =>
      intro hs op ho
      have ih' := ih (fun e he => hs e (List.mem_cons_of_mem _ he))
      obtain ⟨i, t, o, r⟩ := e
      cases o with
      | change c =>
        rcases List.mem_cons.1 ho with rfl | ho
        · obtain ⟨c', h1, h2, _⟩ := h.lin.sound _ (hs _ (List.mem_cons_self ..))
          exact hk _ _ _ h1 h2
        · exact ih' op ho
      | committed => exact ih' op ho
      | commit => exact ih' op ho
  exact key G (fun _ h => h)

theorem Took.known {S : List (LayerData K V)} {s : BuilderUse K V}
    {G : List (Effect (BuilderOp (Op K V)) BuilderRes)} (h : Inv S s G) (hk : Known S s.calls)
    {i : Nat} {b : SimpleBuilder K V} (ht : Took S G i b) :
    ∃ ops, (∀ op ∈ ops, IdsKnown S op) ∧ (SimpleBuilder.new S).run ops = some b := by
  obtain ⟨A, e, B, hG, _, _, _, h5⟩ := ht
  refine ⟨changesOf A, ?_, h5⟩
  intro op ho
  exact h.known hk op (by rw [hG, changesOf_append]; exact List.mem_append_left _ ho)

theorem Known.step {S : List (LayerData K V)} {s s' : BuilderUse K V} (hs : Step s s')
    (hk : Known S s'.calls) : Known S s.calls := by
  have key : ∀ i c, s.calls i = some c → ∃ c', s'.calls i = some c' ∧ c'.op = c.op := by
    intro i c hi
    have ans : ∀ {j : Nat} {c0 : TimedCall (BuilderOp (Op K V)) BuilderRes} {r : BuilderRes},
        s.calls j = some c0 →
        ∃ c', upd s.calls j (some { c0 with answer := some (r, s.now) }) i = some c' ∧
          c'.op = c.op := by
      intro j c0 r hj
      by_cases e : i = j
      · subst e
        rw [hi] at hj
        cases hj
        exact ⟨_, upd_same _ _ _, rfl⟩
      · exact ⟨c, by rw [upd_other _ _ e]; exact hi, rfl⟩
    cases hs with
    | @start j op hj =>
      have e : i ≠ j := by intro e; rw [e, hj] at hi; cases hi
      exact ⟨c, by show upd s.calls j _ i = _; rw [upd_other _ _ e]; exact hi, rfl⟩
    | change h1 => exact ans h1
    | committed h1 => exact ans h1
    | refuse h1 => exact ans h1
    | take => exact ⟨c, hi, rfl⟩
    | write => exact ⟨c, hi, rfl⟩
    | fail h1 => exact ans h1
    | panic h1 => exact ans h1
    | finish h1 => exact ans h1
  intro i c op hi ho
  obtain ⟨c', h1, h2⟩ := key i c hi
  exact hk i c' op h1 (by rw [h2, ho])

/-- On a layer of the store, with ids that it knows, nothing panics. -/
theorem Run.no_panic {S : List (LayerData K V)} (hS : Reachable S) {s : BuilderUse K V}
    (h : Run S s) (hk : Known S s.calls) :
    s.lock ≠ .poisoned ∧ ∀ i c r t, s.calls i = some c → c.answer = some (r, t) → r ≠ .panicked := by
  obtain ⟨Ps, Ns, hok⟩ := hS.good
  induction h with
  | start =>
    refine ⟨(by intro hc; cases hc), ?_⟩
    intro i c r t hi
    cases hi
  | @step s s' hr hs ih =>
    have hk' := hk.step hs
    obtain ⟨h1, h2⟩ := ih hk'
    obtain ⟨G, inv⟩ := hr.inv
    have ans : ∀ {j : Nat} {c0 : TimedCall (BuilderOp (Op K V)) BuilderRes} {r0 : BuilderRes},
        r0 ≠ .panicked → ∀ i c r t,
        upd s.calls j (some { c0 with answer := some (r0, s.now) }) i = some c →
          c.answer = some (r, t) → r ≠ .panicked := by
      intro j c0 r0 hr0 i c r t hi ha
      by_cases e : i = j
      · subst e
        rw [upd_same] at hi
        cases hi
        cases ha
        exact hr0
      · rw [upd_other _ _ e] at hi
        exact h2 i c r t hi ha
    cases hs with
    | @start j op hj =>
      refine ⟨h1, ?_⟩
      intro i c r t hi ha
      replace hi : upd s.calls j _ i = some c := hi
      by_cases e : i = j
      · subst e
        rw [upd_same] at hi
        cases hi
        cases ha
      · rw [upd_other _ _ e] at hi
        exact h2 i c r t hi ha
    | @change j c op hj ha ho =>
      have hw : (withBuilder s.lock op).1 ≠ .panicked ∧ (withBuilder s.lock op).2 ≠ .poisoned := by
        unfold withBuilder
        have hl := inv.lock
        unfold LockOk at hl
        cases hlk : s.lock with
        | taken => exact ⟨(by intro hc; cases hc), (by intro hc; cases hc)⟩
        | poisoned => exact absurd hlk h1
        | «open» b =>
          rw [hlk] at hl
          obtain ⟨_, hrun, _⟩ := hl
          obtain ⟨b', hb', _⟩ := commits_exist hok (ops := changesOf G ++ [op]) (by
            intro o ho'
            rw [List.mem_append, List.mem_singleton] at ho'
            rcases ho' with ho' | rfl
            · exact inv.known hk' o ho'
            · exact hk' j c o hj ho)
          rw [SimpleBuilder.run_append, hrun] at hb'
          simp only [Option.bind_some, SimpleBuilder.run] at hb'
          simp only
          cases hst : b.step op with
          | none => rw [hst] at hb'; cases hb'
          | some b2 => exact ⟨(by intro hc; cases hc), (by intro hc; cases hc)⟩
      exact ⟨hw.2, ans hw.1⟩
    | @committed j c hj ha ho =>
      refine ⟨h1, ans ?_⟩
      cases hlk : s.lock with
      | poisoned => exact absurd hlk h1
      | taken => intro hc; cases hc
      | «open» b => intro hc; cases hc
    | @refuse j c r hj ha ho hp hr' =>
      cases hlk : s.lock with
      | poisoned => exact absurd hlk h1
      | taken =>
        rw [hlk] at hr'
        simp only [takeBuilder, Sum.inr.injEq] at hr'
        subst hr'
        exact ⟨(by intro hc; cases hc), ans (by intro hc; cases hc)⟩
      | «open» b => rw [hlk] at hr'; cases hr'
    | @take j c b hj ha ho hp hr' =>
      refine ⟨?_, h2⟩
      cases hlk : s.lock with
      | poisoned => exact absurd hlk h1
      | taken => intro hc; cases hc
      | «open» b => intro hc; cases hc
    | write => exact ⟨h1, h2⟩
    | fail => exact ⟨h1, ans (by intro hc; cases hc)⟩
    | @panic j c b nv pm hj hp hnv hpm hd =>
      exfalso
      obtain ⟨htook, _⟩ := inv.writing j b hp
      obtain ⟨ops, hkn, hrun⟩ := Took.known inv hk' htook
      obtain ⟨b', hb1, hb2⟩ := commits_exist hok hkn
      rw [hrun] at hb1
      cases hb1
      obtain ⟨d, _, _, hd', _⟩ := hb2.commit hok hnv hpm
      rw [hd] at hd'
      cases hd'
    | finish => exact ⟨h1, ans (by intro hc; cases hc)⟩

/-- What is written when all changes are made before the commit. -/
theorem Run.changes_then_commit {S : List (LayerData K V)} (hS : Reachable S)
    {s : BuilderUse K V} (h : Run S s) {ids : List Nat} {cs : List (Op K V)} {j t : Nat}
    (hk : ∀ op ∈ cs, IdsKnown S op) (hc : ChangesThenCommit s.calls ids cs j t) :
    ∃ d ops, s.written = [d] ∧ Commits S ops d ∧ ∀ op, op ∈ ops ↔ op ∈ cs := by
  obtain ⟨G, inv⟩ := h.inv
  have hids : ∀ i ∈ ids, ∃ (k : Nat) (c : Op K V), ids[k]? = some i ∧ cs[k]? = some c := by
    intro i hi
    obtain ⟨k, hk1, hk2⟩ := List.getElem_of_mem hi
    have hlt : k < cs.length := by rw [← hc.makes.1]; exact hk1
    exact ⟨k, cs[k], by rw [List.getElem?_eq_getElem hk1, hk2], List.getElem?_eq_getElem hlt⟩
  have hop : ∀ i call c, s.calls i = some call → call.op = .change c → c ∈ cs := by
    intro i call c hi ho
    obtain ⟨k, c', g1, g2⟩ := hids i (hc.only i call c hi ho)
    obtain ⟨call', g3, g4⟩ := hc.makes.2 k i c' g1 g2
    rw [hi] at g3
    cases g3
    rw [ho] at g4
    cases g4
    exact List.mem_of_getElem? g2
  have hkn : Known S s.calls := fun i c op hi ho => hk op (hop i c op hi ho)
  obtain ⟨_, hnp⟩ := h.no_panic hS hkn
  obtain ⟨cj, u, hj1, hj2, hj3, hj4⟩ := hc.commit
  have hw := inv.success j cj u hj1 hj2 hj4
  rcases inv.layer with h0 | ⟨d, i, b, nv, pm, h1, h2, h3, h4, h5, _⟩
  · exact absurd h0 hw
  · obtain ⟨A, e, B, hG, he1, he2, he3, he4⟩ := h2
    refine ⟨d, changesOf A, h1, ⟨b, nv, pm, he4, h3, h4, h5⟩, ?_⟩
    have hrep := inv.lin.replays
    rw [hG] at hrep
    obtain ⟨_, hacc, hnone⟩ := replays_commit hrep he2 he3
    rw [← hacc, ← hG]
    intro op
    constructor
    · intro ho
      obtain ⟨i', t', hm⟩ := mem_acceptedOf.1 ho
      obtain ⟨call, g1, g2, _⟩ := inv.lin.sound _ hm
      exact hop i' call op g1 g2
    · intro ho
      obtain ⟨k, hk1, hk2⟩ := List.getElem_of_mem ho
      have hlt : k < ids.length := by rw [hc.makes.1]; exact hk1
      obtain ⟨call, g1, g2⟩ := hc.makes.2 k ids[k] op (List.getElem?_eq_getElem hlt)
        (by rw [List.getElem?_eq_getElem hk1, hk2])
      obtain ⟨call', r, v, k1, k2, k3⟩ := hc.returned ids[k] (List.getElem_mem hlt)
      rw [g1] at k1
      cases k1
      obtain ⟨f, hf1, hf2⟩ := inv.lin.complete _ _ r v g1 k2 (hnp _ _ r v g1 k2)
      obtain ⟨c2, l1, l2, l3, l4⟩ := inv.lin.sound f hf1
      rw [hf2, g1] at l1
      cases l1
      obtain ⟨m1, m2⟩ := l4 r v k2
      -- the commit that was let through is `j`
      obtain ⟨x, hx1, hx2⟩ := inv.lin.complete j cj .done u hj1 hj4 (by intro hc; cases hc)
      obtain ⟨c3, n1, n2, n3, n4⟩ := inv.lin.sound x hx1
      rw [hx2, hj1] at n1
      cases n1
      have hxr : x.res = .done := by
        rcases (n4 _ _ hj4).1 with n5 | ⟨n5, _⟩
        · exact n5.symm
        · exact n5
      have heG : e ∈ G := by rw [hG]; simp
      have hxe : x = e := one_commit inv.lin.replays hx1 heG (by rw [← n2, hj2]) he2 hxr he3
      subst hxe
      have hlt' : f.time ≤ x.time := by omega
      have hfA : f ∈ A := by
        rw [hG, List.mem_append, List.mem_cons] at hf1
        rcases hf1 with hf1 | rfl | hf1
        · exact hf1
        · rw [he2] at l2
          rw [g2] at l2
          cases l2
        · have hs := inv.lin.sorted
          rw [hG, List.pairwise_append] at hs
          have := (List.pairwise_cons.1 hs.2.1).1 f hf1
          omega
      rw [hG, hacc]
      obtain ⟨A1, A2, rfl⟩ := List.append_of_mem hfA
      rw [changesOf_append]
      apply List.mem_append_right
      obtain ⟨fi, ft, fo, fr⟩ := f
      simp only at l2
      rw [g2] at l2
      subst l2
      exact List.mem_cons_self ..

end BuilderUse

/-! ### The changes of a layer, as strings -/

/-- The value triples that a layer adds and removes. -/
theorem changes_content {d : LayerData K V} {S : List (LayerData K V)} (hS : Reachable (d :: S)) :
    ∃ P N, d.pos.triples = some P ∧ Stack.removals d = some N ∧
      (∀ t : VTriple K V, (∃ u ∈ P, Res (d :: S) t.toG u) ↔
        content (d :: S) t.toG ∧ ¬ content S t.toG) ∧
      ∀ t : VTriple K V, (∃ u ∈ N, Res (d :: S) t.toG u) ↔
        content S t.toG ∧ ¬ content (d :: S) t.toG := by
  obtain ⟨Ps, Ns, hok⟩ := hS.good
  obtain ⟨P, N, Ps', Ns', rfl, rfl, hok'⟩ := hok.tail
  have hst : Stored d.pos P ∧ NegStored d.neg N := by
    cases hok.rep with
    | cons g1 g2 _ => exact ⟨g1, g2⟩
  have hN : Stack.removals d = some N := by
    have hn := hst.2
    unfold Stack.removals Stack.onRemovals
    cases hd : d.neg with
    | none => rw [hd] at hn; rw [show N = [] from hn]
    | some x => rw [hd] at hn; exact Stored.triples hn
  have hwf := hok.wf
  refine ⟨P, N, hst.1.triples, hN, ?_, ?_⟩
  · intro t
    rw [content_iff hok, content_iff hok']
    have := hwf
    constructor
    · rintro ⟨u, hu, hr⟩
      refine ⟨⟨u, hr, ?_⟩, ?_⟩
      · simp only [present]; exact Or.inl hu
      · rintro ⟨u', hr', hp'⟩
        have : u' = u := Res.unique (Res.up hok' hok hr') hr
        subst this
        exact ((hwf u').1 hu) hp'
    · rintro ⟨⟨u, hr, hp⟩, hno⟩
      simp only [present] at hp
      rcases hp with hp | ⟨_, hp⟩
      · exact ⟨u, hp, hr⟩
      · obtain ⟨h1, h2, h3⟩ := hok'.present_range hp
        exact absurd ⟨u, Res.down hok' hok hr h1 h2 h3, hp⟩ hno
  · intro t
    rw [content_iff hok, content_iff hok']
    constructor
    · rintro ⟨u, hu, hr⟩
      have hp := (hwf u).2.1 hu
      obtain ⟨h1, h2, h3⟩ := hok'.present_range hp
      refine ⟨⟨u, Res.down hok' hok hr h1 h2 h3, hp⟩, ?_⟩
      rintro ⟨u', hr', hp'⟩
      have : u' = u := Res.unique hr' hr
      subst this
      simp only [present] at hp'
      rcases hp' with hp' | ⟨hn, _⟩
      · exact (hwf u').1 hp' hp
      · exact hn hu
    · rintro ⟨⟨u, hr, hp⟩, hno⟩
      have hr' := Res.up hok' hok hr
      refine ⟨u, ?_, hr'⟩
      apply Classical.byContradiction
      intro hu
      exact hno ⟨u, hr', by simp only [present]; exact Or.inr ⟨hu, hp⟩⟩

/-- The calls for a list of id triples. -/
theorem stringCalls_spec {T : List (LayerData K V)} (hT : Reachable T) (f : VTriple K V → Op K V) :
    ∀ l : List Triple, ∃ r, stringCalls T f l = some r ∧
      ∀ op, op ∈ r ↔ ∃ u ∈ l, ∃ t : VTriple K V, Res T t.toG u ∧ op = f t
  | [] => ⟨[], rfl, by simp⟩
  | u :: l => by
    obtain ⟨Ps, Ns, hok⟩ := hT.good
    obtain ⟨rest, h1, h2⟩ := stringCalls_spec hT f l
    obtain ⟨x, h3, h4⟩ := idTripleToString_spec hok u
    cases x with
    | none =>
      refine ⟨rest, by simp [stringCalls, h1, h3], ?_⟩
      intro op
      rw [h2]
      constructor
      · rintro ⟨v, hv, hr⟩
        exact ⟨v, List.mem_cons_of_mem _ hv, hr⟩
      · rintro ⟨v, hv, t, ht, rfl⟩
        rcases List.mem_cons.1 hv with rfl | hv
        · have := (h4 t).2 ht
          cases this
        · exact ⟨v, hv, t, ht, rfl⟩
    | some st =>
      refine ⟨f st :: rest, by simp [stringCalls, h1, h3], ?_⟩
      intro op
      rw [List.mem_cons, h2]
      constructor
      · rintro (rfl | ⟨v, hv, hr⟩)
        · exact ⟨u, List.mem_cons_self .., st, (h4 st).1 rfl, rfl⟩
        · exact ⟨v, List.mem_cons_of_mem _ hv, hr⟩
      · rintro ⟨v, hv, t, ht, rfl⟩
        rcases List.mem_cons.1 hv with rfl | hv
        · have := (h4 t).2 ht
          cases this
          exact Or.inl rfl
        · exact Or.inr ⟨v, hv, t, ht, rfl⟩

/-- The calls for the triples that another layer does not have. -/
theorem missingCalls_spec {T U : List (LayerData K V)} (hT : Reachable T) (hU : Reachable U)
    (f : VTriple K V → Op K V) : ∀ l : List Triple, ∃ r, missingCalls T U f l = some r ∧
      ∀ op, op ∈ r ↔ ∃ u ∈ l, ∃ t : VTriple K V, Res T t.toG u ∧ ¬ content U t.toG ∧ op = f t
  | [] => ⟨[], rfl, by simp⟩
  | u :: l => by
    obtain ⟨Ps, Ns, hok⟩ := hT.good
    obtain ⟨Ps', Ns', hok'⟩ := hU.good
    obtain ⟨rest, h1, h2⟩ := missingCalls_spec hT hU f l
    obtain ⟨x, h3, h4⟩ := idTripleToString_spec hok u
    cases x with
    | none =>
      refine ⟨rest, by simp [missingCalls, h1, h3], ?_⟩
      intro op
      rw [h2]
      constructor
      · rintro ⟨v, hv, hr⟩
        exact ⟨v, List.mem_cons_of_mem _ hv, hr⟩
      · rintro ⟨v, hv, t, ht, hr⟩
        rcases List.mem_cons.1 hv with rfl | hv
        · have := (h4 t).2 ht
          cases this
        · exact ⟨v, hv, t, ht, hr⟩
    | some st =>
      obtain ⟨b, h5, h6⟩ := valueTripleExists_spec hok' st
      refine ⟨if b then rest else f st :: rest, by simp [missingCalls, h1, h3, h5], ?_⟩
      intro op
      cases b with
      | true =>
        rw [if_pos rfl, h2]
        constructor
        · rintro ⟨v, hv, hr⟩
          exact ⟨v, List.mem_cons_of_mem _ hv, hr⟩
        · rintro ⟨v, hv, t, ht, hr, ho⟩
          rcases List.mem_cons.1 hv with rfl | hv
          · have := (h4 t).2 ht
            cases this
            exact absurd (h6.1 rfl) hr
          · exact ⟨v, hv, t, ht, hr, ho⟩
      | false =>
        have hno : ¬ content U st.toG := fun hc => by have := h6.2 hc; cases this
        rw [if_neg (by simp), List.mem_cons, h2]
        constructor
        · rintro (rfl | ⟨v, hv, hr⟩)
          · exact ⟨u, List.mem_cons_self .., st, (h4 st).1 rfl, hno, rfl⟩
          · exact ⟨v, List.mem_cons_of_mem _ hv, hr⟩
        · rintro ⟨v, hv, t, ht, hr, rfl⟩
          rcases List.mem_cons.1 hv with rfl | hv
          · have := (h4 t).2 ht
            cases this
            exact Or.inl rfl
          · exact Or.inr ⟨v, hv, t, ht, hr, rfl⟩

/-- A commit of value triple calls, in terms of what was asked for. -/
theorem commit_value_ops {S : List (LayerData K V)} (hS : Reachable S) {ops : List (Op K V)}
    (hv : ∀ op ∈ ops, (∃ t, op = .addValue t) ∨ ∃ t, op = .removeValue t) {d : LayerData K V}
    (hd : Commits S ops d) (hdis : ∀ t, Op.addValue t ∈ ops → Op.removeValue t ∉ ops)
    (t : VTriple K V) :
    content (d :: S) t.toG ↔
      (content S t.toG ∧ Op.removeValue t ∉ ops) ∨ Op.addValue t ∈ ops := by
  have hk : ∀ op ∈ ops, IdsKnown S op := by
    intro op ho
    rcases hv op ho with ⟨t, rfl⟩ | ⟨t, rfl⟩ <;> trivial
  rw [commit_after hS hk hd]
  have ha : added (ops.filterMap (opCall S)) t ↔ Op.addValue t ∈ ops := by
    unfold added
    rw [List.mem_filterMap]
    constructor
    · rintro ⟨op, ho, h⟩
      rcases hv op ho with ⟨t', rfl⟩ | ⟨t', rfl⟩
      · simp only [opCall, Option.some.injEq, Call.add.injEq] at h
        subst h
        exact ho
      · cases h
    · intro h
      exact ⟨_, h, rfl⟩
  have hr : removed (ops.filterMap (opCall S)) t ↔ Op.removeValue t ∈ ops := by
    unfold removed
    rw [List.mem_filterMap]
    constructor
    · rintro ⟨op, ho, h⟩
      rcases hv op ho with ⟨t', rfl⟩ | ⟨t', rfl⟩
      · cases h
      · simp only [opCall, Option.some.injEq, Call.remove.injEq] at h
        subst h
        exact ho
    · intro h
      exact ⟨_, h, rfl⟩
  unfold after
  rw [ha, hr]
  have := hdis t
  tauto

/-- The calls of `apply_delta`. -/
theorem applyDelta_calls {st : Store K V} {delta : InternalLayer K V} {e : Entry K V}
    {S : List (LayerData K V)} (he : st.get? delta.name = some e) (hS : Reachable (e.data :: S))
    (ha : Alike (e.data :: S) delta.stack) :
    ∃ calls, applyDeltaCalls st delta = .ok calls ∧
      ∀ op, op ∈ calls ↔
        (∃ t : VTriple K V, op = .addValue t ∧ content (e.data :: S) t.toG ∧ ¬ content S t.toG) ∨
        ∃ t : VTriple K V, op = .removeValue t ∧ content S t.toG ∧ ¬ content (e.data :: S) t.toG := by
  obtain ⟨P, N, h1, h2, h3, h4⟩ := changes_content hS
  obtain ⟨a, g1, g2⟩ := stringCalls_spec ha.right Op.addValue P
  obtain ⟨r, k1, k2⟩ := stringCalls_spec ha.right Op.removeValue N
  refine ⟨a ++ r, ?_, ?_⟩
  · simp only [applyDeltaCalls, Store.tripleAdditions, Store.tripleRemovals, he, h1, h2, g1, k1,
      Out.ofOption, Out.ok_bind, Out.pure_eq]
  · intro op
    rw [List.mem_append, g2, k2]
    simp only [← ha.same.res]
    constructor
    · rintro (⟨u, hu, t, ht, rfl⟩ | ⟨u, hu, t, ht, rfl⟩)
      · exact Or.inl ⟨t, rfl, (h3 t).1 ⟨u, hu, ht⟩⟩
      · exact Or.inr ⟨t, rfl, (h4 t).1 ⟨u, hu, ht⟩⟩
    · rintro (⟨t, rfl, ht⟩ | ⟨t, rfl, ht⟩)
      · obtain ⟨u, hu, hr⟩ := (h3 t).2 ht
        exact Or.inl ⟨u, hu, t, hr, rfl⟩
      · obtain ⟨u, hu, hr⟩ := (h4 t).2 ht
        exact Or.inr ⟨u, hu, t, hr, rfl⟩

/-- The triples of a layer, as strings. -/
theorem triples_content {S : List (LayerData K V)} (hS : Reachable S) :
    ∃ l, Stack.triples S = some l ∧
      ∀ t : VTriple K V, (∃ u ∈ l, Res S t.toG u) ↔ content S t.toG := by
  obtain ⟨Ps, Ns, hok⟩ := hS.good
  obtain ⟨l, h1, _, h2⟩ := hok.rep.triples hok.wf
  refine ⟨l, h1, fun t => ?_⟩
  rw [content_iff hok]
  constructor
  · rintro ⟨u, hu, hr⟩
    exact ⟨u, hr, (h2 u).1 hu⟩
  · rintro ⟨u, hr, hp⟩
    exact ⟨u, (h2 u).2 hp, hr⟩

/-- The calls of `apply_diff`. -/
theorem applyDiff_calls {S T : List (LayerData K V)} (hS : Reachable S) (hT : Reachable T) :
    ∃ calls, applyDiffCalls S T = some calls ∧
      ∀ op, op ∈ calls ↔
        (∃ t : VTriple K V, op = .addValue t ∧ content T t.toG ∧ ¬ content S t.toG) ∨
        ∃ t : VTriple K V, op = .removeValue t ∧ content S t.toG ∧ ¬ content T t.toG := by
  obtain ⟨l, h1, h2⟩ := triples_content hS
  obtain ⟨m, h3, h4⟩ := triples_content hT
  obtain ⟨r, g1, g2⟩ := missingCalls_spec hS hT Op.removeValue l
  obtain ⟨a, k1, k2⟩ := missingCalls_spec hT hS Op.addValue m
  refine ⟨r ++ a, by simp [applyDiffCalls, h1, h3, g1, k1], ?_⟩
  intro op
  rw [List.mem_append, g2, k2]
  constructor
  · rintro (⟨u, hu, t, ht, hn, rfl⟩ | ⟨u, hu, t, ht, hn, rfl⟩)
    · exact Or.inr ⟨t, rfl, (h2 t).1 ⟨u, hu, ht⟩, hn⟩
    · exact Or.inl ⟨t, rfl, (h4 t).1 ⟨u, hu, ht⟩, hn⟩
  · rintro (⟨t, rfl, ht, hn⟩ | ⟨t, rfl, ht, hn⟩)
    · obtain ⟨u, hu, hr⟩ := (h4 t).2 ht
      exact Or.inr ⟨u, hu, t, hr, hn, rfl⟩
    · obtain ⟨u, hu, hr⟩ := (h2 t).2 ht
      exact Or.inl ⟨u, hu, t, hr, hn, rfl⟩

/-- Making calls for additions and removals that exclude each other, by any number of
workers, and then committing. -/
theorem BuilderUse.Run.applies {S : List (LayerData K V)} (hS : Reachable S)
    {s : BuilderUse K V} (h : BuilderUse.Run S s) {ids : List Nat} {calls : List (Op K V)}
    {j t : Nat} (hc : ChangesThenCommit s.calls ids calls j t) {A R : VTriple K V → Prop}
    (hm : ∀ op, op ∈ calls ↔ (∃ x, op = .addValue x ∧ A x) ∨ ∃ x, op = .removeValue x ∧ R x)
    (hx : ∀ x, A x → ¬ R x) :
    ∃ d, s.written = [d] ∧ Reachable (d :: S) ∧
      ∀ x : VTriple K V, content (d :: S) x.toG ↔ (content S x.toG ∧ ¬ R x) ∨ A x := by
  have hv : ∀ op ∈ calls, (∃ t, op = .addValue t) ∨ ∃ t, op = .removeValue t := by
    intro op ho
    rcases (hm op).1 ho with ⟨x, rfl, _⟩ | ⟨x, rfl, _⟩
    · exact Or.inl ⟨x, rfl⟩
    · exact Or.inr ⟨x, rfl⟩
  have hk : ∀ op ∈ calls, IdsKnown S op := by
    intro op ho
    rcases hv op ho with ⟨t, rfl⟩ | ⟨t, rfl⟩ <;> trivial
  obtain ⟨d, ops, h1, h2, h3⟩ := h.changes_then_commit hS hk hc
  have hadd : ∀ x, Op.addValue x ∈ ops ↔ A x := by
    intro x
    rw [h3, hm]
    constructor
    · rintro (⟨y, hy, ha⟩ | ⟨y, hy, _⟩)
      · cases hy; exact ha
      · cases hy
    · intro ha; exact Or.inl ⟨x, rfl, ha⟩
  have hrem : ∀ x, Op.removeValue x ∈ ops ↔ R x := by
    intro x
    rw [h3, hm]
    constructor
    · rintro (⟨y, hy, _⟩ | ⟨y, hy, ha⟩)
      · cases hy
      · cases hy; exact ha
    · intro ha; exact Or.inr ⟨x, rfl, ha⟩
  refine ⟨d, h1, hS.commit (fun op ho => hk op ((h3 op).1 ho)) h2, ?_⟩
  intro x
  rw [commit_value_ops hS (fun op ho => hv op ((h3 op).1 ho)) h2 (fun y hy hr =>
    hx y ((hadd y).1 hy) ((hrem y).1 hr)), hadd, hrem]

namespace World

open Store

/-- The calls of `apply_delta` with a layer of the store. -/
theorem Inv.applyDelta {w : World K V} (h : Inv w) {q : Name} {delta : InternalLayer K V}
    (hq : (q, delta) ∈ w.held) : ∃ calls, applyDeltaCalls w.store delta = .ok calls ∧
      ∀ op, op ∈ calls ↔ (∃ t : VTriple K V, op = .addValue t ∧ w.log.addedBy delta.name t) ∨
        ∃ t : VTriple K V, op = .removeValue t ∧ w.log.removedBy delta.name t := by
  obtain ⟨S, h1, h2, _⟩ := (h.held _ hq).1.stands h.ok
  obtain ⟨e, he⟩ := has_iff.1 h1.has
  have hown := h.ok.own he h1
  have hpar := h.log.parent _ h1.has
  have htr := h.log.triples _ S h1
  have hbelow : ∃ R, S = e.data :: R ∧
      ∀ t : VTriple K V, content R t.toG ↔ w.log.below (w.log.parent delta.name) t := by
    rcases h1.parent with ⟨g1, g2⟩ | ⟨p, e', R, g1, g2, g3, rfl⟩
    · obtain ⟨d, rfl⟩ : ∃ d, S = [d] := by
        cases S with
        | nil => cases g2
        | cons d S =>
          cases S with
          | nil => exact ⟨d, rfl⟩
          | cons _ _ => simp at g2
      simp only [List.head?_cons, Option.some.injEq] at hown
      refine ⟨[], by rw [hown], fun t => ?_⟩
      rw [← hpar, g1]
      simp only [History.below, iff_false]
      rw [content_iff (S := ([] : List (LayerData K V))) StackOk.nil]
      rintro ⟨u, _, hp⟩
      simp [present] at hp
    · simp only [List.head?_cons, Option.some.injEq] at hown
      refine ⟨R, by rw [hown], fun t => ?_⟩
      rw [← hpar, g1]
      exact h.log.triples p R g3 t
  obtain ⟨R, rfl, hR⟩ := hbelow
  obtain ⟨calls, k1, k2⟩ := applyDelta_calls he h2.left h2
  refine ⟨calls, k1, fun op => ?_⟩
  rw [k2]
  simp only [htr, hR, History.addedBy, History.removedBy]

end World

end Verif
