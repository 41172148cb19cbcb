import Verif.Lemmas.ApplyOk
import Verif.Props.BuilderWitness
import Verif.Props.StoreWitness

/-!
Properties of layer builders that many callers share (`BuilderUse.Run`: calls begin, go
on, fail and return in any order), and of `apply_delta` and `apply_diff`. The specification
is `BuilderSpec`: a builder collects changes until it is committed.
-/

set_option linter.unusedSectionVars false

namespace Verif

open SimpleBuilder Spec BuilderUse

variable {K V : Type} [LinearOrder K] [LinearOrder V]

/-! ### C20: one commit -/

/-- C20: the calls on a builder took effect one at a time, each between call and return, in
an order in which a builder that collects changes until its one commit gives the same
answers. At most one layer is written, from exactly the changes that were accepted; it
is written if a commit succeeds. -/
theorem C20_linearizable {S : List (LayerData K V)} {s : BuilderUse K V} (h : Run S s) :
    ∃ G, Linearized builderCall (some []) builderBroke builderAgree s.calls G ∧
      (∀ d ∈ s.written, s.written = [d] ∧ Commits S (acceptedOf G) d) ∧
      ∀ i c t, s.calls i = some c → c.op = .commit → c.answer = some (.done, t) →
        s.written ≠ [] := by
  obtain ⟨G, inv⟩ := h.inv
  refine ⟨G, inv.lin, ?_, inv.success⟩
  intro d hd
  rcases inv.layer with h0 | ⟨d', i, b, nv, pm, h1, ⟨A, e, B, hG, _, he2, he3, he4⟩, h3, h4, h5, _⟩
  · rw [h0] at hd
    cases hd
  · rw [h1, List.mem_singleton] at hd
    subst hd
    have hrep := inv.lin.replays
    rw [hG] at hrep
    obtain ⟨_, hacc, _⟩ := replays_commit hrep he2 he3
    exact ⟨h1, b, nv, pm, by rw [hG, hacc]; exact he4, h3, h4, h5⟩

/-- Two commits race with a change. -/
def builderRace : List (BuilderAct Nat Nat) :=
  [.call 0 (.change (.removeValue ⟨1, 10, .value 7⟩)), .call 1 .commit, .call 2 .commit, .go 0,
    .go 2, .call 3 (.change (.addValue ⟨5, 5, .node 5⟩)), .go 1, .go 3, .call 4 .committed,
    .go 2, .go 4, .go 2]

example : ∃ s, Run [Witness.base] s ∧ s.written.length = 1 ∧
    s.seen 0 = some (.change (.removeValue ⟨1, 10, .value 7⟩), 0, some (.done, 3)) ∧
    s.seen 1 = some (.commit, 1, some (.refused, 6)) ∧
    s.seen 2 = some (.commit, 2, some (.done, 11)) ∧
    s.seen 3 = some (.change (.addValue ⟨5, 5, .node 5⟩), 5, some (.refused, 7)) ∧
    s.seen 4 = some (.committed, 8, some (.flag true, 10)) ∧
    ∀ d ∈ s.written, Stack.valueTripleExists [d, Witness.base] ⟨1, 10, .value 7⟩ = some false :=
  ⟨(opened [Witness.base]).exec builderRace, exec_run .start _, by decide, by decide, by decide, by decide,
    by decide, by decide, by decide⟩

/-- C20: at most one layer is written and at most one commit succeeds. -/
theorem C20_one_commit {S : List (LayerData K V)} {s : BuilderUse K V} (h : Run S s) :
    s.written.length ≤ 1 ∧
      ∀ i j ci cj ti tj, s.calls i = some ci → s.calls j = some cj → ci.op = .commit →
        cj.op = .commit → ci.answer = some (.done, ti) → cj.answer = some (.done, tj) → i = j := by
  obtain ⟨G, inv⟩ := h.inv
  refine ⟨?_, ?_⟩
  · rcases inv.layer with h0 | ⟨d', i, b, nv, pm, h1, _⟩
    · rw [h0]; exact Nat.zero_le _
    · rw [h1]; exact Nat.le_refl _
  · have key : ∀ i c t, s.calls i = some c → c.op = .commit → c.answer = some (.done, t) →
        ∃ e ∈ G, e.id = i ∧ e.op = .commit ∧ e.res = .done := by
      intro i c t hi ho ha
      obtain ⟨e, he1, he2⟩ := inv.lin.complete i c _ t hi ha (by intro hc; cases hc)
      obtain ⟨c', g1, g2, _, g4⟩ := inv.lin.sound e he1
      rw [he2, hi] at g1
      cases g1
      refine ⟨e, he1, he2, by rw [← g2, ho], ?_⟩
      rcases (g4 _ _ ha).1 with k | ⟨k, _⟩
      · exact k.symm
      · exact k
    intro i j ci cj ti tj hi hj hio hjo hia hja
    obtain ⟨e, e1, e2, e3, e4⟩ := key i ci ti hi hio hia
    obtain ⟨f, f1, f2, f3, f4⟩ := key j cj tj hj hjo hja
    rw [← e2, ← f2, one_commit inv.lin.replays e1 f1 e3 f3 e4 f4]

/-- C20: a call that begins after a commit has returned, with whatever answer, is refused;
`committed` says so. -/
theorem C20_refused_after_commit {S : List (LayerData K V)} {s : BuilderUse K V} (h : Run S s)
    {i j ti tj : Nat} {ci cj : TimedCall (BuilderOp (Op K V)) BuilderRes} {ri rj : BuilderRes}
    (hi : s.calls i = some ci) (hio : ci.op = .commit) (hia : ci.answer = some (ri, ti))
    (hri : ri ≠ .panicked) (hj : s.calls j = some cj) (hja : cj.answer = some (rj, tj))
    (hrj : rj ≠ .panicked) (hlt : ti ≤ cj.start) (hne : j ≠ i) :
    rj = match cj.op with | .committed => .flag true | _ => .refused := by
  obtain ⟨G, inv⟩ := h.inv
  obtain ⟨e, he1, he2⟩ := inv.lin.complete i ci ri ti hi hia hri
  obtain ⟨f, hf1, hf2⟩ := inv.lin.complete j cj rj tj hj hja hrj
  obtain ⟨c, g1, g2, g3, g4⟩ := inv.lin.sound e he1
  rw [he2, hi] at g1
  cases g1
  obtain ⟨c, k1, k2, k3, k4⟩ := inv.lin.sound f hf1
  rw [hf2, hj] at k1
  cases k1
  have hle : e.time ≤ f.time := by have := (g4 _ _ hia).2; omega
  have hef : e ≠ f := by
    intro hc
    rw [hc] at he2
    exact hne (hf2.symm.trans he2)
  have hcase : e.time < f.time := by
    apply Nat.lt_of_le_of_ne hle
    intro hc
    obtain ⟨A, B, hG⟩ := List.append_of_mem he1
    have hs := inv.lin.sorted
    rw [hG] at hs hf1
    obtain ⟨s1, s2, s3⟩ := List.pairwise_append.1 hs
    rw [List.mem_append, List.mem_cons] at hf1
    rcases hf1 with hf1 | rfl | hf1
    · have := s3 f hf1 e (List.mem_cons_self ..)
      omega
    · exact hef rfl
    · have := (List.pairwise_cons.1 s2).1 f hf1
      omega
  obtain ⟨A, B, C, hG⟩ := inv.lin.order he1 hf1 hcase
  have hrep := inv.lin.replays
  rw [hG, replays_append, Replays, ← g2, hio] at hrep
  obtain ⟨_, _, h3⟩ := hrep
  have hst : (builderCall (stateAfter builderCall (some []) A) (.commit : BuilderOp (Op K V))).2 = none := by
    cases stateAfter builderCall (some []) A <;> rfl
  rw [hst] at h3
  have hf := replays_none h3 f (by simp)
  rw [← k2] at hf
  have := (k4 _ _ hja).1
  rw [hf] at this
  rcases this with this | ⟨this, _⟩
  · rw [this]
    cases cj.op <;> rfl
  · cases ho : cj.op with
    | change _ => rw [ho] at this; cases this
    | committed => rw [ho] at this; cases this
    | commit => rw [ho] at this; cases this

example : ∃ s, Run [Witness.base] s ∧
    s.seen 0 = some (.commit, 0, some (.failed, 2)) ∧ s.written = [] ∧
    s.seen 1 = some (.change (.addValue ⟨5, 5, .node 5⟩), 3, some (.refused, 4)) :=
  ⟨(opened [Witness.base]).exec [.call 0 .commit, .go 0, .fail 0,
      .call 1 (.change (.addValue ⟨5, 5, .node 5⟩)), .go 1],
    exec_run .start _, by decide, by decide, by decide⟩

/-- C20: nothing panics on a layer of the store as long as ids are known to it. -/
theorem C20_no_panic {S : List (LayerData K V)} (hS : Reachable S) {s : BuilderUse K V}
    (h : Run S s)
    (hk : ∀ i c op, s.calls i = some c → c.op = .change op → IdsKnown S op) :
    ∀ i c r t, s.calls i = some c → c.answer = some (r, t) → r ≠ .panicked :=
  (h.no_panic hS hk).2

/-- C20: the triples of the layer that is written are those of the parent with the accepted
changes applied. -/
theorem C20_contents {S : List (LayerData K V)} (hS : Reachable S) {s : BuilderUse K V}
    (h : Run S s)
    (hk : ∀ i c op, s.calls i = some c → c.op = .change op → IdsKnown S op)
    {d : LayerData K V} (hd : d ∈ s.written) :
    ∃ G, Linearized builderCall (some []) builderBroke builderAgree s.calls G ∧
      ∀ t, ∃ b, Stack.valueTripleExists (d :: S) t = some b ∧
        (b = true ↔ after (fun t => Stack.valueTripleExists S t = some true)
          ((acceptedOf G).filterMap (opCall S)) t) := by
  obtain ⟨G, h1, h2, _⟩ := C20_linearizable h
  refine ⟨G, h1, fun t => ?_⟩
  obtain ⟨_, hc⟩ := h2 d hd
  have hkn : ∀ op ∈ acceptedOf G, IdsKnown S op := by
    intro op ho
    obtain ⟨i, t, hm⟩ := mem_acceptedOf.1 ho
    obtain ⟨c, g1, g2, _⟩ := h1.sound _ hm
    exact hk i c op g1 g2
  have hdS := hS.commit hkn hc
  obtain ⟨_, _, hok⟩ := hdS.good
  obtain ⟨_, _, hok'⟩ := hS.good
  obtain ⟨b, g1, g2⟩ := valueTripleExists_spec hok t
  refine ⟨b, g1, ?_⟩
  rw [g2, commit_after hS hkn hc]
  exact after_congr (fun t => (valueTripleExists_iff hok' t).symm) _ t

/-! ### C21: apply_delta -/

/-- C21: `apply_delta` with any layer `delta` succeeds. If all the calls that it makes have
returned, in whatever order the workers made them, before the builder is committed, and
nothing else was asked of the builder, then the triples of the new layer are those of the
parent, less those that `delta` has not but its parent has, and those that `delta` has
but its parent has not. -/
theorem C21_apply_delta {S : List (LayerData K V)} (hS : Reachable S) {st : Store K V}
    {delta : InternalLayer K V} {e : Entry K V} {D : List (LayerData K V)}
    (he : st.get? delta.name = some e) (hD : Alike (e.data :: D) delta.stack) :
    ∃ calls, applyDeltaCalls st delta = .ok calls ∧
      ∀ {s : BuilderUse K V} {ids : List Nat} {j t : Nat}, Run S s →
        ChangesThenCommit s.calls ids calls j t →
        ∃ d, s.written = [d] ∧ Reachable (d :: S) ∧
          ∀ x, ∃ b, Stack.valueTripleExists (d :: S) x = some b ∧
            (b = true ↔
              (Stack.valueTripleExists S x = some true ∧
                ¬ (Stack.valueTripleExists D x = some true ∧
                  ¬ Stack.valueTripleExists delta.stack x = some true)) ∨
              (Stack.valueTripleExists delta.stack x = some true ∧
                ¬ Stack.valueTripleExists D x = some true)) := by
  obtain ⟨calls, h1, h2⟩ := applyDelta_calls he hD.left hD
  refine ⟨calls, h1, ?_⟩
  intro s ids j t hr hc
  obtain ⟨d, g1, g2, g3⟩ := hr.applies hS hc h2 (fun x ha hb => ha.2 hb.1)
  refine ⟨d, g1, g2, fun x => ?_⟩
  obtain ⟨_, _, hok⟩ := g2.good
  obtain ⟨_, _, hok'⟩ := hS.good
  obtain ⟨_, _, hok2⟩ := hD.right.good
  obtain ⟨_, _, hok3⟩ := hD.left.good
  obtain ⟨P, N, Ps', Ns', _, _, hok4⟩ := hok3.tail
  obtain ⟨b, k1, k2⟩ := valueTripleExists_spec hok x
  refine ⟨b, k1, ?_⟩
  rw [k2, g3, valueTripleExists_iff hok', valueTripleExists_iff hok2, valueTripleExists_iff hok4,
    ← hD.same.content]

/-- The store with the two layers of the witness. -/
def deltaStore : Store Nat Nat := [(1, { parent := some 0, data := Witness.child }),
  (0, { parent := none, data := Witness.base })]

/-- The second layer of the witness, loaded. -/
def deltaLayer : InternalLayer Nat Nat := .child 1 Witness.child (.base 0 Witness.base)

/-- Apply the second layer of the witness to nothing, with the calls out of order and
overlapping, and commit. -/
def applyRun : List (BuilderAct Nat Nat) :=
  [.call 2 (.change (.removeValue ⟨1, 10, .value 7⟩)), .call 0 (.change (.addValue ⟨1, 11, .value 8⟩)),
    .call 1 (.change (.addValue ⟨2, 12, .node 4⟩)), .go 1, .go 2, .go 0, .call 3 .commit, .go 3,
    .go 3, .go 3]

example : Alike [Witness.child, Witness.base] deltaLayer.stack := Witness.child_reachable

example : ∃ (s : BuilderUse Nat Nat) (calls : List (Op Nat Nat)) (ids : List Nat) (j t : Nat),
    applyDeltaCalls deltaStore deltaLayer = .ok calls ∧ calls.length = 3 ∧
      Run [Witness.base] s ∧ ChangesThenCommit s.calls ids calls j t ∧
      ∀ d ∈ s.written, Stack.valueTripleExists [d, Witness.base] ⟨1, 10, .value 7⟩ = some false ∧
        Stack.valueTripleExists [d, Witness.base] ⟨2, 12, .node 4⟩ = some true :=
  ⟨(opened [Witness.base]).exec applyRun,
    [.addValue ⟨1, 11, .value 8⟩, .addValue ⟨2, 12, .node 4⟩, .removeValue ⟨1, 10, .value 7⟩],
    [0, 1, 2], 3, 6, by decide, by decide, exec_run .start _, tested_spec (by decide), by decide⟩

/-- C21 in the store, for builders on any layer that is in use and any other layer as
delta. Missing: executions with the rollups of DESIGN.md, section 4, that go wrong. -/
theorem C21_apply_delta_store_partial {w : World K V} (h : World.Run true w) {p q : Name}
    {l delta : InternalLayer K V} (hl : (p, l) ∈ w.held) (hq : (q, delta) ∈ w.held) :
    ∃ calls, applyDeltaCalls w.store delta = .ok calls ∧
      ∀ {s : BuilderUse K V} {ids : List Nat} {j t : Nat}, Run l.stack s →
        ChangesThenCommit s.calls ids calls j t →
        ∃ d, s.written = [d] ∧ ∀ x, ∃ b, Stack.valueTripleExists (d :: l.stack) x = some b ∧
          (b = true ↔ (w.log.triples p x ∧ ¬ w.log.removedBy delta.name x) ∨
            w.log.addedBy delta.name x) := by
  obtain ⟨calls, h1, h2⟩ := h.inv.applyDelta hq
  refine ⟨calls, h1, ?_⟩
  intro s ids j t hr hc
  obtain ⟨S, e1, e2, _⟩ := (h.inv.held _ hl).2
  obtain ⟨d, g1, g2, g3⟩ := hr.applies e2.right hc h2 (fun x ha hb => ha.2 hb.1)
  refine ⟨d, g1, fun x => ?_⟩
  obtain ⟨_, _, hok⟩ := g2.good
  obtain ⟨b, k1, k2⟩ := valueTripleExists_spec hok x
  refine ⟨b, k1, ?_⟩
  rw [k2, g3, ← h.inv.log.triples _ S e1, e2.same.content]

example : ∃ w : World Nat Nat, World.Run true w ∧
    w.held.map (·.1) = [102, 101, 100] ∧
    w.held.map (fun q => match applyDeltaCalls w.store q.2 with | .ok c => c.length | _ => 0) =
      [2, 3, 3] := Witness.reaches_run (cs := Witness.commits) (by decide)

/-! ### C22: apply_diff -/

/-- C22: `apply_diff` with any layer makes calls after which, whatever order the workers made
them in, a commit gives a layer with exactly the triples of that layer. -/
theorem C22_apply_diff {S T : List (LayerData K V)} (hS : Reachable S) (hT : Reachable T) :
    ∃ calls, applyDiffCalls S T = some calls ∧
      ∀ {s : BuilderUse K V} {ids : List Nat} {j t : Nat}, Run S s →
        ChangesThenCommit s.calls ids calls j t →
        ∃ d, s.written = [d] ∧ Reachable (d :: S) ∧
          ∀ x, Stack.valueTripleExists (d :: S) x = Stack.valueTripleExists T x := by
  obtain ⟨calls, h1, h2⟩ := applyDiff_calls hS hT
  refine ⟨calls, h1, ?_⟩
  intro s ids j t hr hc
  obtain ⟨d, g1, g2, g3⟩ := hr.applies hS hc h2 (fun x ha hb => ha.2 hb.1)
  refine ⟨d, g1, g2, fun x => ?_⟩
  obtain ⟨_, _, hok⟩ := g2.good
  obtain ⟨_, _, hok2⟩ := hT.good
  obtain ⟨b, k1, k2⟩ := valueTripleExists_spec hok x
  obtain ⟨b', k3, k4⟩ := valueTripleExists_spec hok2 x
  rw [k1, k3]
  congr 1
  rw [Bool.eq_iff_iff, k2, k4, g3]
  tauto

/-- A layer that has nothing to do with the others. -/
def strangeOps : List (Op Nat Nat) := [.addValue ⟨3, 11, .value 7⟩, .addValue ⟨9, 9, .node 9⟩]

example : ∃ (e : LayerData Nat Nat) (s : BuilderUse Nat Nat) (calls : List (Op Nat Nat))
    (ids : List Nat) (j t : Nat), Commits [] strangeOps e ∧
    applyDiffCalls [Witness.child, Witness.base] [e] = some calls ∧ calls.length = 4 ∧
      Run [Witness.child, Witness.base] s ∧ ChangesThenCommit s.calls ids calls j t := by
  refine ⟨_, (opened [Witness.child, Witness.base]).exec
    [.call 3 (.change (.addValue ⟨9, 9, .node 9⟩)), .call 0 (.change (.removeValue ⟨1, 10, .node 2⟩)),
      .go 0, .call 2 (.change (.removeValue ⟨2, 12, .node 4⟩)),
      .call 1 (.change (.removeValue ⟨1, 11, .value 8⟩)), .go 1, .go 3, .go 2, .call 4 .commit,
      .go 4, .go 4, .go 4],
    [.removeValue ⟨1, 10, .node 2⟩, .removeValue ⟨1, 11, .value 8⟩, .removeValue ⟨2, 12, .node 4⟩,
      .addValue ⟨9, 9, .node 9⟩], [0, 1, 2, 3], 4, 8, Witness.commits_of_eval (by rfl), by decide,
    by decide, exec_run .start _, tested_spec (by decide)⟩

/-! ### On a builder that was committed -/

/-- `apply_delta` on a builder that has been committed has no effect and reports success. -/
theorem C20_apply_delta_silent (ops : List (Op K V)) :
    runIgnoring (.taken : BuilderLock K V) ops = (.ok (), .taken) := by
  induction ops with
  | nil => rfl
  | cons op ops ih => exact ih

/-- `apply_diff` on a builder that has been committed panics if there is any difference. -/
theorem C20_apply_diff_panics (op : Op K V) (ops : List (Op K V)) :
    runUnwrapping (.taken : BuilderLock K V) (op :: ops) = (.panic, .taken) := rfl

/-- After a call panicked while it held the lock of a builder, `apply_delta` and `apply_diff` with
any change panic too, and go on doing so: neither reports success or an error. -/
theorem C20_poisoned_panics {l : BuilderLock K V} {op : Op K V} {m : BuilderLock K V}
    (h : BuilderUse.withBuilder l op = (.panicked, m)) (op' : Op K V) (ops : List (Op K V)) :
    runIgnoring m (op' :: ops) = (.panic, m) ∧ runUnwrapping m (op' :: ops) = (.panic, m) := by
  have : m = .poisoned := by
    cases l <;> simp only [BuilderUse.withBuilder] at h
    · split at h <;> simp_all
    · simp at h
    · simp_all
  subst this
  exact ⟨rfl, rfl⟩

/-- A closure given to `with_builder` panicked before. -/
example : BuilderUse.withBuilder (.poisoned : BuilderLock Nat Nat) (.addValue ⟨1, 10, .value 7⟩) =
    (.panicked, .poisoned) := rfl


end Verif
