import Verif.Lemmas.ApiNames

/-!
C56: a program that makes one call after the other on a store cannot tell it from the simple
store of `Verif/ApiSpec.lean`.
-/

namespace Verif.Api

open Spec SimpleBuilder Store World Session

variable {K V L : Type} [LinearOrder K] [LinearOrder V] [DecidableEq L]

/-- One call. -/
theorem Sim.call {s : Session K V L} {w : World K V} {a : State K V L} (h : Sim s w a)
    {ch : Choice K V L} (hch : ch.Possible s) {c : Req K V L} (hc : InContract a c) :
    Simulates a c (s.call ch c) := by
  obtain ⟨w1, h1, _, _, _⟩ := h.evict (c := ch.keep s.cache) (hch.keep s.cache)
  have hch : ch.Possible { s with cache := ch.keep s.cache } :=
    ⟨hch.new, hch.nv, hch.pm, hch.calls, hch.labels, hch.keep, hch.keep2, hch.lost⟩
  show Simulates a c (perform { s with cache := ch.keep s.cache } ch c)
  cases c with
  | createGraph l => exact (h1.createGraph l).later
  | openGraph l => exact (h1.openGraph l).later
  | deleteGraph l => exact (h1.deleteGraph l).later
  | dropGraph l => exact (h1.dropGraph l).later
  | graphs => exact (h1.graphs hch.labels).later
  | head l => exact h1.head l
  | setHead l i => exact (h1.setHead l hc).later
  | forceSetHead l i => exact (h1.forceSetHead l hc).later
  | forceSetHeadVersion l i v => exact (h1.forceSetHeadVersion l hc).later
  | getLayer n => exact h1.getLayer hc
  | createBase => exact (h1.createBase hch).later
  | merge ns => exact h1.merge hch hc
  | openWrite i => exact h1.openWrite hch hc
  | parent i => exact h1.parent hc
  | squash i => exact h1.squash hch hc
  | squashUpto i j => exact h1.squashUpto hch hc.1 hc.2
  | rollup i => exact h1.rollup hch hc
  | rollupUpto i j => exact h1.rollupUpto hch hc
  | impreciseRollupUpto i j => exact h1.impreciseRollupUpto hch hc
  | stackNames i => exact (h1.stackNames hc).later
  | layerName i => exact (h1.layerName hc).later
  | parentName i => exact (h1.parentName hc).later
  | query i q => exact (h1.query hc.1 hc.2).later
  | additions i q => exact (h1.additions hc).later
  | removals i q => exact (h1.removals hc).later
  | builderName b => exact (h1.builderName hc).later
  | builderParent b => exact (h1.builderParent hc).later
  | edit b e => exact (h1.edit hc).later
  | committed b => exact (h1.committed hc).later
  | commitNoLoad b => exact h1.commitNoLoad hch hc
  | commit b => exact h1.commit hch hc
  | applyDelta b i => exact h1.applyDelta hch hc.1 hc.2
  | applyDiff b i => exact h1.applyDiff hch hc

/-- C56 from any point on. -/
theorem Sim.explains {s : Session K V L} {tr : List (Req K V L × Ans K V L × Name)}
    (ht : NamedTrace s tr) :
    ∀ {w : World K V} {a : State K V L}, Sim s w a → ExplainsNames a tr := by
  induction ht with
  | nil => intro w a _; exact .nil
  | @call s ch c rest hch _ ih =>
    intro w a h
    by_cases hc : InContract a c
    · obtain ⟨w', a', h1, h2⟩ := h.call hch hc
      refine .step hc h1 (fun n hn hnew => h2.free.2 ?_) (ih h2)
      have := h.free.1 hn
      exact free_perform (s := { s with cache := ch.keep s.cache }) ⟨this.1, this.2⟩ hnew c
    · exact .out hc

/-- C56: whatever a program does with a new store, in memory or on disk, call after call,
the answers are those of the simple store, up to the first call that is outside of the contract. This holds for all names that
new layers may get, all orders of hash maps and of parallel workers, and all times at which cached
layers may vanish; the simple store uses the names that the store has chosen. Missing: calls
outside of the contract, see `InContract`. -/
theorem C56_names_partial {disk : Bool} {tr : List (Req K V L × Ans K V L × Name)}
    (h : NamedTrace { disk := disk } tr) : ExplainsNames {} tr :=
  Sim.explains h Sim.start

theorem Session.Trace.named {s : Session K V L} {tr : List (Req K V L × Ans K V L)}
    (h : Trace s tr) : ∃ tr', NamedTrace s tr' ∧ tr = tr'.map fun q => (q.1, q.2.1) := by
  induction h with
  | nil => exact ⟨[], .nil, rfl⟩
  | @call s ch c rest hch _ ih =>
    obtain ⟨tr', h1, h2⟩ := ih
    exact ⟨_, .call hch h1, by rw [h2]; rfl⟩

omit [LinearOrder K] [LinearOrder V] in
theorem ExplainsNames.forget {a : State K V L} {tr : List (Req K V L × Ans K V L × Nat)}
    (h : ExplainsNames a tr) : Explains a (tr.map fun q => (q.1, q.2.1)) := by
  induction h with
  | nil => exact .nil
  | step h1 h2 _ _ ih => exact .step h1 h2 ih
  | out h1 => exact .out h1

/-- C56 without the names. -/
theorem C56_api_partial {disk : Bool} {tr : List (Req K V L × Ans K V L)}
    (h : Trace { disk := disk } tr) : Explains {} tr := by
  obtain ⟨tr', h1, rfl⟩ := h.named
  exact (C56_names_partial h1).forget

omit [LinearOrder K] [LinearOrder V] in
/-- The simple store never panics, and has all that it gave out. -/
theorem C56_no_panic {s s' : State K V L} {c : Req K V L} {r : Ans K V L} (h : Step s c r s') :
    r ≠ .panicked ∧ r ≠ .invalid := by
  cases h <;> simp

/-! ### What the simple store tells a program: a base layer has what was written -/

/-- The edit of a call with values. -/
def editOf : Call (VTriple K V) → Edit K V
  | .add t => .addValue t
  | .remove t => .removeValue t

omit [LinearOrder K] [LinearOrder V] in
theorem editOf_means {i : Ids K V} {c c' : Call (VTriple K V)} :
    Edit.Means i (editOf c) c' ↔ c' = c := by
  cases c <;> cases c' <;> simp [editOf, Edit.Means]

section Inv

variable {s s' : State K V L} {r : Ans K V L}

omit [LinearOrder K] [LinearOrder V]

theorem Step.createBase_inv (h : Step s .createBase r s') : ∃ new, s.Fresh new ∧
    s' = { s with builders := s.builders ++ [⟨new, none, some []⟩] } := by
  cases h
  case createBase fr => exact ⟨_, fr, rfl⟩
  all_goals (rename_i hx; rcases hx with hx | hx <;> cases hx)

theorem Step.edit_inv {b : Nat} {e : Edit K V} (h : Step s (.edit b e) r s') {x : Builder K V}
    {cs : List (Call (VTriple K V))} (hb : s.builders[b]? = some x) (hx : x.calls = some cs) :
    ∃ c, Edit.Means (s.baseIds x.parent) e c ∧
      s' = s.setBuilder b { x with calls := some (cs ++ [c]) } := by
  cases h
  case edit g2 g1 g3 =>
    rw [hb] at g1; cases g1
    rw [hx] at g2; cases g2
    exact ⟨_, g3, rfl⟩
  case editCommitted g2 g1 => rw [hb] at g1; cases g1; rw [hx] at g2; cases g2
  all_goals (rename_i hx; rcases hx with hx | hx <;> cases hx)

theorem Step.commit_inv {b : Nat} (h : Step s (.commit b) r s') {x : Builder K V}
    {cs : List (Call (VTriple K V))} (hb : s.builders[b]? = some x) (hx : x.calls = some cs) :
    ∃ i : Ids K V, r = .layer s.handles.length ∧
      s' = ((s.add (.commit x.name x.parent cs) i).setBuilder b { x with calls := none }).hold x.name := by
  cases h
  case commit g2 g3 g1 =>
    rw [hb] at g1; cases g1
    rw [hx] at g2; cases g2
    exact ⟨_, rfl, rfl⟩
  case commitTwice g1 g2 hc =>
    rcases hc with hc | hc
    · cases hc
    · cases hc
      rw [hb] at g1; cases g1; rw [hx] at g2; cases g2
  all_goals (rename_i hx; rcases hx with hx | hx <;> cases hx)

theorem Step.query_inv {h : Nat} {q : Query K V} (hs : Step s (.query h q) r s') {n : Nat}
    (hn : s.handles[h]? = some n) :
    ∃ x, r = .answer x ∧ Right (s.log.triples n) (s.ids n) q x ∧ s' = s := by
  cases hs
  case query g1 g2 =>
    rw [hn] at g1; cases g1
    exact ⟨_, rfl, g2, rfl⟩
  all_goals (rename_i hx; rcases hx with hx | hx <;> cases hx)

end Inv

omit [LinearOrder K] [LinearOrder V] in
/-- A builder collects what it is told. -/
theorem Explains.edits {rest : List (Req K V L × Ans K V L)} {b : Nat} :
    ∀ {cs : List (Call (VTriple K V))} {rs : List (Ans K V L)} {a : State K V L} {x : Builder K V}
      {old : List (Call (VTriple K V))}, rs.length = cs.length →
      a.builders[b]? = some x → x.calls = some old →
      Explains a ((cs.map fun c => .edit b (editOf c)).zip rs ++ rest) →
      ∃ a' : State K V L, Explains a' rest ∧ a'.log = a.log ∧ a'.handles = a.handles ∧
        a'.builders[b]? = some { x with calls := some (old ++ cs) }
  | [], rs, a, x, old, _, hb, hx, h => ⟨a, h, rfl, rfl, by rw [List.append_nil, ← hx]; exact hb⟩
  | c :: cs, [], a, x, old, hl, _, _, _ => by simp at hl
  | c :: cs, r :: rs, a, x, old, hl, hb, hx, h => by
    simp only [List.map_cons, List.zip_cons_cons, List.cons_append] at h
    cases h with
    | out hc => exact absurd ⟨x, hb, fun _ => ⟨c, editOf_means.2 rfl⟩⟩ hc
    | step _ hs hr =>
      obtain ⟨c', g1, rfl⟩ := hs.edit_inv hb hx
      rw [editOf_means.1 g1] at hr
      obtain ⟨a', k1, k2, k3, k4⟩ := Explains.edits (b := b) (cs := cs)
        (x := { x with calls := some (old ++ [c]) }) (old := old ++ [c])
        (Nat.succ.inj hl) (by
          show (a.builders.set b _)[b]? = _
          rw [List.getElem?_set_self (List.getElem?_eq_some_iff.1 hb).1]) rfl hr
      refine ⟨a', k1, k2, k3, ?_⟩
      rw [k4, List.append_assoc]
      rfl

/-- A program makes a base layer with any changes, and asks for a triple: it is there if the
changes say so. -/
theorem C56_read_your_writes {cs : List (Call (VTriple K V))} {t : VTriple K V}
    {r0 rc rq : Ans K V L} {rs : List (Ans K V L)} (hl : rs.length = cs.length)
    (h : Trace ({} : Session K V L) ((.createBase, r0) ::
      ((cs.map fun c => .edit 0 (editOf c)).zip rs ++
        [(.commit 0, rc), (.query 0 (.has t), rq)]))) :
    ∃ b, rq = .answer (.flag b) ∧ (b = true ↔ after (fun _ => False) cs t) := by
  have h := C56_api_partial h
  cases h with
  | out hc => exact absurd trivial hc
  | step _ hs hr =>
    obtain ⟨n, _, rfl⟩ := hs.createBase_inv
    obtain ⟨a, k1, k2, k3, k4⟩ := Explains.edits (b := 0) (x := ⟨n, none, some []⟩) (old := [])
      hl rfl rfl hr
    rw [List.nil_append] at k4
    cases k1 with
    | out hc => exact absurd ⟨_, k4⟩ hc
    | step _ hs hr =>
      obtain ⟨i, _, rfl⟩ := hs.commit_inv k4 rfl
      have hh : (((a.add (.commit n none cs) i).setBuilder 0 ⟨n, none, none⟩).hold n).handles[0]? =
          some n := by
        show (a.handles ++ [n])[0]? = _
        rw [k3]; rfl
      cases hr with
      | out hc => exact absurd ⟨⟨n, hh⟩, by simp⟩ hc
      | step _ hs _ =>
        obtain ⟨x, rfl, hx, _⟩ := hs.query_inv hh
        cases x with
        | flag b => exact ⟨b, rfl, Iff.trans hx (commit_triples t)⟩
        | _ => exact hx.elim

/-! ### A program -/

/-- Names in order, and nothing vanishes or is put in order. -/
def plainChoice (new : Name) : Choice K V L where
  new := new
  nv := id
  pm := id
  calls := id
  labels := id
  keep := id
  keep2 := id

/-- Everything vanishes from the cache before each call, and orders are turned around. -/
def wildChoice (new : Name) : Choice K V L where
  new := new
  nv := List.reverse
  pm := List.reverse
  calls := List.reverse
  labels := List.reverse
  keep := fun _ => noCache
  keep2 := fun _ => noCache

omit [LinearOrder K] [LinearOrder V] [DecidableEq L] in
theorem plainChoice_possible {s : Session K V L} {new : Name} (h1 : s.store.get? new = none)
    (h2 : ∀ b ∈ s.builders, b.name ≠ new) (h3 : new ∉ s.lost) : (plainChoice new).Possible s :=
  ⟨⟨h1, h2⟩, fun _ => .refl _, fun _ => .refl _, fun _ => .refl _, fun _ => .refl _,
    fun _ _ _ h => h, fun _ _ _ h => h, h3⟩

omit [LinearOrder K] [LinearOrder V] [DecidableEq L] in
theorem wildChoice_possible {s : Session K V L} {new : Name} (h1 : s.store.get? new = none)
    (h2 : ∀ b ∈ s.builders, b.name ≠ new) (h3 : new ∉ s.lost) : (wildChoice new).Possible s :=
  ⟨⟨h1, h2⟩, List.reverse_perm, List.reverse_perm, List.reverse_perm, List.reverse_perm,
    fun _ _ _ h => (by cases h), fun _ _ _ h => (by cases h), h3⟩

/-- Make calls, with the names in order. -/
def play (f : Name → Choice K V L) : Name → Session K V L → List (Req K V L) →
    List (Req K V L × Ans K V L)
  | _, _, [] => []
  | n, s, c :: cs => (c, (s.call (f n) c).1) :: play f (n + 1) (s.call (f n) c).2 cs

/-- The names are all new. -/
def playable (f : Name → Choice K V L) : Name → Session K V L → List (Req K V L) → Bool
  | _, _, [] => true
  | n, s, c :: cs =>
    (s.store.get? n).isNone && s.builders.all (fun b => b.name != n) && s.lost.all (· != n) &&
      playable f (n + 1) (s.call (f n) c).2 cs

theorem play_trace {f : Name → Choice K V L}
    (hf : ∀ s n, s.store.get? n = none → (∀ b ∈ s.builders, b.name ≠ n) → n ∉ s.lost →
      (f n).Possible s) :
    ∀ {cs : List (Req K V L)} {n : Name} {s : Session K V L}, playable f n s cs = true →
      Trace s (play f n s cs)
  | [], _, _, _ => .nil
  | c :: cs, n, s, h => by
    simp only [playable, Bool.and_eq_true, List.all_eq_true, bne_iff_ne, ne_eq,
      Option.isNone_iff_eq_none] at h
    exact .call (hf s n h.1.1.1 h.1.1.2 (fun hn => h.1.2 _ hn rfl)) (play_trace hf h.2)

/-- A graph with three layers on top of each other, rolled up, squashed and merged. -/
def program : List (Req Nat Nat Nat) :=
  [.createGraph 7, .createBase, .edit 0 (.addValue ⟨1, 2, .node 3⟩), .edit 0 (.addValue ⟨1, 2, .value 4⟩),
   .commit 0, .setHead 7 0, .openWrite 0, .edit 1 (.removeValue ⟨1, 2, .node 3⟩),
   .edit 1 (.addValue ⟨3, 2, .node 5⟩), .edit 1 (.removeId ⟨1, 1, 3⟩), .commit 1, .setHead 7 1, .openWrite 1,
   .edit 2 (.addValue ⟨5, 6, .node 1⟩), .commit 2, .rollupUpto 2 0, .head 7, .getLayer 12,
   .query 4 .triples, .rollup 1, .squash 2, .additions 2 .all, .stackNames 2, .query 5 (.has ⟨3, 2, .node 5⟩),
   .createBase, .applyDiff 3 2, .commit 3, .merge [1, 24], .getLayer 27, .query 7 .tripleCount,
   .setHead 7 0, .commit 0, .additions 2 (.withO 1), .removals 1 (.withO 2), .builderParent 1,
   .query 8 .allCounts]

/-- The answers it gets. -/
def programAnswers : List (Ans Nat Nat Nat) :=
  [.done, .builder 0, .done, .done,
   .layer 0, .flag true, .builder 1, .done,
   .done, .done, .layer 1, .flag true, .builder 2,
   .done, .layer 2, .done, .head (some 3) 2, .layer 4,
   .answer (.list [⟨2, 1, 4⟩, ⟨4, 2, 1⟩]), .done, .layer 5, .answer (.list [⟨4, 2, 1⟩]),
   .names [1, 6, 12], .answer (.flag true),
   .builder 3, .done, .layer 6, .name 27, .layer 7, .answer (.number 4),
   .flag false, .failed, .answer (.list [⟨4, 2, 1⟩]), .answer (.list [⟨1, 1, 2⟩]), .layer 8,
   .answer (.counts 2 1 1)]

example : Trace {} (play plainChoice 0 {} program) ∧
    (play plainChoice 0 {} program).map Prod.snd = programAnswers :=
  ⟨play_trace (fun _ _ => plainChoice_possible) (by decide +kernel), by decide +kernel⟩

example : Trace {} (play wildChoice 0 {} program) ∧
    (play wildChoice 0 {} program).map Prod.snd = programAnswers :=
  ⟨play_trace (fun _ _ => wildChoice_possible) (by decide +kernel), by decide +kernel⟩

example : ∃ tr, NamedTrace {} tr ∧
    (tr.map fun q => (q.1, q.2.1)) = play plainChoice 0 {} program := by
  have h : Trace {} (play plainChoice 0 {} program) :=
    play_trace (fun _ _ => plainChoice_possible) (by decide +kernel)
  obtain ⟨tr, h1, h2⟩ := h.named
  exact ⟨tr, h1, h2.symm⟩

/-- With the names, the specification does not allow to answer anything when a layer is asked for
that was not made, by claiming that the name was used up. -/
example : ¬ ExplainsNames ({} : State Nat Nat Nat)
    [(.createBase, .builder 0, 3), (.getLayer 7, .panicked, 4)] := by
  intro h
  cases h with
  | out h => exact h trivial
  | step _ h1 h2 h3 =>
    have h7 := h2 7 ⟨by simp [History.known], by simp, by simp, by simp⟩ (by decide)
    cases h3 with
    | out h => exact h ⟨h7.2.1, fun b hb e => absurd e (h7.2.2.1 b hb), h7.2.2.2⟩
    | step _ h4 => exact (C56_no_panic h4).1 rfl


/-- Outside of the contract: ids that stand for nothing are taken, and the commit panics. -/
theorem C56_unknown_ids_fail : ∃ tr : List (Req Nat Nat Nat × Ans Nat Nat Nat), Trace {} tr ∧
    tr.getLast? = some (.commit 1, .panicked) ∧ ∃ u, (.edit 1 (.addId u), .done) ∈ tr :=
  ⟨play plainChoice 0 {} [.createBase, .edit 0 (.addValue ⟨1, 2, .node 3⟩), .commit 0, .openWrite 0,
      .edit 1 (.addId ⟨1, 1, 3⟩), .commit 1],
    play_trace (fun _ _ => plainChoice_possible) (by decide +kernel), 
    by decide +kernel, ⟨1, 1, 3⟩, by decide +kernel⟩

/-- Outside of the contract: a difference is applied to a builder that was committed, which
panics. -/
theorem C56_apply_diff_fails : ∃ tr : List (Req Nat Nat Nat × Ans Nat Nat Nat), Trace {} tr ∧
    tr.getLast? = some (.applyDiff 0 0, .panicked) ∧ (.commit 0, .layer 0) ∈ tr :=
  ⟨play plainChoice 0 {} [.createBase, .edit 0 (.addValue ⟨1, 2, .node 3⟩), .commit 0, .applyDiff 0 0],
    play_trace (fun _ _ => plainChoice_possible) (by decide +kernel), by decide +kernel,
    by decide +kernel⟩

/-- The hypothesis of `C56_read_your_writes`. -/
example : ∃ r0 rc rq rs, rs.length = 2 ∧ Trace ({} : Session Nat Nat Nat) ((.createBase, r0) ::
      (([Call.add ⟨1, 2, .node 3⟩, Call.add ⟨1, 2, .value 4⟩].map fun c => .edit 0 (editOf c)).zip rs ++
        [(.commit 0, rc), (.query 0 (.has ⟨1, 2, .value 4⟩), rq)])) ∧ rq = .answer (.flag true) :=
  ⟨.builder 0, .layer 0, .answer (.flag true), [.done, .done], rfl,
    play_trace (f := plainChoice) (n := 0) (s := {}) (cs := [.createBase,
      .edit 0 (.addValue ⟨1, 2, .node 3⟩), .edit 0 (.addValue ⟨1, 2, .value 4⟩), .commit 0,
      .query 0 (.has ⟨1, 2, .value 4⟩)]) (fun _ _ => plainChoice_possible) (by decide +kernel), rfl⟩

end Verif.Api
