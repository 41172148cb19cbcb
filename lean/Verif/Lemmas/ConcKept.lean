import Verif.Lemmas.ConcGrow
import Mathlib.Data.List.Nodup

/-!
What follows from the specification of calls at the same time (`Verif/ConcSpec.lean`) alone.
-/

set_option linter.unusedSectionVars false

namespace Verif.Conc

open Spec Api

variable {K V L : Type} [DecidableEq L]

/-- What is true of all states of the simple store. -/
structure Wf (s : State K V L) : Prop where
  names : (s.builders.map (·.name)).Nodup
  unborn : ∀ y ∈ s.builders, y.calls ≠ none → ¬ s.log.known y.name ∧ y.name ∉ s.hidden
  handles : ∀ n ∈ s.handles, s.log.known n
  heads : ∀ l n v, s.graphs l = some (some n, v) → s.log.known n
  parents : ∀ n p, s.log.parent n = some p → s.log.known p
  on : ∀ y ∈ s.builders, ∀ p, y.parent = some p → s.log.known p

namespace Wf

variable {s : State K V L}

theorem start : Wf ({} : State K V L) :=
  { names := List.nodup_nil
    unborn := by intro y hy; cases hy
    handles := by intro y hy; cases hy
    heads := by intro l n v h; cases h
    parents := by intro n p h; cases h
    on := by intro y hy; cases hy }

theorem handle (h : Wf s) {i n : Nat} (hi : s.handles[i]? = some n) : s.log.known n :=
  h.handles n (List.mem_of_getElem? hi)

theorem handed (h : Wf s) {ns : List Nat} (hn : ∀ n ∈ ns, s.log.known n) :
    Wf { s with handles := ns } :=
  { names := h.names, unborn := h.unborn, handles := hn, heads := h.heads, parents := h.parents,
    on := h.on }

theorem hold (h : Wf s) {n : Nat} (hn : s.log.known n) : Wf (s.hold n) := by
  refine h.handed fun m hm => ?_
  rcases List.mem_append.1 hm with hm | hm
  · exact h.handles m hm
  · cases List.mem_singleton.1 hm; exact hn

theorem setGraph (h : Wf s) {l : L} {x : Option (Option Nat × Nat)}
    (hx : ∀ n v, x = some (some n, v) → s.log.known n) : Wf (s.setGraph l x) :=
  { names := h.names, unborn := h.unborn, handles := h.handles, parents := h.parents, on := h.on,
    heads := by
      intro k n v hk
      change (if k = l then x else s.graphs k) = _ at hk
      split at hk
      · exact hx n v hk
      · exact h.heads k n v hk }

theorem add (h : Wf s) {e : Spec.Event (VTriple K V)} {i : Ids K V}
    (hb : ∀ y ∈ s.builders, y.calls ≠ none → y.name ≠ e.new)
    (hp : ∀ p, e.parent = some p → s.log.known p) : Wf (s.add e i) :=
  { names := h.names
    unborn := by
      intro y hy hc
      obtain ⟨h1, h2⟩ := h.unborn y hy hc
      refine ⟨fun hk => ?_, h2⟩
      rcases History.known_cons.1 hk with hk | hk
      · exact hb y hy hc hk.symm
      · exact h1 hk
    handles := fun n hn => History.known_cons.2 (.inr (h.handles n hn))
    heads := fun l n v hl => History.known_cons.2 (.inr (h.heads l n v hl))
    parents := by
      intro n p hn
      refine History.known_cons.2 (.inr ?_)
      change (if n = e.new then e.parent else s.log.parent n) = some p at hn
      split at hn
      · exact hp p hn
      · exact h.parents n p hn
    on := fun y hy p hp => History.known_cons.2 (.inr (h.on y hy p hp)) }

theorem addFresh (h : Wf s) {e : Spec.Event (VTriple K V)} {i : Ids K V} (hf : s.Fresh e.new)
    (hp : ∀ p, e.parent = some p → s.log.known p) : Wf (s.add e i) :=
  h.add (fun y hy _ => hf.2.2.1 y hy) hp

theorem hidden (h : Wf s) {new : Nat} (hf : s.Fresh new) : Wf { s with hidden := new :: s.hidden } :=
  { names := h.names, handles := h.handles, heads := h.heads, parents := h.parents, on := h.on,
    unborn := by
      intro y hy hc
      obtain ⟨h1, h2⟩ := h.unborn y hy hc
      refine ⟨h1, fun hm => ?_⟩
      rcases List.mem_cons.1 hm with hm | hm
      · exact hf.2.2.1 y hy hm
      · exact h2 hm }

theorem rolled (h : Wf s) (f : Nat → Option (Option Nat)) : Wf { s with rolled := f } :=
  { names := h.names, unborn := h.unborn, handles := h.handles, heads := h.heads,
    parents := h.parents, on := h.on }

theorem newBuilder (h : Wf s) {new : Nat} (hf : s.Fresh new) {o : Option Nat}
    (ho : ∀ p, o = some p → s.log.known p) {cs : Option (List (Call (VTriple K V)))} :
    Wf { s with builders := s.builders ++ [⟨new, o, cs⟩] } :=
  { handles := h.handles, heads := h.heads, parents := h.parents
    names := by
      simp only [List.map_append, List.map_cons, List.map_nil]
      refine List.nodup_append.2 ⟨h.names, by simp, ?_⟩
      intro a ha b hb hab
      cases List.mem_singleton.1 hb
      obtain ⟨y, hy, rfl⟩ := List.mem_map.1 ha
      exact hf.2.2.1 y hy hab
    unborn := by
      intro y hy hc
      rcases List.mem_append.1 hy with hy | hy
      · exact h.unborn y hy hc
      · cases List.mem_singleton.1 hy
        exact ⟨hf.1, hf.2.1⟩
    on := by
      intro y hy
      rcases List.mem_append.1 hy with hy | hy
      · exact h.on y hy
      · cases List.mem_singleton.1 hy
        exact ho }

theorem setBuilder (h : Wf s) {b : Nat} {x x' : Builder K V} (hx : s.builders[b]? = some x)
    (hn : x'.name = x.name) (hp : x'.parent = x.parent) (hc : x.calls = none → x'.calls = none) :
    Wf (s.setBuilder b x') := by
  have hmem : ∀ y ∈ s.builders.set b x', y ∈ s.builders ∨ y = x' :=
    fun y hy => List.mem_or_eq_of_mem_set hy
  have hxm : x ∈ s.builders := List.mem_of_getElem? hx
  exact {
    handles := h.handles, heads := h.heads, parents := h.parents
    names := by
      show ((s.builders.set b x').map (·.name)).Nodup
      rw [List.map_set, hn]
      have : (s.builders.map (·.name)).set b x.name = s.builders.map (·.name) := by
        apply List.ext_getElem?
        intro j
        rw [List.getElem?_set]
        obtain ⟨hb, hx⟩ := List.getElem?_eq_some_iff.mp hx
        split
        · rename_i he
          subst he
          simp [hb, hx]
        · rfl
      rw [this]
      exact h.names
    unborn := by
      intro y hy hyc
      rcases hmem y hy with hy | rfl
      · exact h.unborn y hy hyc
      · rw [hn]; exact h.unborn x hxm (fun h => hyc (hc h))
    on := by
      intro y hy
      rcases hmem y hy with hy | rfl
      · exact h.on y hy
      · rw [hp]; exact h.on x hxm }

/-- The layer of a closed builder is made. -/
theorem write (h : Wf s) {b : Nat} {y : Builder K V} (hy : s.builders[b]? = some y)
    (hc : y.calls = none) {cs : List (Call (VTriple K V))} {i : Ids K V} :
    Wf (s.add (.commit y.name y.parent cs) i) := by
  have hym : y ∈ s.builders := List.mem_of_getElem? hy
  refine h.add ?_ (h.on y hym)
  intro z hz hzc hn
  have : z = y := List.inj_on_of_nodup_map h.names hz hym hn
  subst this
  exact hzc hc

theorem step (h : Wf s) {c : Req K V L} {r : Ans K V L} {s' : State K V L} (hs : Step s c r s') :
    Wf s' := by
  have commits : ∀ {b x cs i}, s.builders[b]? = some x → x.calls = some cs →
      Wf ((s.add (.commit x.name x.parent cs) i).setBuilder b { x with calls := none }) := by
    intro b x cs i hx hc
    have h1 := h.setBuilder (x' := { x with calls := none }) hx rfl rfl (fun _ => rfl)
    refine h1.write (b := b) (y := { x with calls := none }) ?_ rfl
    show (s.builders.set b _)[b]? = _
    rw [List.getElem?_set_self (List.getElem?_eq_some_iff.1 hx).1]
  have gone : ∀ n v, (none : Option (Option Nat × Nat)) = some (some n, v) → s.log.known n := by
    intro n v h; cases h
  have moved : ∀ {m k : Nat}, s.log.known m → ∀ n v, some (some m, k) = some (some n, v) →
      s.log.known n := by
    intro m k hm n v he; cases he; exact hm
  cases hs with
  | createGraph _ => exact h.setGraph (by intro n v he; cases he)
  | deleteGraph _ => exact h.setGraph gone
  | dropGraph => exact h.setGraph gone
  | head hg => exact h.hold (h.heads _ _ _ hg)
  | setHead _ hn _ => exact h.setGraph (moved (h.handle hn))
  | forceSetHead _ hn => exact h.setGraph (moved (h.handle hn))
  | forceSetHeadVersion _ hn => exact h.setGraph (moved (h.handle hn))
  | getLayer hn => exact h.hold hn
  | parent _ hp => exact h.hold (h.parents _ _ hp)
  | squash _ hf _ =>
    refine Wf.hold (h.addFresh ?_ ?_) (History.known_cons.2 (.inl rfl))
    · exact hf
    · intro p hp; cases hp
  | squashUpto _ hu _ hf _ =>
    refine Wf.hold (h.addFresh ?_ ?_) (History.known_cons.2 (.inl rfl))
    · exact hf
    · intro p hp; cases hp; exact h.handle hu
  | merge _ hf _ =>
    refine h.addFresh ?_ ?_
    · exact hf
    · intro p hp; cases hp
  | rollup _ _ _ hf => exact (h.hidden hf).rolled _
  | rollupUpto _ _ _ _ _ _ hf _ => exact (h.hidden hf).rolled _
  | createBase hf => exact h.newBuilder hf (by intro p hp; cases hp)
  | openWrite hn hf => exact h.newBuilder hf (by intro p hp; cases hp; exact h.handle hn)
  | builderParent hb hp => exact h.hold (h.on _ (List.mem_of_getElem? hb) _ hp)
  | edit hb hc _ => exact h.setBuilder hb rfl rfl (by rw [hc]; intro h; cases h)
  | commitNoLoad hb hc _ => exact commits hb hc
  | commit hb hc _ => exact (commits hb hc).hold (History.known_cons.2 (.inl rfl))
  | applyDelta hb hc _ _ => exact h.setBuilder hb rfl rfl (by rw [hc]; intro h; cases h)
  | applyDiff hb hc _ _ => exact h.setBuilder hb rfl rfl (by rw [hc]; intro h; cases h)
  | _ => exact h

end Wf

/-- What is true of all states of the simple store and its calls under way. -/
structure CWf (A : CState K V L) : Prop where
  now : Wf A.now
  closing : ∀ t b cs load, A.calls t = some (.closing b cs load) →
    ∃ y : Builder K V, A.now.builders[b]? = some y ∧ y.calls = none ∧ ¬ A.now.log.known y.name ∧
      y.name ∉ A.now.hidden
  apart : ∀ t u b cs load cs' load', A.calls t = some (.closing b cs load) →
    A.calls u = some (.closing b cs' load') → t = u
  held : ∀ t r held, A.calls t = some (.answered r held) → ∀ n ∈ held, A.now.log.known n

namespace CWf

variable {A A' : CState K V L}

theorem start : CWf ({} : CState K V L) :=
  { now := .start
    closing := by intro t b cs load h; cases h
    apart := by intro t u b cs load cs' load' h; cases h
    held := by intro t r held h; cases h }

/-- What a step leaves as it is. -/
theorem grew (h : CWf A) {t : Nat} {p p' : Pending K V L} {s' : State K V L}
    (ht : A.calls t = some p) (he : Effect A.past A.now p s' p') :
    Grew (fun b => ∃ cs load, p = .closing b cs load) A.now s' ∧ s'.handles = A.now.handles :=
  grew_effect he h.now.names h.now.unborn (by
    rintro b cs load x rfl hx
    obtain ⟨y, h1, _, h2, _⟩ := h.closing _ _ _ _ ht
    rw [h1] at hx
    cases hx
    exact h2)

theorem effect (h : CWf A) {t : Nat} {p p' : Pending K V L} {s' : State K V L}
    (ht : A.calls t = some p) (he : Effect A.past A.now p s' p') :
    Wf s' ∧ (∀ r held, p' = .answered r held → ∀ n ∈ held, s'.log.known n) ∧
    ∀ b cs load, p' = .closing b cs load → ∃ y z : Builder K V, s'.builders[b]? = some y ∧
      y.calls = none ∧ ¬ s'.log.known y.name ∧ y.name ∉ s'.hidden ∧
      A.now.builders[b]? = some z ∧ z.calls ≠ none := by
  have hw := h.now
  obtain ⟨hgr, hgh⟩ := h.grew ht he
  have none_held : ∀ {r : Ans K V L}, ∀ r' held', Pending.answered r [] = .answered r' held' →
      ∀ n ∈ held', s'.log.known n := by
    intro r r' held' e n hn
    cases e
    cases hn
  cases he with
  | @once _ _ _ s1 held hs hh =>
    have h1 := hw.step hs
    refine ⟨h1.handed fun n hn => hgr.known (hw.handles n hn), ?_, (by intro b cs load e; cases e)⟩
    intro r held' e n hn
    cases e
    exact h1.handles n (by rw [hh]; exact List.mem_append_right _ hn)
  | setHeadLate => exact ⟨hw, none_held, (by intro b cs load e; cases e)⟩
  | versionAgain => exact ⟨hw, none_held, (by intro b cs load e; cases e)⟩
  | setHeadAgain hn _ _ _ _ =>
    refine ⟨hw.setGraph ?_, none_held, (by intro b cs load e; cases e)⟩
    intro m v e
    cases e
    exact hw.handle hn
  | @close b x cs load _ _ _ hb hx =>
    refine ⟨hw.setBuilder hb rfl rfl (fun _ => rfl), (by intro r held e; cases e), ?_⟩
    intro b' cs' load' e
    cases e
    obtain ⟨g1, g2⟩ := hw.unborn x (List.mem_of_getElem? hb) (by rw [hx]; simp)
    refine ⟨{ x with calls := none }, x, ?_, rfl, g1, g2, hb, by rw [hx]; simp⟩
    show (A.now.builders.set b _)[b]? = _
    rw [List.getElem?_set_self (List.getElem?_eq_some_iff.1 hb).1]
  | @write b x cs load i r held hb hi hr =>
    obtain ⟨y, g1, g2, g3, g4⟩ := h.closing _ _ _ _ ht
    rw [hb] at g1
    cases g1
    refine ⟨hw.write hb g2, ?_, (by intro b cs load e; cases e)⟩
    intro r' held' e n hn
    cases e
    rcases hr with ⟨_, _, rfl⟩ | ⟨_, _, rfl⟩
    · cases hn
    · cases List.mem_singleton.1 hn
      exact History.known_cons.2 (.inl rfl)
  | hide _ _ _ hf => exact ⟨hw.hidden hf, (by intro r held e; cases e), (by intro b cs load e; cases e)⟩
  | settle => exact ⟨hw.rolled _, none_held, (by intro b cs load e; cases e)⟩
  | again => exact ⟨hw.rolled _, none_held, (by intro b cs load e; cases e)⟩
  | readDelta => exact ⟨hw, (by intro r held e; cases e), (by intro b cs load e; cases e)⟩
  | readDiff => exact ⟨hw, (by intro r held e; cases e), (by intro b cs load e; cases e)⟩
  | apply hb hx =>
    exact ⟨hw.setBuilder hb rfl rfl (by rw [hx]; intro h; cases h), (by intro r held e; cases e),
      (by intro b cs load e; cases e)⟩
  | applySkip => exact ⟨hw, (by intro r held e; cases e), (by intro b cs load e; cases e)⟩
  | applied => exact ⟨hw, none_held, (by intro b cs load e; cases e)⟩

theorem goes (h : CWf A) {e : Event K V L} (hg : Goes A e A') : CWf A' := by
  cases hg with
  | @inv t c ht =>
    exact {
      now := h.now
      closing := by
        intro u b cs load hu
        change (if u = t then _ else _) = _ at hu
        split at hu
        · cases hu
        · exact h.closing u b cs load hu
      apart := by
        intro u v b cs load cs' load' hu hv
        change (if u = t then _ else _) = _ at hu
        change (if v = t then _ else _) = _ at hv
        split at hu
        · cases hu
        · split at hv
          · cases hv
          · exact h.apart u v b cs load cs' load' hu hv
      held := by
        intro u r held hu
        change (if u = t then _ else _) = _ at hu
        split at hu
        · cases hu
        · exact h.held u r held hu }
  | skip => exact h
  | @act t new p s' p' ht _ he _ =>
    obtain ⟨hgr, _⟩ := h.grew ht he
    obtain ⟨h1, h2, h3⟩ := h.effect ht he
    have key : ∀ u b cs load cs' load', u ≠ t → A.calls u = some (.closing b cs load) →
        p' = .closing b cs' load' → False := by
      rintro u b cs load cs' load' hu g1 g2
      obtain ⟨y, g3, g4, _⟩ := h.closing u b cs load g1
      obtain ⟨y', z, _, _, _, _, g5, g6⟩ := h3 b cs' load' g2
      rw [g3] at g5
      cases g5
      exact g6 g4
    exact {
      now := h1
      closing := by
        intro u b cs load hu
        change (if u = t then _ else _) = _ at hu
        split at hu
        · obtain ⟨y, z, k1, k2, k3, k4, _⟩ := h3 b cs load (Option.some.inj hu)
          exact ⟨y, k1, k2, k3, k4⟩
        · rename_i hut
          obtain ⟨y, g1, g2, g3, g4⟩ := h.closing u b cs load hu
          obtain ⟨y', k1, k2, _, k4⟩ := hgr.builders b y g1
          obtain ⟨k5, k6⟩ := hgr.unborn b y (by
            rintro ⟨cs', load', rfl⟩
            exact hut (h.apart u t b cs load cs' load' hu ht)) g1 g2 g3 g4
          exact ⟨y', k1, k4 g2, by rw [k2]; exact k5, by rw [k2]; exact k6⟩
      apart := by
        intro u v b cs load cs' load' hu hv
        change (if u = t then _ else _) = _ at hu
        change (if v = t then _ else _) = _ at hv
        split at hu
        · rename_i hut
          split at hv
          · rename_i hvt; rw [hut, hvt]
          · rename_i hvt
            exact (key v b cs' load' cs load hvt hv (Option.some.inj hu)).elim
        · rename_i hut
          split at hv
          · exact (key u b cs load cs' load' hut hu (Option.some.inj hv)).elim
          · exact h.apart u v b cs load cs' load' hu hv
      held := by
        intro u r held hu
        change (if u = t then _ else _) = _ at hu
        split at hu
        · exact h2 r held (Option.some.inj hu)
        · exact fun n hn => hgr.known (h.held u r held hu n hn) }
  | @ret t r held ht =>
    exact {
      now := h.now.handed fun n hn => by
        rcases List.mem_append.1 hn with hn | hn
        · exact h.now.handles n hn
        · exact h.held t r held ht n hn
      closing := by
        intro u b cs load hu
        change (if u = t then _ else _) = _ at hu
        split at hu
        · cases hu
        · exact h.closing u b cs load hu
      apart := by
        intro u v b cs load cs' load' hu hv
        change (if u = t then _ else _) = _ at hu
        change (if v = t then _ else _) = _ at hv
        split at hu
        · cases hu
        · split at hv
          · cases hv
          · exact h.apart u v b cs load cs' load' hu hv
      held := by
        intro u r held hu
        change (if u = t then _ else _) = _ at hu
        split at hu
        · cases hu
        · exact h.held u r held hu }

end CWf

/-! ### Answers that stay right -/

section

variable {exc : Nat → Prop} {s s' : State K V L}

theorem Grew.below (h : Grew exc s s') {o : Option Nat} (ho : ∀ p, o = some p → s.log.known p) :
    s'.log.below o = s.log.below o := by
  cases o with
  | none => rfl
  | some p => exact h.triples (ho p rfl)

theorem Grew.line (h : Grew exc s s') (hw : Wf s) {n : Nat} {ns : List Nat} (hl : s.log.Line n ns) :
    s.log.known n → s'.log.Line n ns := by
  induction hl with
  | root hp => intro hn; exact .root (by rw [h.parent hn]; exact hp)
  | step hp _ ih =>
    intro hn
    exact .step (by rw [h.parent hn]; exact hp) (ih (hw.parents _ _ hp))

/-- The answer to a question about a layer stays right. -/
theorem lasts (h : Grew exc s s') (hw : Wf s) {c : Req K V L} {r : Ans K V L} (hl : lasting c)
    {s1 : State K V L} (hs : Step s c r s1) : Step s' c r s' := by
  have hbelow : ∀ n, s.log.known n →
      s'.log.below (s'.log.parent n) = s.log.below (s.log.parent n) := by
    intro n hn
    rw [h.parent hn]
    exact h.below (hw.parents n)
  have hadded : ∀ n, s.log.known n → s'.log.addedBy n = s.log.addedBy n := by
    intro n hn
    funext t
    simp only [History.addedBy, h.triples hn, hbelow n hn]
  have hremoved : ∀ n, s.log.known n → s'.log.removedBy n = s.log.removedBy n := by
    intro n hn
    funext t
    simp only [History.removedBy, h.triples hn, hbelow n hn]
  cases hs with
  | layerName hn => exact .layerName (h.handle hn)
  | parentName hn =>
    rw [← h.parent (hw.handle hn)]
    exact .parentName (h.handle hn)
  | stackNames hn hline =>
    exact .stackNames (h.handle hn) (h.line hw hline (hw.handle hn))
  | query hn hr =>
    refine .query (h.handle hn) ?_
    rw [h.triples (hw.handle hn), h.ids _ (hw.handle hn)]
    exact hr
  | additions hn hr =>
    refine .additions (h.handle hn) ?_
    rw [hadded _ (hw.handle hn), h.ids _ (hw.handle hn)]
    exact hr
  | removals hn hr =>
    refine .removals (h.handle hn) ?_
    rw [hremoved _ (hw.handle hn), h.ids _ (hw.handle hn)]
    exact hr
  | builderName hb =>
    obtain ⟨y, h1, h2, _⟩ := h.builders _ _ hb
    rw [← h2]
    exact .builderName h1
  | rollupUptoNothing _ _ _ hc => rcases hc with rfl | rfl <;> cases hl
  | rollupUptoWrong _ _ _ _ _ hc => rcases hc with rfl | rfl <;> cases hl
  | rollupUpto _ _ _ _ _ _ _ hc => rcases hc with rfl | rfl <;> cases hl
  | commitTwice _ _ hc => rcases hc with rfl | rfl <;> cases hl
  | _ => cases hl

end

theorem lasting_same {s s' : State K V L} {c : Req K V L} {r : Ans K V L} (hl : lasting c)
    (hs : Step s c r s') : s' = s := by
  cases hs with
  | rollupUpto _ _ _ _ _ _ _ hc => rcases hc with rfl | rfl <;> cases hl
  | _ => first | rfl | cases hl

theorem lasting_number {s s' : State K V L} {c : Req K V L} {r : Ans K V L} (hl : lasting c)
    (hs : Step s c r s') (n : Nat) : CState.numbered n r = r := by
  cases hs <;> first | rfl | cases hl

/-- The layers after anything that may happen. -/
theorem CWf.grewGoes {A A' : CState K V L} (h : CWf A) {e : Event K V L} (hg : Goes A e A') :
    ∃ exc, Grew exc A.now A'.now := by
  cases hg with
  | inv => exact ⟨fun _ => False, .refl⟩
  | skip => exact ⟨fun _ => False, .refl⟩
  | act ht _ he _ => exact ⟨_, (h.grew ht he).1⟩
  | ret => exact ⟨fun _ => False, Grew.refl.handed (List.prefix_append ..)⟩

theorem lasts_kept {A B : CState K V L} {evs : List (Event K V L)} (hk : Kept A evs B) :
    ∀ {c : Req K V L} {r : Ans K V L}, CWf A → lasting c → Step A.now c r A.now →
      Step B.now c r B.now := by
  induction hk with
  | nil => intro c r _ _ h; exact h
  | cons hg _ ih =>
    intro c r hw hl hs
    obtain ⟨exc, h⟩ := hw.grewGoes hg
    exact ih (hw.goes hg) hl (lasts h hw.now hl hs)

/-- How the calls under way are related to the calls that began. -/
def Tied (now : State K V L) (cur : Option (Req K V L)) : Option (Pending K V L) → Prop
  | none => True
  | some (.asked c _) => cur = some c
  | some (.answered r _) => ∀ c, cur = some c → lasting c → Step now c r now
  | some _ => ∀ c, cur = some c → ¬ lasting c

theorem Tied.effect {past : List (State K V L)} {s s' : State K V L} {p p' : Pending K V L}
    {cur : Option (Req K V L)} (h : Tied s cur (some p)) (he : Effect past s p s' p') :
    Tied s' cur (some p') := by
  have not : ∀ c', ¬ lasting c' → cur = some c' → ∀ c, cur = some c → ¬ lasting c := by
    intro c' h1 h2 c h3
    rw [h2] at h3
    cases h3
    exact h1
  have no : ∀ {q : Pending K V L}, (∀ c, cur = some c → ¬ lasting c) →
      (∀ c k, q ≠ .asked c k) → Tied s' cur (some q) := by
    intro q h1 h2
    cases q with
    | asked c k => exact (h2 c k rfl).elim
    | answered r held => exact fun c hc hl => (h1 c hc hl).elim
    | _ => exact h1
  have rolls : ∀ {c n upto}, Rolls s c n upto → ¬ lasting c := by
    intro c n upto hr hl
    cases hr with
    | all => cases hl
    | upto _ _ hc => rcases hc with rfl | rfl <;> cases hl
  cases he with
  | @once c k r s1 held hs hh =>
    intro c' hc' hl
    rw [show cur = some c from h] at hc'
    cases hc'
    have := lasting_same hl hs
    subst this
    exact hs
  | setHeadLate => exact no (not _ id h) (by intro c k e; cases e)
  | versionAgain => exact no (not _ id h) (by intro c k e; cases e)
  | setHeadAgain => exact no (not _ id h) (by intro c k e; cases e)
  | close hc =>
    refine no (not _ ?_ h) (by intro c k e; cases e)
    intro hl
    rcases hc with ⟨rfl, _⟩ | ⟨rfl, _⟩ <;> cases hl
  | write => exact no h (by intro c k e; cases e)
  | hide hr => exact no (not _ (rolls hr) h) (by intro c k e; cases e)
  | settle => exact no h (by intro c k e; cases e)
  | again hr => exact no (not _ (rolls hr) h) (by intro c k e; cases e)
  | readDelta => exact no (not _ id h) (by intro c k e; cases e)
  | readDiff => exact no (not _ id h) (by intro c k e; cases e)
  | apply => exact no h (by intro c k e; cases e)
  | applySkip => exact no h (by intro c k e; cases e)
  | applied => exact no h (by intro c k e; cases e)

theorem Tied.grew {exc : Nat → Prop} {s s' : State K V L} {cur : Option (Req K V L)}
    {p : Option (Pending K V L)} (h : Tied s cur p) (hw : Wf s) (hg : Grew exc s s') :
    Tied s' cur p := by
  cases p with
  | none => trivial
  | some p =>
    cases p with
    | answered r held => exact fun c hc hl => lasts hg hw hl (h c hc hl)
    | _ => exact h

/-- All questions about layers that were answered are answered rightly for the last state. -/
theorem pairs_kept {A B : CState K V L} {evs : List (Event K V L)} (hk : Kept A evs B) :
    ∀ {cur : Nat → Option (Req K V L)}, CWf A → (∀ t, Tied A.now (cur t) (A.calls t)) →
      ∀ c r, (c, r) ∈ pairs cur evs → lasting c → Step B.now c r B.now := by
  induction hk with
  | nil => intro cur _ _ c r hm; cases hm
  | @cons A e A' rest B hg hk ih =>
    intro cur hw ht c r hm hl
    have hw' := hw.goes hg
    cases hg with
    | @inv t c0 h0 =>
      refine ih (cur := fun u => if u = t then some c0 else cur u) hw' ?_ c r hm hl
      intro u
      by_cases hu : u = t
      · subst hu
        simp only [if_true]
        rfl
      · simp only [if_neg hu]
        exact ht u
    | skip => exact ih hw' ht c r hm hl
    | @act t new p s' p' hp _ he _ =>
      refine ih (cur := cur) hw' ?_ c r hm hl
      intro u
      by_cases hu : u = t
      · subst hu
        simp only [if_true]
        have := ht u
        rw [hp] at this
        exact this.effect he
      · simp only [if_neg hu]
        exact (ht u).grew hw.now (hw.grew hp he).1
    | @ret t r0 held hp =>
      have hg : Grew (fun _ => False) A.now { A.now with handles := A.now.handles ++ held } :=
        Grew.refl.handed (List.prefix_append ..)
      have htt := ht t
      rw [hp] at htt
      rcases List.mem_append.1 hm with hm | hm
      · obtain ⟨c1, hc1, he⟩ := List.mem_map.1 hm
        have hc1 : cur t = some c1 := by simpa using hc1
        cases he
        have hs := htt c hc1 hl
        have hs' := lasts hg hw.now hl hs
        rw [lasting_number hl hs]
        exact lasts_kept hk hw' hl hs'
      · refine ih (cur := cur) hw' ?_ c r hm hl
        intro u
        by_cases hu : u = t
        · simp only [if_pos hu]; trivial
        · simp only [if_neg hu]
          exact (ht u).grew hw.now hg

end Verif.Conc
