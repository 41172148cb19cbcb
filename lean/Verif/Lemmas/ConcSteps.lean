import Verif.Lemmas.ConcSim
import Verif.Lemmas.ApiLayers
import Verif.Lemmas.ApiNames
import Verif.Lemmas.ApiRollup
import Verif.Lemmas.ApiGraphs

/-!
One step of a call among many is as specified (`Verif.Conc.Effect`), or has no effect.
-/

set_option linter.unusedSectionVars false

namespace Verif.Conc

open Spec SimpleBuilder Store Api

variable {K V L : Type} [LinearOrder K] [LinearOrder V] [DecidableEq L]
  {M : Shop K V L} {A : CState K V L} {w : World K V} {t : Nat}

/-- A call has come this far. -/
def upd (calls : Nat → Option (Conc.Pending K V L)) (t : Nat) (p : Conc.Pending K V L) :
    Nat → Option (Conc.Pending K V L) := fun u => if u = t then some p else calls u

theorem upd_self {calls : Nat → Option (Conc.Pending K V L)} {p : Conc.Pending K V L} :
    upd calls t p t = some p := if_pos rfl

theorem upd_ne {calls : Nat → Option (Conc.Pending K V L)} {p : Conc.Pending K V L} {u : Nat}
    (h : u ≠ t) : upd calls t p u = calls u := if_neg h

/-- What a step of the call `t` is in the specification. -/
inductive Moves (M : Shop K V L) (A : CState K V L) (t : Nat) (w : World K V)
    (p : Conc.Pending K V L) (r : Stage K V L × Session K V L × List (InternalLayer K V)) : Prop
  | quiet {w' : World K V} : World.Later true w w' → Sim r.2.1 w' A.now →
      (∀ l ∈ r.2.2, l ∈ w'.loaded) → At w' M.seen A.past A.now r.1 p → Moves M A t w p r
  | effect {w' : World K V} {a' : State K V L} {p' : Conc.Pending K V L} : World.Later true w w' →
      Effect A.past A.now p a' p' → Sim r.2.1 w' a' →
      (∀ l ∈ r.2.2, l ∈ w'.loaded) → At w' M.seen (A.now :: A.past) a' r.1 p' → Moves M A t w p r

theorem noLayers {w : World K V} : ∀ l ∈ ([] : List (InternalLayer K V)), l ∈ w.loaded := by
  intro l hl; cases hl

/-- A call that takes effect at once. -/
theorem Moves.once {c : Req K V L} {k : Nat} (_ : A.calls t = some (.asked c k))
    {w' : World K V} (hl : World.Later true w w') {r : Ans K V L} {a' : State K V L}
    (hst : Api.Step A.now c r a') {held : List Nat} (hh : a'.handles = A.now.handles ++ held)
    {s' : Session K V L} (hs : Sim s' w' { a' with handles := A.now.handles })
    {st : Stage K V L}
    (hat : At w' M.seen (A.now :: A.past) { a' with handles := A.now.handles } st (.answered r held)) :
    Moves M A t w (.asked c k) (st, s', []) :=
  .effect hl (.once hst hh)
    hs noLayers hat

/-- A call that changes nothing and returns no layer. -/
theorem Moves.says (h : CSim M A w) {c : Req K V L} {k : Nat} (ht : A.calls t = some (.asked c k))
    {r : Ans K V L} (hst : Api.Step A.now c r A.now) :
    Moves M A t w (.asked c k) (.done r [], M.session, []) :=
  .once ht .now hst (List.append_nil _).symm h.sim (.done .refl .nil)

/-- A call that changes nothing and returns a layer. -/
theorem Moves.gives {c : Req K V L} {k : Nat} (ht : A.calls t = some (.asked c k))
    {w' : World K V} (hl : World.Later true w w') {r : Ans K V L} {n : Nat}
    (hst : Api.Step A.now c r (A.now.hold n)) {s' : Session K V L}
    (hs : Sim s' w' A.now) {st : Stage K V L}
    (hat : At w' M.seen (A.now :: A.past) A.now st (.answered r [n])) :
    Moves M A t w (.asked c k) (st, s', []) :=
  .once ht hl hst rfl hs hat

/-- A call that is one step. -/
theorem Moves.single (h : CSim M A w) {c : Req K V L} {k : Nat} (ht : A.calls t = some (.asked c k))
    {R : Ans K V L × Session K V L} (hx : SimulatesAt w A.now c R) :
    Moves M A t w (.asked c k) ((Conc.single M.session R).1, (Conc.single M.session R).2, []) := by
  obtain ⟨a', hst, hs⟩ := hx
  obtain ⟨held, hh⟩ := step_handles hst
  have hg : Grew (fun _ => False) A.now a' := grew_step hst h.sim.distinct h.sim.unborn
  refine .once ht .now hst hh (s' := (Conc.single M.session R).2)
    { store := hs.store
      cache := hs.cache
      layers := hs.layers
      handles := forall₂_mono (fun _ _ hx => ⟨hg.known hx.1, hx.2⟩) h.sim.handles
      builders := hs.builders
      unborn := hs.unborn
      distinct := hs.distinct
      labels := hs.labels
      keys := hs.keys
      heads := hs.heads
      lost := hs.lost } (.done .refl ?_)
  have h1 := hs.handles
  rw [hh] at h1
  have h2 := List.forall₂_drop M.session.layers.length h1
  rw [h.sim.handlesLength, List.drop_left] at h2
  rw [h.sim.handlesLength]
  exact h2

/-- The first look of a load of a layer that is there. -/
theorem look_at (h : CSim M A w) {n : Nat} (hn : A.now.log.known n) (g : Goal K V L)
    (missing : Ans K V L) :
    ∃ w', World.Later true w w' ∧ Sim M.session w' A.now ∧
      ∀ past p, Wants A.now n g p → At w' M.seen past A.now (look M g n missing) p := by
  cases hc : M.session.cache n with
  | some l =>
    have hstep := World.Run.loadsCached (w := w) (n := n) (l := l) (by rw [h.sim.cache]; exact hc)
    refine ⟨_, .step .now hstep,
      h.sim.passes (.step h.sim.layers.run hstep) rfl rfl (fun q hq => List.mem_cons_of_mem _ hq) rfl, ?_⟩
    intro past p hw
    unfold look
    rw [hc]
    cases hw with
    | answer h1 h2 => exact .done h2 (.cons ⟨h1, List.mem_cons_self ..⟩ .nil)
    | use h1 h2 => exact .holds h1 h2 (List.mem_cons_self ..)
  | none =>
    refine ⟨w, .now, h.sim, ?_⟩
    intro past p hw
    have hhas : M.session.store.has n = true := by rw [← h.sim.store]; exact h.sim.layers.has hn
    unfold look
    rw [hc]
    dsimp only
    rw [if_pos hhas]
    obtain ⟨rest, hr⟩ := h.top
    exact .search (pre := []) (post := rest) (v := ⟨M.session.store, M.session.cache⟩) hw hr
      (by rw [hr, List.length_cons]) hhas

theorem look_absent (h : CSim M A w) {n : Nat} (hn : ¬ A.now.log.known n) (hh : n ∉ A.now.hidden)
    (g : Goal K V L) (missing : Ans K V L) : look M g n missing = .done missing [] := by
  have hx : ¬ w.store.has n = true := by
    rw [h.sim.layers.run.inv.log.known, h.sim.layers.known, not_or]; exact ⟨hn, hh⟩
  have hc : M.session.cache n = none := by
    cases hc : M.session.cache n with
    | none => rfl
    | some l =>
      obtain ⟨h1, h2⟩ := h.sim.layers.run.inv.cache n l (by rw [h.sim.cache]; exact hc)
      exact absurd (h2 ▸ h1.has h.sim.layers.run.inv.ok) hx
  unfold look
  rw [hc]
  dsimp only
  rw [if_neg (by rw [← h.sim.store]; exact hx)]

/-- A label is read. -/
theorem reading_none {s : Session K V L} {l : L} {k : LabelData Name → Stage K V L}
    (hg : s.labels.get? l = none) : reading s l k = .done .failed [] := by
  simp only [reading, labelCall_get, hg]

theorem reading_some {s : Session K V L} {l : L} {k : LabelData Name → Stage K V L}
    {d : LabelData Name} (hg : s.labels.get? l = some d) : reading s l k = k d := by
  simp only [reading, labelCall_get, hg]

theorem withLayer_some {s : Session K V L} {h : Nat} {k : InternalLayer K V → Stage K V L}
    {l : InternalLayer K V} (hl : s.layers[h]? = some l) : withLayer s h k = k l := by
  simp only [withLayer, hl]

/-- A layer in hand. -/
theorem CSim.handle (h : CSim M A w) {i n : Nat} (hi : A.now.handles[i]? = some n) :
    ∃ l, M.session.layers[i]? = some l ∧ A.now.log.known n ∧ (n, l) ∈ w.held ∧ l.name = n ∧
      l.parentName = A.now.log.parent n := by
  obtain ⟨l, h1, h2, h3⟩ := h.sim.handle hi
  exact ⟨l, h1, h2, h3, h.sim.layers.named h2 h3⟩

theorem tracks_now {past : List (State K V L)} {a : State K V L} {k : Nat} {l : L}
    {d : LabelData Name} (hg : a.graphs l = some (d.layer, d.version)) : Tracks past a k l d :=
  ⟨⟨a, since_self, hg⟩, Or.inr ⟨_, _, hg, Nat.le_refl _, fun _ => rfl⟩⟩

variable {ch : Choice K V L} {k : Nat}

theorem begins_head (h : CSim M A w) {l : L} (ht : A.calls t = some (.asked (.head l) k)) :
    Moves M A t w (.asked (.head l) k) ((begins M ch (.head l)).1, (begins M ch (.head l)).2, []) := by
  unfold begins
  dsimp only
  cases hg : M.session.labels.get? l with
  | none => rw [reading_none hg]; exact .says h ht (.headMissing (h.sim.noGraph.2 hg))
  | some d =>
    obtain ⟨o, v⟩ := d
    rw [reading_some hg]
    have hd := h.sim.graph hg
    cases o with
    | none => exact .says h ht (.headNone hd)
    | some n => exact .gives ht .now (.head hd) h.sim (.fetch (.answer (h.sim.heads _ _ _ hd) (fun _ => rfl)))

theorem begins_setHead (h : CSim M A w) {l : L} {i : Nat}
    (ht : A.calls t = some (.asked (.setHead l i) k)) (hk : k ≤ A.past.length) (hi : A.now.Held i) :
    Moves M A t w (.asked (.setHead l i) k)
      ((begins M ch (.setHead l i)).1, (begins M ch (.setHead l i)).2, []) := by
  obtain ⟨n, hi⟩ := hi
  obtain ⟨x, hx, hn, _, hxn, _⟩ := h.handle hi
  unfold begins
  dsimp only
  rw [withLayer_some hx, hxn]
  cases hg : M.session.labels.get? l with
  | none => rw [reading_none hg]; exact .says h ht (.setHeadMissing (h.sim.noGraph.2 hg))
  | some d =>
    rw [reading_some hg]
    have hd := h.sim.graph hg
    cases ho : d.layer with
    | none =>
      exact .quiet .now h.sim noLayers
        (.setting hk hi (by intro r hr; rw [ho] at hr; cases hr) (tracks_now hd))
    | some r =>
      by_cases ha : A.now.log.Ancestor r n
      · exact .quiet .now h.sim noLayers (.asking hk hi ho ha (tracks_now hd))
      · exact .once ht .now (.setHeadRefused (by rw [← ho]; exact hd) hi ha)
          (List.append_nil _).symm h.sim (.askingNot hn ho ha)

theorem begins_forceSetHead (h : CSim M A w) {l : L} {i : Nat}
    (ht : A.calls t = some (.asked (.forceSetHead l i) k)) (hk : k ≤ A.past.length)
    (hi : A.now.Held i) :
    Moves M A t w (.asked (.forceSetHead l i) k)
      ((begins M ch (.forceSetHead l i)).1, (begins M ch (.forceSetHead l i)).2, []) := by
  obtain ⟨n, hi⟩ := hi
  obtain ⟨x, hx, hn, _, hxn, _⟩ := h.handle hi
  unfold begins
  dsimp only
  rw [withLayer_some hx, hxn]
  cases hg : M.session.labels.get? l with
  | none => rw [reading_none hg]; exact .says h ht (.forceSetHeadMissing (h.sim.noGraph.2 hg))
  | some d =>
    rw [reading_some hg]
    exact .quiet .now h.sim noLayers (.settingForce hk hi)

theorem begins_forceSetHeadVersion (h : CSim M A w) {l : L} {i v : Nat}
    (ht : A.calls t = some (.asked (.forceSetHeadVersion l i v) k)) (hk : k ≤ A.past.length)
    (hi : A.now.Held i) :
    Moves M A t w (.asked (.forceSetHeadVersion l i v) k)
      ((begins M ch (.forceSetHeadVersion l i v)).1, (begins M ch (.forceSetHeadVersion l i v)).2, []) := by
  obtain ⟨n, hi⟩ := hi
  obtain ⟨x, hx, hn, _, hxn, _⟩ := h.handle hi
  unfold begins
  dsimp only
  rw [withLayer_some hx, hxn]
  cases hg : M.session.labels.get? l with
  | none => rw [reading_none hg]; exact .says h ht (.forceSetHeadVersionMissing (h.sim.noGraph.2 hg))
  | some d =>
    rw [reading_some hg]
    have hd := h.sim.graph hg
    by_cases hv : d.version = v
    · rw [if_neg (fun hx => hx hv)]
      exact .quiet .now h.sim noLayers (.settingVersion hk hi hv (tracks_now hd))
    · rw [if_pos hv]
      exact .says h ht (.forceSetHeadVersionRefused hd hv)

theorem begins_getLayer (h : CSim M A w) {n : Nat}
    (ht : A.calls t = some (.asked (.getLayer n) k)) (hi : A.now.Askable n) :
    Moves M A t w (.asked (.getLayer n) k)
      ((begins M ch (.getLayer n)).1, (begins M ch (.getLayer n)).2, []) := by
  unfold begins
  dsimp only
  by_cases hn : A.now.log.known n
  · obtain ⟨w', h1, h2, h3⟩ := look_at h hn (.answer (.layer 0)) .absent
    exact .gives ht h1 (.getLayer hn) h2 (h3 _ _ (.answer hn (fun _ => rfl)))
  · rw [look_absent h hn hi.1]
    exact .says h ht (.getLayerAbsent hn)

theorem begins_merge (h : CSim M A w) {ns : List Nat}
    (ht : A.calls t = some (.asked (.merge ns) k)) (hi : ∀ n ∈ ns, A.now.Askable n) :
    Moves M A t w (.asked (.merge ns) k)
      ((begins M ch (.merge ns)).1, (begins M ch (.merge ns)).2, []) := by
  unfold begins
  dsimp only
  rcases h.sim.planMerge hi with ⟨h1, e, h2, h3⟩ | ⟨h1, h2⟩
  · rw [← h.sim.store, h2]
    exact .quiet (.step .now h3)
      (h.sim.passes (.step h.sim.layers.run h3) rfl rfl (fun _ hq => hq) rfl) noLayers
      (.writingMerge h1 (List.mem_cons_self ..))
  · rw [← h.sim.store, h2]
    exact .says h ht (.mergeWrong h1)

theorem begins_parent (h : CSim M A w) {i : Nat}
    (ht : A.calls t = some (.asked (.parent i) k)) (hi : A.now.Held i) :
    Moves M A t w (.asked (.parent i) k)
      ((begins M ch (.parent i)).1, (begins M ch (.parent i)).2, []) := by
  obtain ⟨n, hi⟩ := hi
  obtain ⟨x, hx, hn, _, hxn, hxp⟩ := h.handle hi
  unfold begins
  dsimp only
  rw [withLayer_some hx, hxp]
  cases hp : A.now.log.parent n with
  | none => exact .says h ht (.parentNone hi hp)
  | some p =>
    exact .gives ht .now (.parent hi hp) h.sim
      (.fetch (.answer (h.sim.layers.parentKnown _ _ hp) (fun _ => rfl)))

/-- A call that loads its layer again. -/
theorem begins_fetch (h : CSim M A w) {c : Req K V L} {i n : Nat} (hi : A.now.handles[i]? = some n)
    (ho : Of A.now n c) (missing : Ans K V L) :
    Moves M A t w (.asked c k)
      (withLayer M.session i fun x => .fetch (.use c) x.name missing, M.session, []) := by
  obtain ⟨x, hx, hn, _, hxn, hxp⟩ := h.handle hi
  rw [withLayer_some hx, hxn]
  exact .quiet .now h.sim noLayers (.fetch (.use hn ho))

theorem begins_fetchUpto (h : CSim M A w) {c : Req K V L} {i j n m : Nat}
    (hi : A.now.handles[i]? = some n) (hj : A.now.handles[j]? = some m)
    (ho : Of A.now n c) (missing : Ans K V L) :
    Moves M A t w (.asked c k)
      (withLayer M.session i fun x => withLayer M.session j fun _ => .fetch (.use c) x.name missing,
        M.session, []) := by
  obtain ⟨x, hx, hn, _, hxn, hxp⟩ := h.handle hi
  obtain ⟨y, hy, _⟩ := h.handle hj
  rw [withLayer_some hx, withLayer_some hy, hxn]
  exact .quiet .now h.sim noLayers (.fetch (.use hn ho))

/-- A commit takes the contents of its builder. -/
theorem taking_moves (h : CSim M A w) {c : Req K V L} {b : Nat} {load : Bool}
    (hc : (c = .commit b ∧ load = true) ∨ (c = .commitNoLoad b ∧ load = false))
    (ht : A.calls t = some (.asked c k)) (hi : A.now.Built b) :
    Moves M A t w (.asked c k) ((taking M.session b load).1, (taking M.session b load).2, []) := by
  obtain ⟨y, hy⟩ := hi
  obtain ⟨x, hx, hxy⟩ := h.sim.builder hy
  unfold taking
  rw [hx]
  dsimp only
  rcases hxy.lock with ⟨h1, h2⟩ | ⟨ops, sb, h1, h3, h4, h2⟩
  · have e1 : BuilderUse.takeBuilder x.lock = (.inr .refused, x.lock) := by rw [h1]; rfl
    rw [e1]
    dsimp only
    rw [h.sim.setLockSame hx]
    exact .says h ht (.commitTwice hy h2 (hc.symm.imp And.left And.left))
  · have e1 : BuilderUse.takeBuilder x.lock = (.inl sb, .taken) := by rw [h1]; rfl
    rw [e1]
    obtain ⟨u1, u2⟩ := h.sim.unborn y (List.mem_of_getElem? hy) (by rw [h2]; simp)
    refine .effect .now (.close hc hy h2)
      (h.sim.setBuilder (x' := { x with lock := .taken }) (y' := { y with calls := none }) hy
        ⟨hxy.name, hxy.parent, hxy.held, Or.inl ⟨rfl, rfl⟩⟩ rfl (fun hx => absurd rfl hx)) noLayers
      (.taken (y := { y with calls := none }) ?_ rfl hxy.name hxy.parent hxy.held u1 u2 h3 h4)
    show (A.now.builders.set b _)[b]? = _
    rw [List.getElem?_set_self (List.getElem?_eq_some_iff.1 hy).1]

theorem byValue_of {ops : List (Op K V)} {A B : VTriple K V → Prop}
    (h : ∀ op, op ∈ ops ↔ (∃ t, op = .addValue t ∧ B t ∧ ¬ A t) ∨
      ∃ t, op = .removeValue t ∧ A t ∧ ¬ B t) : ∀ op ∈ ops, ByValue op := by
  intro op ho
  rcases (h op).1 ho with ⟨t, h1, _⟩ | ⟨t, h1, _⟩
  · exact Or.inl ⟨t, h1⟩
  · exact Or.inr ⟨t, h1⟩

theorem begins_applyDelta (h : CSim M A w) {b i : Nat}
    (_ : A.calls t = some (.asked (.applyDelta b i) k)) (hch : ch.Possible M.session)
    (hb : A.now.Built b) (hi : A.now.Held i) :
    Moves M A t w (.asked (.applyDelta b i) k)
      ((begins M ch (.applyDelta b i)).1, (begins M ch (.applyDelta b i)).2, []) := by
  obtain ⟨y, hy⟩ := hb
  obtain ⟨x, hx, hxy⟩ := h.sim.builder hy
  obtain ⟨n, hi⟩ := hi
  obtain ⟨l, hl, hn, hlh, _⟩ := h.handle hi
  obtain ⟨ops, h1, h2⟩ := h.sim.deltaCalls hn hlh
  have h3 : ∀ op, op ∈ ch.calls ops ↔
      (∃ t, op = .addValue t ∧ A.now.log.triples n t ∧ ¬ A.now.log.below (A.now.log.parent n) t) ∨
        ∃ t, op = .removeValue t ∧ A.now.log.below (A.now.log.parent n) t ∧ ¬ A.now.log.triples n t :=
    fun op => ((hch.calls ops).mem_iff).trans (h2 op)
  unfold begins
  dsimp only
  rw [hx]
  dsimp only
  rw [withLayer_some hl, h1]
  exact .effect .now (.readDelta hy hi (leads_of (S := []) h3).1)
    h.sim noLayers (.applying hy (byValue_of h3))

theorem begins_applyDiff (h : CSim M A w) {b i : Nat}
    (_ : A.calls t = some (.asked (.applyDiff b i) k)) (hch : ch.Possible M.session)
    (hb : A.now.Built b) (hi : A.now.Held i) :
    Moves M A t w (.asked (.applyDiff b i) k)
      ((begins M ch (.applyDiff b i)).1, (begins M ch (.applyDiff b i)).2, []) := by
  obtain ⟨y, hy⟩ := hb
  obtain ⟨x, hx, hxy⟩ := h.sim.builder hy
  obtain ⟨n, hi⟩ := hi
  obtain ⟨l, hl, hn, hlh, _⟩ := h.handle hi
  obtain ⟨b1, _, _, b4⟩ := h.sim.below hxy
  obtain ⟨l1, _, _, l4⟩ := h.sim.layers.held hn hlh
  obtain ⟨ops, h1, h2⟩ := applyDiff_calls b1 l1
  have h3 : ∀ op, op ∈ ch.calls ops ↔
      (∃ t, op = .addValue t ∧ A.now.log.triples n t ∧ ¬ A.now.log.below y.parent t) ∨
        ∃ t, op = .removeValue t ∧ A.now.log.below y.parent t ∧ ¬ A.now.log.triples n t := by
    intro op
    rw [(hch.calls ops).mem_iff, h2]
    simp only [← b4, ← l4]
    rfl
  unfold begins
  dsimp only
  rw [hx]
  dsimp only
  rw [withLayer_some hl, h1]
  exact .effect .now (.readDiff hy hi (leads_of (S := []) h3).1)
    h.sim noLayers (.applying hy (byValue_of h3))

/-- The first step of a call. -/
theorem begins_moves (h : CSim M A w) {c : Req K V L} (ht : A.calls t = some (.asked c k))
    (hk : k ≤ A.past.length) (hin : Api.InContract A.now c) (hch : ch.Possible M.session) :
    Moves M A t w (.asked c k) ((begins M ch c).1, (begins M ch c).2, []) := by
  cases c with
  | createGraph l => exact .single h ht (h.sim.createGraph l)
  | openGraph l => exact .single h ht (h.sim.openGraph l)
  | deleteGraph l => exact .single h ht (h.sim.deleteGraph l)
  | dropGraph l => exact .single h ht (h.sim.dropGraph l)
  | graphs => exact .single h ht (h.sim.graphs hch.labels)
  | head l => exact begins_head h ht
  | setHead l i => exact begins_setHead h ht hk hin
  | forceSetHead l i => exact begins_forceSetHead h ht hk hin
  | forceSetHeadVersion l i v => exact begins_forceSetHeadVersion h ht hk hin
  | getLayer n => exact begins_getLayer h ht hin
  | createBase => exact .single h ht (h.sim.createBase hch)
  | merge ns => exact begins_merge h ht hin
  | openWrite i => obtain ⟨n, hi⟩ := hin; exact begins_fetch (c := .openWrite i) h hi hi _
  | parent i => exact begins_parent h ht hin
  | squash i => obtain ⟨n, hi⟩ := hin; exact begins_fetch (c := .squash i) h hi hi _
  | squashUpto i j =>
    obtain ⟨⟨n, hi⟩, m, hj⟩ := hin; exact begins_fetchUpto (c := .squashUpto i j) h hi hj hi _
  | rollup i => obtain ⟨n, hi⟩ := hin; exact begins_fetch (c := .rollup i) h hi hi _
  | rollupUpto i j =>
    obtain ⟨n, m, hi, hj, _⟩ := hin; exact begins_fetchUpto (c := .rollupUpto i j) h hi hj hi _
  | impreciseRollupUpto i j =>
    obtain ⟨n, m, hi, hj, _⟩ := hin; exact begins_fetchUpto (c := .impreciseRollupUpto i j) h hi hj hi _
  | stackNames i => exact .single h ht (h.sim.stackNames hin)
  | layerName i => exact .single h ht (h.sim.layerName hin)
  | parentName i => exact .single h ht (h.sim.parentName hin)
  | query i q => exact .single h ht (h.sim.query hin.1 hin.2)
  | additions i q => exact .single h ht (h.sim.additions hin)
  | removals i q => exact .single h ht (h.sim.removals hin)
  | builderName b => exact .single h ht (h.sim.builderName hin)
  | builderParent b => exact .single h ht (h.sim.builderParent hin)
  | edit b e => exact .single h ht (h.sim.edit hin)
  | committed b => exact .single h ht (h.sim.committed hin)
  | commitNoLoad b => exact taking_moves h (Or.inr ⟨rfl, rfl⟩) ht hin
  | commit b => exact taking_moves h (Or.inl ⟨rfl, rfl⟩) ht hin
  | applyDelta b i => exact begins_applyDelta h ht hch hin.1 hin.2
  | applyDiff b i =>
    obtain ⟨hi, x, hx, _⟩ := hin
    exact begins_applyDiff h ht hch ⟨x, hx⟩ hi

end Verif.Conc
