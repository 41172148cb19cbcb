import Verif.Lemmas.ApiBuild
import Verif.Lemmas.ConcGrow
import Verif.Lemmas.Decides
import Verif.Model.Conc

/-!
How the state of a store that many calls use (`Verif.Conc.Shop`) and a state of the specification
(`Verif.Conc.CState`) belong together.
-/

set_option linter.unusedSectionVars false

namespace Verif.Api

open Spec SimpleBuilder Store World

variable {K V L : Type} [LinearOrder K] [LinearOrder V] [DecidableEq L]

namespace LayersSim

variable {w w' : World K V} {log : History (VTriple K V)} {ids : Nat → Ids K V}
  {hidden : List Nat} {rolled : Nat → Option (Option Nat)}

/-- A rollup is written. -/
theorem hide (h : LayersSim w log ids hidden rolled) (hr : Run true w') {new n : Nat}
    {e : Entry K V} (hn : w.store.get? new = none) (hk : log.known n)
    (hs : w'.store = (new, e) :: w.store)
    (hl : w'.log = .rollup new n e.parent :: w.log) :
    LayersSim w' log ids (new :: hidden) rolled := by
  obtain ⟨hn1, hn2⟩ := h.unknown.1 hn
  have hne : ∀ {m}, log.known m → m ≠ new := by
    rintro m hk rfl; exact hn1 hk
  have hroll : ∀ m r, w'.log.rolledUp m r ↔ (m = n ∧ r = new) ∨ w.log.rolledUp m r := by
    intro m r
    rw [hl]
    unfold History.rolledUp
    constructor
    · rintro ⟨p, hp⟩
      rcases List.mem_cons.1 hp with e | hp
      · injection e with e1 e2 e3; exact Or.inl ⟨e2, e1⟩
      · exact Or.inr ⟨p, hp⟩
    · rintro (⟨rfl, rfl⟩ | ⟨p, hp⟩)
      · exact ⟨_, List.mem_cons_self ..⟩
      · exact ⟨p, List.mem_cons_of_mem _ hp⟩
  have hx : Ext w.store w'.store := by rw [hs]; exact Ext.cons hn e
  have hraw : ∀ {m S'}, log.known m → Raw w'.store m S' → Raw w.store m S' := by
    intro m S' hk hR
    obtain ⟨R, hR', _⟩ := h.raw hk
    rw [hR.unique (hR'.ext hx)]; exact hR'
  have hget : ∀ {m}, m ≠ new → w'.store.get? m = w.store.get? m := by
    intro m hm; rw [hs, get?_cons_ne (Ne.symm hm)]
  have hpar : ∀ {m}, m ≠ new → w'.store.parent? m = w.store.parent? m := by
    intro m hm; unfold Store.parent?; rw [hget hm]
  have hrol : ∀ {m}, m ≠ new → w'.store.rollup? m = w.store.rollup? m := by
    intro m hm; unfold Store.rollup?; rw [hget hm]
  exact {
    run := hr
    known := by
      intro m
      rw [hl, History.known_cons, h.known, List.mem_cons]
      show new = m ∨ _ ↔ _
      constructor
      · rintro (h | h | h)
        · exact Or.inr (Or.inl h.symm)
        · exact Or.inl h
        · exact Or.inr (Or.inr h)
      · rintro (h | h | h)
        · exact Or.inr (Or.inl h)
        · exact Or.inl h.symm
        · exact Or.inr (Or.inr h)
    apart := by
      intro m hm
      rw [List.mem_cons, not_or]
      exact ⟨hne hm, h.apart m hm⟩
    hid := by
      intro m
      rw [List.mem_cons, h.hid]
      constructor
      · rintro (rfl | ⟨x, hx⟩)
        · exact ⟨n, (hroll _ _).2 (Or.inl ⟨rfl, rfl⟩)⟩
        · exact ⟨x, (hroll _ _).2 (Or.inr hx)⟩
      · rintro ⟨x, hx⟩
        rcases (hroll _ _).1 hx with ⟨_, rfl⟩ | hx
        · exact Or.inl rfl
        · exact Or.inr ⟨x, hx⟩
    rolledKnown := by
      intro m r hm
      rcases (hroll _ _).1 hm with ⟨rfl, _⟩ | hm
      · exact hk
      · exact h.rolledKnown m r hm
    parent := by
      intro m hm
      rw [hl, History.parent_cons_ne (e := .rollup new n e.parent) (hne hm)]
      exact h.parent m hm
    parentKnown := h.parentKnown
    triples := by
      intro m hm t
      rw [hl, History.triples_cons_ne (e := .rollup new n e.parent) (hne hm)]
      exact h.triples m hm t
    rolledIs := by
      intro m hm
      rw [h.rolledIs m hm, hrol (hne hm)]
      cases hq : w.store.rollup? m with
      | none => rfl
      | some r =>
        have hkr : w.store.has r = true := by
          obtain ⟨A, B, _, hB, _⟩ := h.run.inv.ok.rollup hq
          exact hB.has
        have : r ≠ new := by
          rintro rfl
          rw [Store.has, hn] at hkr; cases hkr
        simp only [Option.map_some]
        rw [hpar this]
    rolledOnly := h.rolledOnly
    under := h.under
    ids := fun m S' hm hR => h.ids m S' hm (hraw hm hR)
    nodes := fun m S' hm hR => h.nodes m S' hm (hraw hm hR) }

/-- A rollup is registered. -/
theorem settle (h : LayersSim w log ids hidden rolled) (hr : Run true w') {n r : Nat}
    (hk : log.known n) (hnr : n ≠ r) (hs : w'.store = registerRollup w.store n r)
    (hl : w'.log = w.log)
    (hu : ∀ p, w.store.parent? r = some p → ∃ q, log.parent n = some q ∧ log.Ancestor p q) :
    LayersSim w' log ids hidden
      (fun m => if m = n then some (w.store.parent? r) else rolled m) := by
  have hs' : w'.store = w.store.setRollup n r := by
    rw [hs, registerRollup, if_neg hnr]
  have hx : Ext w.store w'.store := by rw [hs']; exact Ext.setRollup _ _ _
  have hraw : ∀ {m S'}, log.known m → Raw w'.store m S' → Raw w.store m S' := by
    intro m S' hk hR
    obtain ⟨R, hR', _⟩ := h.raw hk
    rw [hR.unique (hR'.ext hx)]; exact hR'
  have hpar : w'.store.parent? = w.store.parent? := by
    funext m; rw [hs', parent?_setRollup]
  have hrol : ∀ {m}, m ≠ n → w'.store.rollup? m = w.store.rollup? m := by
    intro m hm'
    unfold Store.rollup?
    rw [hs', get?_setRollup, if_neg hm']
  have hroln : w'.store.rollup? n = some r := by
    unfold Store.rollup?
    rw [hs', get?_setRollup, if_pos rfl]
    obtain ⟨x, hx⟩ := has_iff.1 (h.has hk)
    rw [hx]; rfl
  exact {
    run := hr
    known := by rw [hl]; exact h.known
    apart := h.apart
    hid := by rw [hl]; exact h.hid
    rolledKnown := by rw [hl]; exact h.rolledKnown
    parent := by rw [hl]; exact h.parent
    parentKnown := h.parentKnown
    triples := by rw [hl]; exact h.triples
    rolledIs := by
      intro m hm
      by_cases hmn : m = n
      · subst hmn
        simp only [if_true, hroln, Option.map_some, hpar]
      · simp only [if_neg hmn]
        rw [h.rolledIs m hm, hrol hmn, hpar]
    rolledOnly := by
      intro m hx
      by_cases hmn : m = n
      · subst hmn; exact hk
      · simp only [if_neg hmn] at hx; exact h.rolledOnly m hx
    under := by
      intro m p hx
      by_cases hmn : m = n
      · subst hmn
        simp only [if_true, Option.some.injEq] at hx
        exact hu p hx
      · simp only [if_neg hmn] at hx; exact h.under m p hx
    ids := fun m S' hm hR => h.ids m S' hm (hraw hm hR)
    nodes := fun m S' hm hR => h.nodes m S' hm (hraw hm hR) }

end LayersSim

theorem forall₂_append {α β : Type} {R : α → β → Prop} {as as' : List α} {bs bs' : List β}
    (h : List.Forall₂ R as bs) (h' : List.Forall₂ R as' bs') :
    List.Forall₂ R (as ++ as') (bs ++ bs') := by
  induction h with
  | nil => exact h'
  | cons h1 _ ih => exact .cons h1 ih

namespace Sim

variable {s : Session K V L} {w w' : World K V} {a : State K V L}

/-- A rollup is written. -/
theorem hide (h : Sim s w a) (hr : Run true w') {new n : Nat} {e : Entry K V}
    (hf : a.Fresh new) (hn : w.store.get? new = none) (hk : a.log.known n)
    (hs : w'.store = (new, e) :: w.store)
    (hl : w'.log = .rollup new n e.parent :: w.log) (hh : w'.held = w.held)
    (hc : w'.cache = w.cache) :
    Sim { s with store := (new, e) :: s.store } w'
      { a with hidden := new :: a.hidden } :=
  have hh' : ∀ q ∈ w.held, q ∈ w'.held := fun q hq => by rw [hh]; exact hq
  { store := by rw [hs, h.store]
    cache := by rw [hc]; exact h.cache
    layers := h.layers.hide hr hn hk hs hl
    handles := forall₂_mono (fun _ _ hx => ⟨hx.1, hh' _ hx.2⟩) h.handles
    builders := forall₂_mono (fun _ _ hx => hx.mono hh' (fun _ hk => hk)) h.builders
    unborn := by
      intro y hy hc
      obtain ⟨h1, h2⟩ := h.unborn y hy hc
      refine ⟨h1, ?_⟩
      intro hm
      rcases List.mem_cons.1 hm with hx | hx
      · exact hf.2.2.1 y hy hx
      · exact h2 hx
    distinct := h.distinct
    labels := h.labels
    keys := h.keys
    heads := h.heads
    lost := h.lost }

/-- A rollup is registered. -/
theorem settle (h : Sim s w a) (hr : Run true w') {n r : Nat}
    (hk : a.log.known n) (hnr : n ≠ r) (hs : w'.store = registerRollup w.store n r)
    (hl : w'.log = w.log) (hh : w'.held = w.held) (hc : w'.cache = w.cache)
    (hu : ∀ p, w.store.parent? r = some p → a.Under p n) :
    Sim { s with store := registerRollup s.store n r } w'
      (Conc.settled a n (w.store.parent? r)) :=
  have hh' : ∀ q ∈ w.held, q ∈ w'.held := fun q hq => by rw [hh]; exact hq
  { store := by rw [hs, h.store]
    cache := by rw [hc]; exact h.cache
    layers := h.layers.settle hr hk hnr hs hl hu
    handles := forall₂_mono (fun _ _ hx => ⟨hx.1, hh' _ hx.2⟩) h.handles
    builders := forall₂_mono (fun _ _ hx => hx.mono hh' (fun _ hk => hk)) h.builders
    unborn := h.unborn
    distinct := h.distinct
    labels := h.labels
    keys := h.keys
    heads := h.heads
    lost := h.lost }

/-- Nothing changes but what the world remembers. -/
theorem passes (h : Sim s w a) (hr : Run true w') (hs : w'.store = w.store)
    (hl : w'.log = w.log) (hh : ∀ q ∈ w.held, q ∈ w'.held) (hc : w'.cache = w.cache) :
    Sim s w' a := by
  have := h.frame hr hs hl hh
  rw [hc, h.cache] at this
  exact this

/-- More layers in hand. -/
theorem holdAll (h : Sim s w a) {ls : List (InternalLayer K V)} {ns : List Nat}
    (hx : List.Forall₂ (fun l n => a.log.known n ∧ (n, l) ∈ w.held) ls ns) :
    Sim { s with layers := s.layers ++ ls } w { a with handles := a.handles ++ ns } :=
  { store := h.store
    cache := h.cache
    layers := h.layers
    handles := forall₂_append h.handles hx
    builders := h.builders
    unborn := h.unborn
    distinct := h.distinct
    labels := h.labels
    keys := h.keys
    heads := h.heads
    lost := h.lost }

end Sim

end Verif.Api

namespace Verif.Conc

open Spec SimpleBuilder Store Api

variable {K V L : Type} [LinearOrder K] [LinearOrder V] [DecidableEq L]

/-- The answers are the same once layers have their numbers. -/
def Same (r r' : Ans K V L) : Prop := ∀ n, CState.numbered n r = CState.numbered n r'

/-- The first layer that the call is about is `n`. -/
def Of (a : State K V L) (n : Nat) : Req K V L → Prop
  | .openWrite h | .squash h | .squashUpto h _ | .rollup h | .rollupUpto h _
  | .impreciseRollupUpto h _ => a.handles[h]? = some n
  | _ => False

/-- A layer `n` that is being loaded is what the call wants. -/
inductive Wants (a : State K V L) (n : Nat) : Goal K V L → Conc.Pending K V L → Prop
  | answer {r r'} : a.log.known n → Same r r' → Wants a n (.answer r) (.answered r' [n])
  | use {c k} : a.log.known n → Of a n c → Wants a n (.use c) (.asked c k)

/-- The head `d` of the graph was read since the call began; the graph has been deleted since
then, or its version has not gone back. -/
def Tracks (past : List (State K V L)) (a : State K V L) (k : Nat) (l : L) (d : LabelData Name) : Prop :=
  (∃ p ∈ since a past k, p.graphs l = some (d.layer, d.version)) ∧
    ((∃ p ∈ since a past k, p.graphs l = none) ∨
      ∃ o' v', a.graphs l = some (o', v') ∧ d.version ≤ v' ∧ (v' = d.version → o' = d.layer))

/-- The change is given by strings. -/
def ByValue (op : Op K V) : Prop := (∃ t, op = .addValue t) ∨ ∃ t, op = .removeValue t

/-- How far a call is in the model and in the specification. -/
inductive At (w : World K V) (seen : List (View K V)) (past : List (State K V L)) (a : State K V L) :
    Stage K V L → Conc.Pending K V L → Prop
  | start {c k} : k ≤ past.length → At w seen past a (.start c) (.asked c k)
  | fetch {g n missing p} : Wants a n g p → At w seen past a (.fetch g n missing) p
  | search {g n k p pre post} {v : View K V} : Wants a n g p → seen = pre ++ v :: post →
      post.length + 1 = k → v.store.has n = true → At w seen past a (.search g n k) p
  | holds {c l n k} : a.log.known n → Of a n c → (n, l) ∈ w.held →
      At w seen past a (.holds c l) (.asked c k)
  | reading {c l n k} : a.log.known n → Of a n c → (n, l) ∈ w.held →
      (w.store.rollup? l.name).isSome → At w seen past a (.reading c l) (.asked c k)
  | asking {l h n d r k} : k ≤ past.length → a.handles[h]? = some n → d.layer = some r →
      a.log.Ancestor r n → Tracks past a k l d →
      At w seen past a (.asking (.setHead l h) l n d) (.asked (.setHead l h) k)
  | askingNot {c l n r} {d : LabelData Name} : a.log.known n → d.layer = some r →
      ¬ a.log.Ancestor r n → At w seen past a (.asking c l n d) (.answered (.flag false) [])
  | setting {l h n d k} : k ≤ past.length → a.handles[h]? = some n →
      (∀ r, d.layer = some r → a.log.Ancestor r n) → Tracks past a k l d →
      At w seen past a (.setting (.setHead l h) l n d) (.asked (.setHead l h) k)
  | settingForce {l h n d k} : k ≤ past.length → a.handles[h]? = some n →
      At w seen past a (.setting (.forceSetHead l h) l n d) (.asked (.forceSetHead l h) k)
  | settingVersion {l h n k v} {d : LabelData Name} : k ≤ past.length → a.handles[h]? = some n →
      d.version = v →
      Tracks past a k l d →
      At w seen past a (.setting (.forceSetHeadVersion l h v) l n d)
        (.asked (.forceSetHeadVersion l h v) k)
  | writingSquash {h n e k} : a.handles[h]? = some n → (.squash n, .write e) ∈ w.plans →
      At w seen past a (.writing (.squash h) (.write e)) (.asked (.squash h) k)
  | writingUpto {h u n m e k} : a.handles[h]? = some n → a.handles[u]? = some m → a.Under m n →
      (.squashUpto n m, .write e) ∈ w.plans →
      At w seen past a (.writing (.squashUpto h u) (.write e)) (.asked (.squashUpto h u) k)
  | writingMerge {ns e k} : (∀ n ∈ ns, a.log.known n ∧ a.log.parent n = none) →
      (.merge ns, .write e) ∈ w.plans →
      At w seen past a (.writing (.merge ns) (.write e)) (.asked (.merge ns) k)
  | rollingDone {c n} : (.rollup n, .existing n) ∈ w.plans →
      At w seen past a (.rolling c n (.existing n)) (.answered .done [])
  | rollingAgain {c n r k upto} : n ≠ r → (.rollup n, .existing r) ∈ w.plans →
      w.store.has r = true → w.store.parent? r = upto → Rolls a c n upto →
      k ≤ past.length → (∃ q ∈ since a past k, q.rolled n = some upto) →
      At w seen past a (.rolling c n (.existing r)) (.asked c k)
  | rollingWrite {c n e k} : (.rollup n, .write e) ∈ w.plans → Rolls a c n e.parent →
      k ≤ past.length → (∃ q ∈ since a past k, Needs q n e.parent) →
      At w seen past a (.rolling c n (.write e)) (.asked c k)
  | writtenDone {n} : (n, n) ∈ w.pending → At w seen past a (.written n n) (.answered .done [])
  | writtenAgain {c n r k upto} : n ≠ r → (n, r) ∈ w.pending → w.store.has r = true →
      w.store.parent? r = upto → Rolls a c n upto → k ≤ past.length →
      (∃ q ∈ since a past k, q.rolled n = some upto) → At w seen past a (.written n r) (.asked c k)
  | written {n r upto} : n ≠ r → a.log.known n → (n, r) ∈ w.pending → w.store.has r = true →
      w.store.parent? r = upto → (∀ p, upto = some p → a.Under p n) →
      At w seen past a (.written n r) (.rolling n upto)
  | invalidating {n} : At w seen past a (.invalidating n) (.answered .done [])
  | taken {x : HeldBuilder K V} {sb load b ops} {y : Builder K V} : a.builders[b]? = some y →
      y.calls = none → y.name = x.name → y.parent = x.on.map Prod.fst →
      (∀ q, x.on = some q → a.log.known q.1 ∧ q ∈ w.held) →
      ¬ a.log.known y.name → y.name ∉ a.hidden → (SimpleBuilder.new x.below).run ops = some sb →
      (∀ op ∈ ops, IdsKnown x.below op ∧ opCall x.below op ≠ none) →
      At w seen past a (.taken x sb load) (.closing b (ops.filterMap (opCall x.below)) load)
  | applying {b ops strict} {y : Builder K V} : a.builders[b]? = some y → (∀ op ∈ ops, ByValue op) →
      At w seen past a (.applying b ops strict) (.applying b (ops.filterMap (opCall [])) strict)
  | done {r r' ls ns} : Same r r' →
      List.Forall₂ (fun l n => a.log.known n ∧ (n, l) ∈ w.held) ls ns →
      At w seen past a (.done r ls) (.answered r' ns)

theorem Same.refl {r : Ans K V L} : Same r r := fun _ => rfl

theorem since_self {a : State K V L} {past : List (State K V L)} {k : Nat} : a ∈ since a past k :=
  List.mem_cons_self ..

/-- What was in the states since a call began is remembered. -/
def Remembers (past : List (State K V L)) (a : State K V L) (past' : List (State K V L))
    (a' : State K V L) : Prop :=
  ∀ k, k ≤ past.length → k ≤ past'.length ∧
    ∀ p ∈ since a past k, ∃ p' ∈ since a' past' k,
      p'.graphs = p.graphs ∧ p'.rolled = p.rolled ∧ p'.log = p.log

theorem Remembers.act {past : List (State K V L)} {a a' : State K V L} :
    Remembers past a (a :: past) a' := by
  intro k hk
  refine ⟨Nat.le_succ_of_le hk, ?_⟩
  intro p hp
  refine ⟨p, ?_, rfl, rfl, rfl⟩
  unfold since at *
  have : (a :: past).length - k = (past.length - k) + 1 := by
    rw [List.length_cons]; omega
  rw [this, List.take_succ_cons]
  exact List.mem_cons_of_mem _ hp

theorem Remembers.handed {past : List (State K V L)} {a : State K V L} {hs : List Nat} :
    Remembers past a past { a with handles := hs } := by
  intro k hk
  refine ⟨hk, ?_⟩
  intro p hp
  unfold since at *
  rcases List.mem_cons.1 hp with rfl | hp
  · exact ⟨_, List.mem_cons_self .., rfl, rfl, rfl⟩
  · exact ⟨p, List.mem_cons_of_mem _ hp, rfl, rfl, rfl⟩

theorem Remembers.refl {past : List (State K V L)} {a : State K V L} : Remembers past a past a :=
  fun _ hk => ⟨hk, fun p hp => ⟨p, hp, rfl, rfl, rfl⟩⟩

section Mono

variable {exc : Nat → Prop} {a a' : State K V L} {past past' : List (State K V L)}

theorem Of.mono (hg : Grew exc a a') {n : Nat} {c : Req K V L} (h : Of a n c) : Of a' n c := by
  cases c <;> first | exact hg.handle h | exact h

theorem Wants.mono (hg : Grew exc a a') {n : Nat} {g : Goal K V L} {p : Conc.Pending K V L}
    (h : Wants a n g p) : Wants a' n g p := by
  cases h with
  | answer h1 h2 => exact .answer (hg.known h1) h2
  | use h1 h2 => exact .use (hg.known h1) (h2.mono hg)

theorem Rolls.mono (hg : Grew exc a a') (hk : ∀ i n : Nat, a.handles[i]? = some n → a.log.known n)
    {c : Req K V L} {n : Nat} {upto : Option Nat} (h : Rolls a c n upto) : Rolls a' c n upto := by
  cases h with
  | all h1 h2 => exact .all (hg.handle h1) (by rw [hg.parent (hk _ _ h1)]; exact h2)
  | upto h1 h2 h3 h4 h5 =>
    exact .upto (hg.handle h1) (hg.handle h2) h3 (hg.under h4)
      (by rw [hg.parent (hk _ _ h1)]; exact h5)

theorem Tracks.mono (hg : Grew exc a a') (hr : Remembers past a past' a') {k : Nat}
    (hk : k ≤ past.length) {l : L} {d : LabelData Name} (h : Tracks past a k l d) :
    Tracks past' a' k l d := by
  obtain ⟨⟨p, h1, h2⟩, h3⟩ := h
  have hr := (hr k hk).2
  refine ⟨?_, ?_⟩
  · obtain ⟨p', h4, h5, _⟩ := hr p h1
    exact ⟨p', h4, by rw [h5]; exact h2⟩
  · rcases h3 with ⟨q, h4, h5⟩ | ⟨o, v, h4, h5, h6⟩
    · obtain ⟨p', h7, h8, _⟩ := hr q h4
      exact Or.inl ⟨p', h7, by rw [h8]; exact h5⟩
    · rcases hg.graphs l with hx | hx | hx | ⟨o1, v1, o2, hx, hy⟩
      · exact Or.inr ⟨o, v, by rw [hx]; exact h4, h5, h6⟩
      · exact Or.inl ⟨a', since_self, hx⟩
      · rw [hx] at h4; cases h4
      · rw [h4] at hx
        cases hx
        exact Or.inr ⟨o2, v + 1, hy, by omega, by omega⟩

theorem rolledThen (hr : Remembers past a past' a') {k : Nat} (hk : k ≤ past.length) {n : Nat}
    {upto : Option Nat} (h : ∃ q ∈ since a past k, q.rolled n = some upto) :
    ∃ q ∈ since a' past' k, q.rolled n = some upto := by
  obtain ⟨q, h1, h2⟩ := h
  obtain ⟨q', h3, _, h4, _⟩ := (hr k hk).2 q h1
  exact ⟨q', h3, by rw [h4]; exact h2⟩

theorem neededThen (hr : Remembers past a past' a') {k : Nat} (hk : k ≤ past.length) {n : Nat}
    {upto : Option Nat} (h : ∃ q ∈ since a past k, Needs q n upto) :
    ∃ q ∈ since a' past' k, Needs q n upto := by
  obtain ⟨q, h1, h2⟩ := h
  obtain ⟨q', h3, _, h4, h5⟩ := (hr k hk).2 q h1
  refine ⟨q', h3, ?_⟩
  cases upto with
  | none => show q'.rolled n ≠ _; rw [h4]; exact h2
  | some m =>
    refine ⟨h2.1, ?_⟩
    intro x hx hu
    rw [h4]
    unfold State.Under at hu
    rw [h5] at hx hu
    exact h2.2 x hx hu

/-- Where a call is does not change when others go on. -/
theorem At.mono {w w' : World K V} {seen seen' : List (View K V)} {st : Stage K V L}
    {p : Conc.Pending K V L} (h : At w seen past a st p) (hw : World.Later true w w')
    (hg : Grew exc a a') (he : ∀ b cs load, p = .closing b cs load → ¬ exc b)
    (hs : ∃ more, seen' = more ++ seen) (hr : Remembers past a past' a')
    (hh : ∀ i n : Nat, a.handles[i]? = some n → a.log.known n)
    (hp : ∀ n q, a.log.parent n = some q → a.log.known q) : At w' seen' past' a' st p := by
  have hstore : ∀ {r}, w.store.has r = true →
      w'.store.has r = true ∧ w'.store.parent? r = w.store.parent? r := by
    intro r hx
    have hext := hw.ext
    refine ⟨?_, parent_ext_of_has hext hx⟩
    obtain ⟨e, he⟩ := has_iff.1 hx
    obtain ⟨e', he', _⟩ := hext r e he
    exact has_iff.2 ⟨e', he'⟩
  cases h with
  | start h1 => exact .start (hr _ h1).1
  | fetch h1 => exact .fetch (h1.mono hg)
  | search h1 h2 h3 h4 =>
    obtain ⟨more, hs⟩ := hs
    exact .search (h1.mono hg) (by rw [hs, h2, ← List.append_assoc]) h3 h4
  | holds h1 h2 h3 => exact .holds (hg.known h1) (h2.mono hg) (hw.held _ h3)
  | reading h1 h2 h3 h4 =>
    exact .reading (hg.known h1) (h2.mono hg) (hw.held _ h3) (hw.rollup_stays h4)
  | asking h1 h2 h3 h4 h5 =>
    exact .asking (hr _ h1).1 (hg.handle h2) h3 (hg.ancestor h4) (h5.mono hg hr h1)
  | askingNot h1 h2 h3 => exact .askingNot (hg.known h1) h2 (hg.notAncestor hp h1 h3)
  | setting h1 h2 h3 h4 =>
    exact .setting (hr _ h1).1 (hg.handle h2) (fun r hx => hg.ancestor (h3 r hx)) (h4.mono hg hr h1)
  | settingForce h1 h2 => exact .settingForce (hr _ h1).1 (hg.handle h2)
  | settingVersion h1 h2 h3 h4 => exact .settingVersion (hr _ h1).1 (hg.handle h2) h3 (h4.mono hg hr h1)
  | writingSquash h1 h2 => exact .writingSquash (hg.handle h1) (hw.plans _ h2)
  | writingUpto h1 h2 h3 h4 =>
    exact .writingUpto (hg.handle h1) (hg.handle h2) (hg.under h3) (hw.plans _ h4)
  | writingMerge h1 h2 =>
    refine .writingMerge (fun n hn => ⟨hg.known (h1 n hn).1, ?_⟩) (hw.plans _ h2)
    rw [hg.parent (h1 n hn).1]; exact (h1 n hn).2
  | rollingDone h1 => exact .rollingDone (hw.plans _ h1)
  | rollingAgain h1 h2 h3 h4 h5 h6 h7 =>
    exact .rollingAgain h1 (hw.plans _ h2) (hstore h3).1 ((hstore h3).2.trans h4) (h5.mono hg hh)
      (hr _ h6).1 (rolledThen hr h6 h7)
  | rollingWrite h1 h2 h3 h4 =>
    exact .rollingWrite (hw.plans _ h1) (h2.mono hg hh) (hr _ h3).1 (neededThen hr h3 h4)
  | writtenDone h1 => exact .writtenDone (hw.pending _ h1)
  | writtenAgain h1 h2 h3 h4 h5 h6 h7 =>
    exact .writtenAgain h1 (hw.pending _ h2) (hstore h3).1 ((hstore h3).2.trans h4) (h5.mono hg hh)
      (hr _ h6).1 (rolledThen hr h6 h7)
  | written h1 h2 h3 h4 h5 h6 =>
    exact .written h1 (hg.known h2) (hw.pending _ h3) (hstore h4).1 ((hstore h4).2.trans h5)
      (fun p hp => hg.under (h6 p hp))
  | invalidating => exact .invalidating
  | taken h1 h2 h3 h4 h5 h6 h7 h8 h9 =>
    obtain ⟨y', k1, k2, k3, k4⟩ := hg.builders _ _ h1
    obtain ⟨k5, k6⟩ := hg.unborn _ _ (he _ _ _ rfl) h1 h2 h6 h7
    exact .taken k1 (k4 h2) (k2.trans h3) (k3.trans h4)
      (fun q hq => ⟨hg.known (h5 q hq).1, hw.held _ (h5 q hq).2⟩) (by rw [k2]; exact k5)
      (by rw [k2]; exact k6) h8 h9
  | applying h1 h2 =>
    obtain ⟨y', k1, _⟩ := hg.builders _ _ h1
    exact .applying k1 h2
  | done h1 h2 =>
    exact .done h1 (forall₂_mono (fun _ _ hx => ⟨hg.known hx.1, hw.held _ hx.2⟩) h2)

end Mono

/-- A call under way. -/
inductive Match (w : World K V) (seen : List (View K V)) (past : List (State K V L)) (a : State K V L) :
    Option (Stage K V L) → Option (Conc.Pending K V L) → Prop
  | none : Match w seen past a none none
  | some {st p} : At w seen past a st p → Match w seen past a (some st) (some p)

/-- The model and the specification belong together. -/
structure CSim (M : Shop K V L) (A : CState K V L) (w : World K V) : Prop where
  sim : Sim M.session w A.now
  loaded : ∀ l ∈ M.loaded, l ∈ w.loaded
  seen : M.seen.Sublist w.seen
  top : ∃ rest, M.seen = ⟨M.session.store, M.session.cache⟩ :: rest
  calls : ∀ t, Match w M.seen A.past A.now (M.calls t) (A.calls t)
  apart : ∀ t u b cs load cs' load', A.calls t = some (.closing b cs load) →
    A.calls u = some (.closing b cs' load') → t = u
  began : ∀ t c k, A.calls t = some (.asked c k) → k ≤ A.past.length

theorem CSim.start {disk : Bool} :
    CSim ({ session := { disk := disk } } : Shop K V L) {} {} :=
  { sim := Sim.start
    loaded := by intro l hl; cases hl
    seen := List.Sublist.refl _
    top := ⟨[], rfl⟩
    calls := fun _ => .none
    apart := by intro t u b cs load cs' load' h; cases h
    began := by intro t c k h; cases h }

end Verif.Conc
