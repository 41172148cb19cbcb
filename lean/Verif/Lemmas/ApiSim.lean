import Verif.Lemmas.ApiRight
import Verif.Lemmas.WorldMore
import Verif.Lemmas.WorldThrough
import Verif.Lemmas.LabelAtomic

/-!
How the state of a session (`Verif.Api.Session`), a state of the world (`World`) and a state of the
specification (`Verif.Api.State`) belong together.
-/

namespace Verif.Spec.History

variable {T : Type} {h : History T}

theorem known_cons {e : Event T} {n : Nat} : History.known (e :: h) n ↔ e.new = n ∨ h.known n := by
  simp [History.known]

theorem parent_unknown : ∀ {h : History T} {n : Nat}, ¬ h.known n → h.parent n = none
  | [], _, _ => rfl
  | e :: h, n, hn => by
    rw [known_cons, not_or] at hn
    unfold History.parent
    rw [if_neg (fun x => hn.1 x.symm)]
    exact parent_unknown hn.2

theorem known_of_parent {n p : Nat} (hp : h.parent n = some p) : h.known n := by
  by_contra hn
  rw [parent_unknown hn] at hp; cases hp

theorem parent_cons_ne {e : Event T} {n : Nat} (hn : n ≠ e.new) :
    History.parent (e :: h) n = h.parent n := by
  rw [History.parent, if_neg hn]

theorem triples_cons_ne {e : Event T} {n : Nat} (hn : n ≠ e.new) (t : T) :
    History.triples (e :: h) n t ↔ h.triples n t := by
  cases e <;> simp only [History.triples, if_neg hn]

theorem Ancestor.cons {e : Event T} (hf : ¬ h.known e.new) {a n : Nat} (ha : h.Ancestor a n) :
    History.Ancestor (e :: h) a n := by
  induction ha with
  | self => exact .self _
  | @up p n hp _ ih =>
    refine .up ?_ ih
    rw [parent_cons_ne]
    · exact hp
    · rintro rfl; exact hf (known_of_parent hp)

end Verif.Spec.History

namespace Verif.Api

open Spec SimpleBuilder Store World

variable {K V L : Type} [LinearOrder K] [LinearOrder V] [DecidableEq L]

/-- The layers of the world are those of the specification, and the rollups. Rollups may be
written and not registered. -/
structure LayersSim (w : World K V) (log : History (VTriple K V)) (ids : Nat → Ids K V)
    (hidden : List Nat) (rolled : Nat → Option (Option Nat)) : Prop where
  run : Run true w
  known : ∀ n, w.log.known n ↔ log.known n ∨ n ∈ hidden
  apart : ∀ n, log.known n → n ∉ hidden
  hid : ∀ n, n ∈ hidden ↔ ∃ m, w.log.rolledUp m n
  rolledKnown : ∀ m r, w.log.rolledUp m r → log.known m
  parent : ∀ n, log.known n → w.log.parent n = log.parent n
  parentKnown : ∀ n p, log.parent n = some p → log.known p
  triples : ∀ n, log.known n → ∀ t, w.log.triples n t ↔ log.triples n t
  rolledIs : ∀ n, log.known n → rolled n = (w.store.rollup? n).map w.store.parent?
  rolledOnly : ∀ n, rolled n ≠ none → log.known n
  under : ∀ n p, rolled n = some (some p) → ∃ q, log.parent n = some q ∧ log.Ancestor p q
  ids : ∀ n S, log.known n → Raw w.store n S → ids n = idsOf S
  nodes : ∀ n S, log.known n → Raw w.store n S → NodesOnly S

/-- A builder. -/
structure BuilderSim (w : World K V) (log : History (VTriple K V)) (x : HeldBuilder K V)
    (y : Builder K V) : Prop where
  name : y.name = x.name
  parent : y.parent = x.on.map Prod.fst
  held : ∀ q, x.on = some q → log.known q.1 ∧ q ∈ w.held
  lock : (x.lock = .taken ∧ y.calls = none) ∨ ∃ ops b, x.lock = .open b ∧
    (SimpleBuilder.new x.below).run ops = some b ∧
    (∀ op ∈ ops, IdsKnown x.below op ∧ opCall x.below op ≠ none) ∧
    y.calls = some (ops.filterMap (opCall x.below))

/-- The session `s` is at a point where the world is `w`, and the specification allows the state
`a`. -/
structure Sim (s : Session K V L) (w : World K V) (a : State K V L) : Prop where
  store : w.store = s.store
  cache : w.cache = s.cache
  layers : LayersSim w a.log a.ids a.hidden a.rolled
  handles : List.Forall₂ (fun l n => a.log.known n ∧ (n, l) ∈ w.held) s.layers a.handles
  builders : List.Forall₂ (BuilderSim w a.log) s.builders a.builders
  unborn : ∀ y ∈ a.builders, y.calls ≠ none → ¬ a.log.known y.name ∧ y.name ∉ a.hidden
  distinct : (a.builders.map (·.name)).Nodup
  labels : ∀ l, a.graphs l = (s.labels.get? l).map fun d => (d.layer, d.version)
  keys : s.labels.Keys
  heads : ∀ l n v, a.graphs l = some (some n, v) → a.log.known n
  lost : a.lost = s.lost

namespace LayersSim

variable {w w' : World K V} {log : History (VTriple K V)} {ids : Nat → Ids K V}
  {hidden : List Nat} {rolled : Nat → Option (Option Nat)}

theorem flat (h : LayersSim w log ids hidden rolled) : w.log.noRollupOfRollup := by
  intro n r r' h1 h2
  exact h.apart r (h.rolledKnown _ _ h2) ((h.hid r).2 ⟨n, h1⟩)

theorem has (h : LayersSim w log ids hidden rolled) {n : Nat} (hn : log.known n) :
    w.store.has n = true :=
  (h.run.inv.log.known n).2 ((h.known n).2 (Or.inl hn))

theorem unknown (h : LayersSim w log ids hidden rolled) {n : Nat} :
    w.store.get? n = none ↔ ¬ log.known n ∧ n ∉ hidden := by
  have h1 := h.run.inv.log.known n
  have h2 := h.known n
  have h3 : w.store.get? n = none ↔ ¬ w.store.has n = true := by
    unfold Store.has; cases w.store.get? n <;> simp
  rw [h3, h1, h2, not_or]

theorem named (h : LayersSim w log ids hidden rolled) {n : Nat} (hn : log.known n)
    {l : InternalLayer K V} (hl : (n, l) ∈ w.held) :
    l.name = n ∧ l.parentName = log.parent n := by
  obtain ⟨h1, h2⟩ := (h.run.named h.flat).held _ hl
  refine ⟨h2, ?_⟩
  rw [h1.parentName (h.run.inv.held _ hl).1, h2, h.run.shape.parent, h.parent n hn]

theorem ancestor (h : LayersSim w log ids hidden rolled) {m n : Nat} (hn : log.known n) :
    w.log.Ancestor m n ↔ log.Ancestor m n := by
  constructor
  · intro ha
    induction ha with
    | self => exact .self _
    | @up p n hp _ ih =>
      rw [h.parent _ hn] at hp
      exact .up hp (ih (h.parentKnown _ _ hp))
  · intro ha
    induction ha with
    | self => exact .self _
    | @up p n hp _ ih =>
      refine .up ?_ (ih (h.parentKnown _ _ hp))
      rw [h.parent _ hn]; exact hp

theorem ancestorKnown (h : LayersSim w log ids hidden rolled) {m n : Nat} (hn : log.known n)
    (ha : log.Ancestor m n) : log.known m := by
  induction ha with
  | self => exact hn
  | @up p n hp _ ih => exact ih (h.parentKnown _ _ hp)

theorem underIff (h : LayersSim w log ids hidden rolled) {m n : Nat} (hn : log.known n) :
    (∃ p, w.log.parent n = some p ∧ w.log.Ancestor m p) ↔
      ∃ p, log.parent n = some p ∧ log.Ancestor m p := by
  constructor
  · rintro ⟨p, h1, h2⟩
    rw [h.parent n hn] at h1
    exact ⟨p, h1, (h.ancestor (h.parentKnown _ _ h1)).1 h2⟩
  · rintro ⟨p, h1, h2⟩
    exact ⟨p, by rw [h.parent n hn]; exact h1, (h.ancestor (h.parentKnown _ _ h1)).2 h2⟩

theorem line (h : LayersSim w log ids hidden rolled) {n : Nat} {ns : List Nat}
    (hl : w.log.Line n ns) (hn : log.known n) : log.Line n ns := by
  induction hl with
  | root hp => exact .root (by rw [← h.parent _ hn]; exact hp)
  | @step n p ns hp _ ih =>
    rw [h.parent _ hn] at hp
    exact .step hp (ih (h.parentKnown _ _ hp))

theorem raw (h : LayersSim w log ids hidden rolled) {n : Nat} (hn : log.known n) :
    ∃ S, Raw w.store n S ∧ Reachable S ∧ ids n = idsOf S ∧ NodesOnly S ∧
      ∀ t : VTriple K V, triplesOf S t ↔ log.triples n t := by
  obtain ⟨S, hS, hR, _⟩ := h.run.inv.ok.raw' (h.has hn)
  refine ⟨S, hS, hR, h.ids n S hn hS, h.nodes n S hn hS, ?_⟩
  intro t
  rw [← h.triples n hn]
  exact h.run.inv.log.triples n S hS t

/-- What a layer in hand is. -/
theorem held (h : LayersSim w log ids hidden rolled) {n : Nat} (hn : log.known n)
    {l : InternalLayer K V} (hl : (n, l) ∈ w.held) :
    Reachable l.stack ∧ ids n = idsOf l.stack ∧ NodesOnly l.stack ∧
      (∀ t : VTriple K V, triplesOf l.stack t ↔ log.triples n t) := by
  obtain ⟨hk, S, hS, ha, _⟩ := h.run.inv.held _ hl
  refine ⟨ha.right, ?_, ?_, ?_⟩
  · rw [h.ids n S hn hS]; exact idsOf_congr ha.answers
  · intro g hg
    exact h.nodes n S hn hS g ((ha.same.content g).2 hg)
  · intro t
    rw [← h.triples n hn, ← h.run.inv.log.triples n S hS t]
    exact (ha.same.content _).symm

/-- Nothing changes that has to do with layers. -/
theorem frame (h : LayersSim w log ids hidden rolled) (hr : Run true w')
    (hs : ∀ n, w'.store.get? n = w.store.get? n) (hl : w'.log = w.log) :
    LayersSim w' log ids hidden rolled := by
  have hroll : ∀ n, w'.store.rollup? n = w.store.rollup? n := fun n => by
    unfold Store.rollup?; rw [hs]
  have hpar : w'.store.parent? = w.store.parent? := by
    funext n; unfold Store.parent?; rw [hs]
  have hraw : ∀ n S, Raw w'.store n S → Raw w.store n S := by
    intro n S hR
    refine hR.ext ?_
    intro n e he
    exact ⟨e, by rw [← hs]; exact he, rfl, rfl⟩
  exact {
    run := hr
    known := by rw [hl]; exact h.known
    apart := h.apart
    hid := by rw [hl]; exact h.hid
    rolledKnown := by rw [hl]; exact h.rolledKnown
    parent := by rw [hl]; exact h.parent
    parentKnown := h.parentKnown
    triples := by rw [hl]; exact h.triples
    rolledIs := by intro n hn; rw [hroll, hpar]; exact h.rolledIs n hn
    rolledOnly := h.rolledOnly
    under := h.under
    ids := fun n S hn hR => h.ids n S hn (hraw n S hR)
    nodes := fun n S hn hR => h.nodes n S hn (hraw n S hR) }

/-- A layer is added that is no rollup. -/
theorem add (h : LayersSim w log ids hidden rolled) (hr : Run true w')
    {ev : Event (VTriple K V)} {e : Entry K V} (hev : ∀ a b p, ev ≠ .rollup a b p)
    (hn : w.store.get? ev.new = none) (hs : w'.store = (ev.new, e) :: w.store)
    (hl : w'.log = ev :: w.log) (he : e.rollup = none)
    (hp : ∀ p, ev.parent = some p → log.known p)
    (ht : ∀ t, History.triples (ev :: w.log) ev.new t ↔ History.triples (ev :: log) ev.new t)
    {S : List (LayerData K V)} (hS : Raw w'.store ev.new S) (hN : NodesOnly S) :
    LayersSim w' (ev :: log) (fun n => if n = ev.new then idsOf S else ids n) hidden rolled := by
  obtain ⟨hn1, hn2⟩ := h.unknown.1 hn
  have hroll : ∀ m r, w'.log.rolledUp m r ↔ w.log.rolledUp m r := by
    intro m r
    rw [hl]
    unfold History.rolledUp
    constructor
    · rintro ⟨p, hp⟩
      rcases List.mem_cons.1 hp with e | hp
      · exact absurd e.symm (hev _ _ _)
      · exact ⟨p, hp⟩
    · rintro ⟨p, hp⟩; exact ⟨p, List.mem_cons_of_mem _ hp⟩
  have hne : ∀ {n}, log.known n → n ≠ ev.new := by
    rintro n hk rfl; exact hn1 hk
  have hget : ∀ {n}, n ≠ ev.new → w'.store.get? n = w.store.get? n := by
    intro n hk; rw [hs, get?_cons_ne (Ne.symm hk)]
  have hself : w'.store.get? ev.new = some e := by rw [hs, get?_cons_self]
  have hpar : ∀ {n}, n ≠ ev.new → w'.store.parent? n = w.store.parent? n := by
    intro n hk; unfold Store.parent?; rw [hget hk]
  have hrol : ∀ {n}, n ≠ ev.new → w'.store.rollup? n = w.store.rollup? n := by
    intro n hk; unfold Store.rollup?; rw [hget hk]
  have hraw : ∀ {n S'}, log.known n → Raw w'.store n S' → Raw w.store n S' := by
    intro n S' hk hR
    obtain ⟨R, hR', _⟩ := h.raw hk
    have := hR'.ext (show Ext w.store w'.store by rw [hs]; exact Ext.cons hn e)
    rw [hR.unique this]; exact hR'
  have hcase : ∀ {n}, History.known (ev :: log) n → n = ev.new ∨ (n ≠ ev.new ∧ log.known n) := by
    intro n hk
    rcases History.known_cons.1 hk with hk | hk
    · exact Or.inl hk.symm
    · exact Or.inr ⟨hne hk, hk⟩
  exact {
    run := hr
    known := by
      intro n
      rw [hl, History.known_cons, History.known_cons, h.known]; tauto
    apart := by
      intro n hk
      rcases hcase hk with rfl | ⟨_, hk⟩
      · exact hn2
      · exact h.apart n hk
    hid := by
      intro n
      rw [h.hid]
      constructor
      · rintro ⟨m, hm⟩; exact ⟨m, (hroll m n).2 hm⟩
      · rintro ⟨m, hm⟩; exact ⟨m, (hroll m n).1 hm⟩
    rolledKnown := by
      intro m r hm
      exact History.known_cons.2 (Or.inr (h.rolledKnown m r ((hroll m r).1 hm)))
    parent := by
      intro n hk
      rw [hl]
      rcases hcase hk with rfl | ⟨hx, hk⟩
      · simp [History.parent]
      · rw [History.parent_cons_ne hx, History.parent_cons_ne hx]; exact h.parent n hk
    parentKnown := by
      intro n p hnp
      rw [History.known_cons]
      by_cases hx : n = ev.new
      · subst hx
        simp only [History.parent, if_true] at hnp
        exact Or.inr (hp p hnp)
      · rw [History.parent_cons_ne hx] at hnp
        exact Or.inr (h.parentKnown n p hnp)
    triples := by
      intro n hk t
      rw [hl]
      rcases hcase hk with rfl | ⟨hx, hk⟩
      · exact ht t
      · rw [History.triples_cons_ne hx, History.triples_cons_ne hx]; exact h.triples n hk t
    rolledIs := by
      intro n hk
      rcases hcase hk with rfl | ⟨hx, hk⟩
      · have e1 : rolled ev.new = none := by
          by_contra hc; exact hn1 (h.rolledOnly _ hc)
        have e2 : w'.store.rollup? ev.new = none := by
          unfold Store.rollup?; rw [hself]; exact he
        rw [e1, e2]; rfl
      · rw [h.rolledIs n hk, hrol hx]
        cases hq : w.store.rollup? n with
        | none => rfl
        | some r =>
          have hkr : w.store.has r = true := by
            obtain ⟨A, B, _, hB, _⟩ := h.run.inv.ok.rollup hq
            exact hB.has
          have : r ≠ ev.new := by
            rintro rfl
            rw [Store.has, hn] at hkr; cases hkr
          simp only [Option.map_some]
          rw [hpar this]
    rolledOnly := fun n hx => History.known_cons.2 (Or.inr (h.rolledOnly n hx))
    under := by
      intro n p hx
      obtain ⟨q, h1, h2⟩ := h.under n p hx
      have hk := History.known_of_parent h1
      exact ⟨q, by rw [History.parent_cons_ne (hne hk)]; exact h1, h2.cons hn1⟩
    ids := by
      intro n S' hk hR
      rcases hcase hk with rfl | ⟨hx, hk⟩
      · simp only [if_true]; rw [hR.unique hS]
      · simp only [if_neg hx]; exact h.ids n S' hk (hraw hk hR)
    nodes := by
      intro n S' hk hR
      rcases hcase hk with rfl | ⟨hx, hk⟩
      · rw [hR.unique hS]; exact hN
      · exact h.nodes n S' hk (hraw hk hR) }

/-- A rollup is written and registered. -/
theorem roll (h : LayersSim w log ids hidden rolled) (hr : Run true w') {new n : Nat}
    {e : Entry K V} (hn : w.store.get? new = none) (hk : log.known n)
    (hs : w'.store = registerRollup ((new, e) :: w.store) n new)
    (hl : w'.log = .rollup new n e.parent :: w.log)
    (hu : ∀ p, e.parent = some p → ∃ q, log.parent n = some q ∧ log.Ancestor p q) :
    LayersSim w' log ids (new :: hidden) (fun m => if m = n then some e.parent else rolled m) := by
  obtain ⟨hn1, hn2⟩ := h.unknown.1 hn
  have hne : ∀ {m}, log.known m → m ≠ new := by
    rintro m hk rfl; exact hn1 hk
  have hnn : n ≠ new := hne hk
  have hs' : w'.store = Store.setRollup ((new, e) :: w.store) n new := by
    rw [hs, registerRollup, if_neg hnn]
  have hroll : ∀ m r, w'.log.rolledUp m r ↔ (m = n ∧ r = new) ∨ w.log.rolledUp m r := by
    intro m r
    rw [hl]
    unfold History.rolledUp
    constructor
    · rintro ⟨p, hp⟩
      rcases List.mem_cons.1 hp with e | hp
      · injection e with e1 e2 e3; exact Or.inl ⟨e2, e1⟩
      · exact Or.inr ⟨p, hp⟩
    · rintro (⟨rfl, rfl⟩ | ⟨p, hp⟩)
      · exact ⟨_, List.mem_cons_self ..⟩
      · exact ⟨p, List.mem_cons_of_mem _ hp⟩
  have hx : Ext w.store w'.store := by
    rw [hs']; exact (Ext.cons hn e).trans (Ext.setRollup _ _ _)
  have hraw : ∀ {m S'}, log.known m → Raw w'.store m S' → Raw w.store m S' := by
    intro m S' hk hR
    obtain ⟨R, hR', _⟩ := h.raw hk
    rw [hR.unique (hR'.ext hx)]; exact hR'
  have hpar : ∀ {m}, m ≠ new → w'.store.parent? m = w.store.parent? m := by
    intro m hm
    rw [hs', parent?_setRollup]
    unfold Store.parent?; rw [get?_cons_ne (Ne.symm hm)]
  have hrol : ∀ {m}, m ≠ new → m ≠ n → w'.store.rollup? m = w.store.rollup? m := by
    intro m hm hm'
    unfold Store.rollup?
    rw [hs', get?_setRollup, if_neg hm', get?_cons_ne (Ne.symm hm)]
  have hroln : w'.store.rollup? n = some new := by
    unfold Store.rollup?
    rw [hs', get?_setRollup, if_pos rfl, get?_cons_ne (Ne.symm hnn)]
    obtain ⟨x, hx⟩ := has_iff.1 (h.has hk)
    rw [hx]; rfl
  have hparnew : w'.store.parent? new = e.parent := by
    rw [hs', parent?_setRollup]
    unfold Store.parent?; rw [get?_cons_self]; rfl
  exact {
    run := hr
    known := by
      intro m
      rw [hl, History.known_cons, h.known, List.mem_cons]
      show new = m ∨ _ ↔ _
      constructor
      · rintro (h | h | h)
        · exact Or.inr (Or.inl h.symm)
        · exact Or.inl h
        · exact Or.inr (Or.inr h)
      · rintro (h | h | h)
        · exact Or.inr (Or.inl h)
        · exact Or.inl h.symm
        · exact Or.inr (Or.inr h)
    apart := by
      intro m hm
      rw [List.mem_cons, not_or]
      exact ⟨hne hm, h.apart m hm⟩
    hid := by
      intro m
      rw [List.mem_cons, h.hid]
      constructor
      · rintro (rfl | ⟨x, hx⟩)
        · exact ⟨n, (hroll _ _).2 (Or.inl ⟨rfl, rfl⟩)⟩
        · exact ⟨x, (hroll _ _).2 (Or.inr hx)⟩
      · rintro ⟨x, hx⟩
        rcases (hroll _ _).1 hx with ⟨_, rfl⟩ | hx
        · exact Or.inl rfl
        · exact Or.inr ⟨x, hx⟩
    rolledKnown := by
      intro m r hm
      rcases (hroll _ _).1 hm with ⟨rfl, _⟩ | hm
      · exact hk
      · exact h.rolledKnown m r hm
    parent := by
      intro m hm
      rw [hl, History.parent_cons_ne (e := .rollup new n e.parent) (hne hm)]
      exact h.parent m hm
    parentKnown := h.parentKnown
    triples := by
      intro m hm t
      rw [hl, History.triples_cons_ne (e := .rollup new n e.parent) (hne hm)]
      exact h.triples m hm t
    rolledIs := by
      intro m hm
      by_cases hmn : m = n
      · subst hmn
        simp only [if_true, hroln, Option.map_some, hparnew]
      · simp only [if_neg hmn]
        rw [h.rolledIs m hm, hrol (hne hm) hmn]
        cases hq : w.store.rollup? m with
        | none => rfl
        | some r =>
          have hkr : w.store.has r = true := by
            obtain ⟨A, B, _, hB, _⟩ := h.run.inv.ok.rollup hq
            exact hB.has
          have : r ≠ new := by
            rintro rfl
            rw [Store.has, hn] at hkr; cases hkr
          simp only [Option.map_some]
          rw [hpar this]
    rolledOnly := by
      intro m hx
      by_cases hmn : m = n
      · subst hmn; exact hk
      · simp only [if_neg hmn] at hx; exact h.rolledOnly m hx
    under := by
      intro m p hx
      by_cases hmn : m = n
      · subst hmn
        simp only [if_true, Option.some.injEq] at hx
        exact hu p hx
      · simp only [if_neg hmn] at hx; exact h.under m p hx
    ids := fun m S' hm hR => h.ids m S' hm (hraw hm hR)
    nodes := fun m S' hm hR => h.nodes m S' hm (hraw hm hR) }

end LayersSim


theorem BuilderSim.mono {w w' : World K V} {log log' : History (VTriple K V)}
    {x : HeldBuilder K V} {y : Builder K V} (h : BuilderSim w log x y)
    (hh : ∀ q ∈ w.held, q ∈ w'.held) (hk : ∀ n, log.known n → log'.known n) :
    BuilderSim w' log' x y :=
  { name := h.name
    parent := h.parent
    held := fun q hq => ⟨hk _ (h.held q hq).1, hh _ (h.held q hq).2⟩
    lock := h.lock }

theorem forall₂_mono {α β : Type} {R R' : α → β → Prop} (hR : ∀ a b, R a b → R' a b)
    {as : List α} {bs : List β} (h : List.Forall₂ R as bs) : List.Forall₂ R' as bs :=
  h.imp hR

theorem forall₂_get {α β : Type} {R : α → β → Prop} {as : List α} {bs : List β}
    (h : List.Forall₂ R as bs) : ∀ {i : Nat} {b : β}, bs[i]? = some b →
    ∃ a, as[i]? = some a ∧ R a b := by
  induction h with
  | nil => intro i b hb; simp at hb
  | @cons a b as bs hab _ ih =>
    intro i c hc
    cases i with
    | zero => simp at hc; subst hc; exact ⟨a, by simp, hab⟩
    | succ i => simp at hc; obtain ⟨x, hx, hr⟩ := ih hc; exact ⟨x, by simpa using hx, hr⟩

theorem forall₂_set {α β : Type} {R : α → β → Prop} {as : List α} {bs : List β}
    (h : List.Forall₂ R as bs) {a : α} {b : β} (hab : R a b) : ∀ (i : Nat),
    List.Forall₂ R (as.set i a) (bs.set i b) := by
  induction h with
  | nil => intro i; exact .nil
  | cons h1 h2 ih =>
    intro i
    cases i with
    | zero => exact .cons hab h2
    | succ i => exact .cons h1 (ih i)

theorem forall₂_snoc {α β : Type} {R : α → β → Prop} {as : List α} {bs : List β}
    (h : List.Forall₂ R as bs) {a : α} {b : β} (hab : R a b) :
    List.Forall₂ R (as ++ [a]) (bs ++ [b]) := by
  induction h with
  | nil => exact .cons hab .nil
  | cons h1 _ ih => exact .cons h1 ih

namespace Sim

variable {s : Session K V L} {w w' : World K V} {a : State K V L}

theorem handle (h : Sim s w a) {i n : Nat} (hi : a.handles[i]? = some n) :
    ∃ l, s.layers[i]? = some l ∧ a.log.known n ∧ (n, l) ∈ w.held :=
  forall₂_get h.handles hi

theorem builder (h : Sim s w a) {b : Nat} {y : Builder K V} (hb : a.builders[b]? = some y) :
    ∃ x, s.builders[b]? = some x ∧ BuilderSim w a.log x y :=
  forall₂_get h.builders hb

theorem handlesLength (h : Sim s w a) : s.layers.length = a.handles.length :=
  h.handles.length_eq

theorem buildersLength (h : Sim s w a) : s.builders.length = a.builders.length :=
  h.builders.length_eq

/-- Nothing changes but the cache, and more may be in hand. -/
theorem frame (h : Sim s w a) (hr : Run true w') (hs : w'.store = w.store)
    (hl : w'.log = w.log) (hh : ∀ q ∈ w.held, q ∈ w'.held) :
    Sim { s with cache := w'.cache } w' a :=
  { store := by rw [hs]; exact h.store
    cache := rfl
    layers := h.layers.frame hr (fun n => by rw [hs]) hl
    handles := forall₂_mono (fun _ _ hx => ⟨hx.1, hh _ hx.2⟩) h.handles
    builders := forall₂_mono (fun _ _ hx => hx.mono hh (fun _ hk => hk)) h.builders
    unborn := h.unborn
    distinct := h.distinct
    labels := h.labels
    keys := h.keys
    heads := h.heads
    lost := h.lost }

/-- Cached layers vanish. -/
theorem evict (h : Sim s w a) {c : Cache K V} (hc : ∀ n l, c n = some l → s.cache n = some l) :
    ∃ w', Sim { s with cache := c } w' a ∧ w'.store = w.store ∧ w'.held = w.held ∧
      w'.log = w.log := by
  refine ⟨{ w with cache := c, past := w.seen }, ?_, rfl, rfl, rfl⟩
  exact h.frame (w' := { w with cache := c, past := w.seen })
    (.step h.layers.run (.evict (by rw [h.cache]; exact hc))) rfl rfl (fun _ hq => hq)

/-- Layers in hand. -/
theorem hold (h : Sim s w a) {n : Nat} {l : InternalLayer K V} (hn : a.log.known n)
    (hl : (n, l) ∈ w.held) : Sim { s with layers := s.layers ++ [l] } w (a.hold n) :=
  { store := h.store
    cache := h.cache
    layers := h.layers
    handles := forall₂_snoc h.handles ⟨hn, hl⟩
    builders := h.builders
    unborn := h.unborn
    distinct := h.distinct
    labels := h.labels
    keys := h.keys
    heads := h.heads
    lost := h.lost }

end Sim

/-- The layers that a load has made are put into the cache. -/
theorem cacheAll : ∀ (cs : List (InternalLayer K V)) {w : World K V}, Run true w →
    (∀ l ∈ cs, l ∈ w.loaded) → ∃ w', Run true w' ∧ w'.store = w.store ∧ w'.log = w.log ∧
      w'.held = w.held ∧ w'.cache = cs.foldl Cache.insert w.cache
  | [], w, h, _ => ⟨w, h, rfl, rfl, rfl, rfl⟩
  | l :: cs, w, h, hc => by
    have h1 : Run true { w with cache := w.cache.insert l, past := w.seen } :=
      .step h (.cacheLayer (hc l (List.mem_cons_self ..)))
    obtain ⟨w', h2, h3, h4, h5, h6⟩ := cacheAll cs h1 (fun x hx => hc x (List.mem_cons_of_mem _ hx))
    exact ⟨w', h2, h3, h4, h5, h6⟩

omit [LinearOrder K] [LinearOrder V] in
theorem getLayer_none {st : Store K V} {c : Cache K V} {n : Name} {cs}
    (h : st.getLayer c n = .ok (none, cs)) : cs = [] := by
  unfold Store.getLayer Store.getLayerView at h
  dsimp only at h
  cases hc : c n with
  | some l => rw [hc] at h; cases h
  | none =>
    rw [hc] at h
    dsimp only at h
    split at h
    · rw [Out.bind_eq_ok] at h
      obtain ⟨r, _, h⟩ := h
      rw [Out.bind_eq_ok] at h
      obtain ⟨q, _, h⟩ := h
      cases h
    · cases h; rfl

namespace Sim

variable {s : Session K V L} {w w' : World K V} {a : State K V L}

/-- A layer that is there is loaded. -/
theorem load (h : Sim s w a) {n : Nat} (hn : a.log.known n) (m : Ans K V L) :
    ∃ l w', (∀ k, s.loading n m k = k l { s with cache := w'.cache }) ∧
      Sim { s with cache := w'.cache } w' a ∧ w'.store = w.store ∧ w'.log = w.log ∧
      w'.held = (n, l) :: w.held := by
  obtain ⟨⟨lo, cs⟩, h2, h3⟩ := getLayer_total h.layers.run.inv.ok h.layers.run.inv.cache n
  cases lo with
  | none => exact absurd (h3.2 (h.layers.has hn)) (by simp)
  | some l =>
    have h4 : Run true { w with held := (n, l) :: w.held, loaded := cs ++ w.loaded, past := w.seen } :=
      .step h.layers.run (.load (v := fun _ => ⟨w.store, w.cache⟩) (i := fun _ => 0)
        (fun _ => rfl) (fun _ => Nat.le_refl _) h2)
    obtain ⟨w', h5, h6, h7, h8, h9⟩ := cacheAll cs h4 (fun x hx => List.mem_append_left _ hx)
    refine ⟨l, w', ?_, h.frame h5 h6 h7 ?_, h6, h7, h8⟩
    · intro k
      unfold Session.loading Session.load
      rw [← h.store, ← h.cache, h2, h9]
    · intro q hq
      rw [h8]; exact List.mem_cons_of_mem _ hq

/-- A layer that is not there is not found. -/
theorem loadAbsent (h : Sim s w a) {n : Nat} (hn : ¬ a.log.known n) (hn' : n ∉ a.hidden)
    (m : Ans K V L) (k) : s.loading n m k = (m, s) := by
  obtain ⟨⟨lo, cs⟩, h2, h3⟩ := getLayer_total h.layers.run.inv.ok h.layers.run.inv.cache n
  have hx : ¬ w.store.has n = true := by
    rw [h.layers.run.inv.log.known, h.layers.known, not_or]; exact ⟨hn, hn'⟩
  cases lo with
  | some l => exact absurd (h3.1 rfl) hx
  | none =>
    have := getLayer_none h2
    subst this
    unfold Session.loading Session.load
    rw [← h.store, ← h.cache, h2]
    simp only [List.foldl_nil]
    rw [h.store, h.cache]

/-- A layer is added that is no rollup. -/
theorem add (h : Sim s w a) (hr : Run true w') {ev : Event (VTriple K V)} {e : Entry K V}
    (hev : ∀ a b p, ev ≠ .rollup a b p) (hn : w.store.get? ev.new = none)
    (hb : ∀ y ∈ a.builders, y.calls ≠ none → y.name ≠ ev.new)
    (hs : w'.store = (ev.new, e) :: w.store) (hl : w'.log = ev :: w.log)
    (hh : w'.held = w.held) (hc : w'.cache = w.cache) (he : e.rollup = none)
    (hp : ∀ p, ev.parent = some p → a.log.known p)
    (ht : ∀ t, History.triples (ev :: w.log) ev.new t ↔ History.triples (ev :: a.log) ev.new t)
    {S : List (LayerData K V)} (hS : Raw w'.store ev.new S) (hN : NodesOnly S) :
    Sim { s with store := (ev.new, e) :: s.store } w' (a.add ev (idsOf S)) :=
  have hk : ∀ n, a.log.known n → History.known (ev :: a.log) n :=
    fun n hk => History.known_cons.2 (Or.inr hk)
  have hh' : ∀ q ∈ w.held, q ∈ w'.held := fun q hq => by rw [hh]; exact hq
  { store := by rw [hs, h.store]
    cache := by rw [hc]; exact h.cache
    layers := h.layers.add hr hev hn hs hl he hp ht hS hN
    handles := forall₂_mono (fun _ _ hx => ⟨hk _ hx.1, hh' _ hx.2⟩) h.handles
    builders := forall₂_mono (fun _ _ hx => hx.mono hh' hk) h.builders
    unborn := by
      intro y hy hc
      obtain ⟨h1, h2⟩ := h.unborn y hy hc
      refine ⟨?_, h2⟩
      rintro hkn
      rcases History.known_cons.1 hkn with hx | hx
      · exact hb y hy hc hx.symm
      · exact h1 hx
    distinct := h.distinct
    labels := h.labels
    keys := h.keys
    heads := fun l n v hx => hk _ (h.heads l n v hx)
    lost := h.lost }

/-- A rollup is written and registered. -/
theorem roll (h : Sim s w a) (hr : Run true w') {new n : Nat} {e : Entry K V}
    (hn : w.store.get? new = none) (hb : ∀ y ∈ a.builders, y.name ≠ new) (hk : a.log.known n)
    (hs : w'.store = registerRollup ((new, e) :: w.store) n new)
    (hl : w'.log = .rollup new n e.parent :: w.log) (hh : w'.held = w.held)
    (hu : ∀ p, e.parent = some p → a.Under p n) :
    Sim { s with store := w'.store, cache := w'.cache } w' (a.roll n e.parent new) :=
  have hh' : ∀ q ∈ w.held, q ∈ w'.held := fun q hq => by rw [hh]; exact hq
  { store := rfl
    cache := rfl
    layers := h.layers.roll hr hn hk hs hl hu
    handles := forall₂_mono (fun _ _ hx => ⟨hx.1, hh' _ hx.2⟩) h.handles
    builders := forall₂_mono (fun _ _ hx => hx.mono hh' (fun _ hk => hk)) h.builders
    unborn := by
      intro y hy hc
      obtain ⟨h1, h2⟩ := h.unborn y hy hc
      refine ⟨h1, ?_⟩
      intro hm
      rcases List.mem_cons.1 hm with hx | hx
      · exact hb y hy hx
      · exact h2 hx
    distinct := h.distinct
    labels := h.labels
    keys := h.keys
    heads := h.heads
    lost := h.lost }

/-- A rollup that was there is registered again. -/
theorem rollAgain (h : Sim s w a) (hr : Run true w') (hs : ∀ n, w'.store.get? n = w.store.get? n)
    (hl : w'.log = w.log) (hh : w'.held = w.held) :
    Sim { s with store := w'.store, cache := w'.cache } w' a :=
  have hh' : ∀ q ∈ w.held, q ∈ w'.held := fun q hq => by rw [hh]; exact hq
  { store := rfl
    cache := rfl
    layers := h.layers.frame hr hs hl
    handles := forall₂_mono (fun _ _ hx => ⟨hx.1, hh' _ hx.2⟩) h.handles
    builders := forall₂_mono (fun _ _ hx => hx.mono hh' (fun _ hk => hk)) h.builders
    unborn := h.unborn
    distinct := h.distinct
    labels := h.labels
    keys := h.keys
    heads := h.heads
    lost := h.lost }

/-- The head of a graph changes. -/
theorem setGraph (h : Sim s w a) {l : L} {x : Option (Option Nat × Nat)} {m : LabelMap L Name}
    (hx : ∀ n v, x = some (some n, v) → a.log.known n)
    (hm : ∀ k, m.get? k = if k = l then x.map (fun y => ⟨y.1, y.2⟩) else s.labels.get? k)
    (hk : m.Keys) : Sim { s with labels := m } w (a.setGraph l x) :=
  { store := h.store
    cache := h.cache
    layers := h.layers
    handles := h.handles
    builders := h.builders
    unborn := h.unborn
    distinct := h.distinct
    labels := by
      intro k
      show (if k = l then x else a.graphs k) = _
      dsimp only
      rw [hm k]
      by_cases hkl : k = l
      · rw [if_pos hkl, if_pos hkl]; cases x <;> rfl
      · rw [if_neg hkl, if_neg hkl]; exact h.labels k
    keys := hk
    heads := by
      intro k n v hg
      replace hg : (if k = l then x else a.graphs k) = some (some n, v) := hg
      by_cases hkl : k = l
      · rw [if_pos hkl] at hg; exact hx n v hg
      · rw [if_neg hkl] at hg; exact h.heads k n v hg
    lost := h.lost }

/-- A new name. -/
theorem fresh (h : Sim s w a) {n : Nat} (hn : s.store.get? n = none)
    (hb : ∀ b ∈ s.builders, b.name ≠ n) (hl : n ∉ s.lost) :
    a.Fresh n ∧ w.store.get? n = none := by
  have hw : w.store.get? n = none := by rw [h.store]; exact hn
  obtain ⟨h1, h2⟩ := h.layers.unknown.1 hw
  refine ⟨⟨h1, h2, ?_, by rw [h.lost]; exact hl⟩, hw⟩
  intro y hy
  obtain ⟨i, hi⟩ := List.getElem?_of_mem hy
  obtain ⟨x, hx, hxy⟩ := h.builder hi
  rw [hxy.name]
  exact hb x (List.mem_of_getElem? hx)

/-- A new builder. -/
theorem newBuilder (h : Sim s w a) {x : HeldBuilder K V} {y : Builder K V}
    (hxy : BuilderSim w a.log x y) (hf : a.Fresh y.name) :
    Sim { s with builders := s.builders ++ [x] } w { a with builders := a.builders ++ [y] } :=
  { store := h.store
    cache := h.cache
    layers := h.layers
    handles := h.handles
    builders := forall₂_snoc h.builders hxy
    unborn := by
      intro z hz hc
      rcases List.mem_append.1 hz with hz | hz
      · exact h.unborn z hz hc
      · rw [List.mem_singleton] at hz; subst hz; exact ⟨hf.1, hf.2.1⟩
    distinct := by
      rw [List.map_append, List.nodup_append]
      refine ⟨h.distinct, by simp, ?_⟩
      intro m hm m' hm' e
      rw [List.map_singleton, List.mem_singleton] at hm'
      obtain ⟨z, hz, hzm⟩ := List.mem_map.1 hm
      exact hf.2.2.1 z hz (by rw [hzm, e, hm'])
    labels := h.labels
    keys := h.keys
    heads := h.heads
    lost := h.lost }

/-- A builder changes. -/
theorem setBuilder (h : Sim s w a) {b : Nat} {x' : HeldBuilder K V} {y y' : Builder K V}
    (hb : a.builders[b]? = some y) (hxy : BuilderSim w a.log x' y')
    (hn : y'.name = y.name) (hc : y'.calls ≠ none → y.calls ≠ none) :
    Sim { s with builders := s.builders.set b x' } w (a.setBuilder b y') :=
  { store := h.store
    cache := h.cache
    layers := h.layers
    handles := h.handles
    builders := forall₂_set h.builders hxy b
    unborn := by
      intro z hz hcz
      rcases List.mem_or_eq_of_mem_set hz with hz | rfl
      · exact h.unborn z hz hcz
      · rw [hn]; exact h.unborn y (List.mem_of_getElem? hb) (hc hcz)
    distinct := by
      have : (a.setBuilder b y').builders.map (·.name) = a.builders.map (·.name) := by
        show (a.builders.set b y').map (·.name) = _
        rw [List.map_set, hn]
        apply List.ext_getElem?
        intro i
        rw [List.getElem?_set]
        split
        · rename_i e
          subst e
          rw [List.getElem?_map, hb]
          split
          · rfl
          · rename_i hlt
            rw [List.length_map] at hlt
            exact absurd (List.getElem?_eq_some_iff.1 hb).1 hlt
        · rfl
      rw [this]; exact h.distinct
    labels := h.labels
    keys := h.keys
    heads := h.heads
    lost := h.lost }

end Sim

/-- What a call is to do: the answer is allowed, and the states belong together again. -/
def Simulates (a : State K V L) (c : Req K V L) (r : Ans K V L × Session K V L) : Prop :=
  ∃ w' a', Step a c r.1 a' ∧ Sim r.2 w' a'

/-- The same for a call that is one step. -/
def SimulatesAt (w : World K V) (a : State K V L) (c : Req K V L)
    (r : Ans K V L × Session K V L) : Prop :=
  ∃ a', Step a c r.1 a' ∧ Sim r.2 w a'

theorem SimulatesAt.later {w : World K V} {a : State K V L} {c : Req K V L}
    {r : Ans K V L × Session K V L} (h : SimulatesAt w a c r) : Simulates a c r :=
  ⟨w, h⟩

/-- The beginning. -/
theorem Sim.start {disk : Bool} : Sim ({ disk := disk } : Session K V L) {} {} :=
  { store := rfl
    cache := rfl
    layers := {
      run := .start
      known := by intro n; simp [History.known]
      apart := by intro n hn; obtain ⟨e, he, _⟩ := hn; cases he
      hid := by intro n; simp [History.rolledUp]
      rolledKnown := by intro m r hm; obtain ⟨p, hp⟩ := hm; cases hp
      parent := by intro n _; rfl
      parentKnown := by intro n p hp; cases hp
      triples := by intro n hn; obtain ⟨e, he, _⟩ := hn; cases he
      rolledIs := by intro n hn; obtain ⟨e, he, _⟩ := hn; cases he
      rolledOnly := by intro n hn; exact absurd rfl hn
      under := by intro n p hp; cases hp
      ids := by intro n S hn; obtain ⟨e, he, _⟩ := hn; cases he
      nodes := by intro n S hn; obtain ⟨e, he, _⟩ := hn; cases he }
    handles := .nil
    builders := .nil
    unborn := by intro y hy; cases hy
    distinct := .nil
    labels := by intro l; rfl
    keys := .nil
    heads := by intro l n v hx; cases hx
    lost := rfl }

end Verif.Api
