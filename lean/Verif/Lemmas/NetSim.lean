import Verif.Lemmas.NetGrow
import Verif.Lemmas.Replicate
import Verif.Props.Api

/-!
How the states of several stores and of the specification belong together, and that they still do
after every call.
-/

set_option linter.unusedSectionVars false

namespace Verif.Api

open Spec SimpleBuilder Store World Session

variable {K V L : Type} [LinearOrder K] [LinearOrder V] [DecidableEq L]

/-- Layers and rollups stay. -/
theorem Step.mono {a a' : State K V L} {c : Req K V L} {r : Ans K V L} (h : Step a c r a') :
    (∀ n, a.log.known n → a'.log.known n) ∧ ∀ n, n ∈ a.hidden → n ∈ a'.hidden := by
  have hk : ∀ {e : Event (VTriple K V)} n, a.log.known n → History.known (e :: a.log) n :=
    fun n h => History.known_cons.2 (Or.inr h)
  cases h <;> first
    | exact ⟨fun _ h => h, fun _ h => h⟩
    | exact ⟨hk, fun _ h => h⟩
    | exact ⟨fun _ h => h, fun _ h => List.mem_cons_of_mem _ h⟩

/-- A name is in the store if it is a layer or a rollup. -/
theorem Sim.has {s : Session K V L} {w : World K V} {a : State K V L} (h : Sim s w a) (n : Nat) :
    s.store.has n = true ↔ a.log.known n ∨ n ∈ a.hidden := by
  rw [← h.store, h.layers.run.inv.log.known, h.layers.known]

theorem Sim.get?_none {s : Session K V L} {w : World K V} {a : State K V L} (h : Sim s w a)
    (n : Nat) : s.store.get? n = none ↔ ¬ (a.log.known n ∨ n ∈ a.hidden) := by
  rw [← h.has]
  unfold Store.has
  cases s.store.get? n <;> simp

/-- Builders that are open have names that are not used yet. -/
theorem Sim.unused {s : Session K V L} {w : World K V} {a : State K V L} (h : Sim s w a)
    {x : HeldBuilder K V} (hx : x ∈ s.builders) (hl : x.lock ≠ .taken) :
    s.store.get? x.name = none := by
  obtain ⟨i, hi⟩ := List.getElem?_of_mem hx
  have : ∃ y, a.builders[i]? = some y := by
    have h1 := (List.getElem?_eq_some_iff.1 hi).1
    rw [h.buildersLength] at h1
    exact ⟨_, List.getElem?_eq_getElem h1⟩
  obtain ⟨y, hy⟩ := this
  obtain ⟨x', hx', hb⟩ := h.builder hy
  rw [hi] at hx'
  cases hx'
  have hc : y.calls ≠ none := by
    rcases hb.lock with ⟨h1, _⟩ | ⟨_, _, _, _, _, h1⟩
    · exact absurd h1 hl
    · rw [h1]; simp
  obtain ⟨h1, h2⟩ := h.unborn y (List.mem_of_getElem? hy) hc
  rw [h.get?_none, ← hb.name, not_or]
  exact ⟨h1, h2⟩

end Verif.Api

namespace Verif.Net

open Spec SimpleBuilder Store World

variable {K V L : Type} [LinearOrder K] [LinearOrder V] [DecidableEq L]

theorem copy_refl (e : Entry K V) : Copy e e := ⟨rfl, rfl⟩
theorem copy_symm {e e' : Entry K V} (h : Copy e e') : Copy e' e := ⟨h.1.symm, h.2.symm⟩
theorem copy_trans {e e' e'' : Entry K V} (h : Copy e e') (h' : Copy e' e'') : Copy e e'' :=
  ⟨h'.1.trans h.1, h'.2.trans h.2⟩

/-- A store of the model. -/
abbrev Stores.at (N : Stores K V L) (i : Nat) : Store K V := (N.stores i).store

/-- A pack and its specification: what is in it is in a store, too. -/
def PackSim (N : Stores K V L) (A : State K V L) (P : Pack K V) (X : Shipment K V) : Prop :=
  ∀ n, (P.get? n = none ∧ X n = none) ∨
    ∃ e x i S e', P.get? n = some e ∧ X n = some x ∧ e.rollup = none ∧ A.has i n ∧
      (N.at i).get? n = some e' ∧ Copy e' e ∧ Raw (N.at i) n S ∧ x.parent = e.parent ∧
      x.ids = Api.idsOf S ∧ ∀ t, x.triples t ↔ Api.triplesOf S t

/-- The states belong together. -/
structure NetSim (N : Stores K V L) (A : State K V L) : Prop where
  sims : ∀ i, ∃ w, Api.Sim (N.stores i) w (A.stores i)
  agree : ∀ i j n e e', (N.at i).get? n = some e → (N.at j).get? n = some e' → Copy e e'
  kinds : ∀ i j n, A.has i n → n ∉ (A.stores j).hidden
  unborn : ∀ i j, ∀ x ∈ (N.stores i).builders, x.lock ≠ .taken → (N.at j).get? x.name = none
  apart : ∀ i j, i ≠ j → ∀ x ∈ (N.stores i).builders, ∀ y ∈ (N.stores j).builders, x.name ≠ y.name
  packs : List.Forall₂ (PackSim N A) N.packs A.packs

theorem NetSim.start {disk : Nat → Bool} : NetSim (.new disk : Stores K V L) {} :=
  { sims := fun _ => ⟨_, Api.Sim.start⟩
    agree := by intro i j n e e' h; cases h
    kinds := by intro i j n h; obtain ⟨e, he, _⟩ := h; cases he
    unborn := by intro i j x hx; cases hx
    apart := by intro i j _ x hx; cases hx
    packs := .nil }

variable {N N' : Stores K V L} {A A' : State K V L}

theorem PackSim.mono {P : Pack K V} {X : Shipment K V} (h : PackSim N A P X)
    (h1 : ∀ i, Ext (N.at i) (N'.at i)) (h2 : ∀ i n, A.has i n → A'.has i n) :
    PackSim N' A' P X := by
  intro n
  rcases h n with h | ⟨e, x, i, S, e', k1, k2, k3, k4, k5, k6, k7, k8⟩
  · exact Or.inl h
  · obtain ⟨e'', g1, g2, g3⟩ := h1 i n e' k5
    refine Or.inr ⟨e, x, i, S, e'', k1, k2, k3, h2 i n k4, g1, ?_, k7.ext (h1 i), k8⟩
    exact ⟨by rw [g2]; exact k6.1, by rw [g3]; exact k6.2⟩

/-- Every layer of the store is in one of the stores. -/
def Within (N : Stores K V L) (st : Store K V) : Prop :=
  ∀ n e, st.get? n = some e → ∃ i e', (N.at i).get? n = some e' ∧ Copy e' e

theorem within (N : Stores K V L) (i : Nat) : Within N (N.at i) :=
  fun _ e he => ⟨i, e, he, copy_refl e⟩

/-- The layers below a layer are the same in all stores. -/
theorem NetSim.raw (h : NetSim N A) {st : Store K V} (hw : Within N st)
    (hc : ∀ m p, st.parent? m = some p → st.has p = true) {i : Nat} {n : Name}
    {S : List (LayerData K V)} (hS : Raw (N.at i) n S) (hn : st.has n = true) : Raw st n S := by
  have key : ∀ {n : Name} {e : Entry K V}, (N.at i).get? n = some e → st.has n = true →
      ∃ e', st.get? n = some e' ∧ Copy e e' := by
    intro n e he hn
    obtain ⟨e', he'⟩ := has_iff.1 hn
    obtain ⟨j, e'', h1, h2⟩ := hw n e' he'
    exact ⟨e', he', copy_trans (h.agree i j n e e'' he h1) h2⟩
  induction hS with
  | @base n e g1 g2 =>
    obtain ⟨e', k1, k2, k3⟩ := key g1 hn
    rw [← k3]
    exact .base k1 (k2.trans g2)
  | @child n e p S g1 g2 g3 ih =>
    obtain ⟨e', k1, k2, k3⟩ := key g1 hn
    rw [← k3]
    refine .child k1 (k2.trans g2) (ih (hc n p ?_))
    simp [parent?, k1, k2, g2]

theorem NetSim.closed (h : NetSim N A) (i : Nat) (m p : Name) (hp : (N.at i).parent? m = some p) :
    (N.at i).has p = true := by
  obtain ⟨w, hw⟩ := h.sims i
  rw [Stores.at, ← hw.store] at hp ⊢
  exact hw.layers.run.parent_has hp

/-- A name stands for the same layer in all stores. -/
theorem NetSim.consistent (h : NetSim N A) : A.Consistent := by
  intro i j n hi hj
  obtain ⟨wi, si⟩ := h.sims i
  obtain ⟨wj, sj⟩ := h.sims j
  obtain ⟨S, i1, _, i2, _, i3⟩ := si.layers.raw hi
  obtain ⟨S', j1, _, j2, _, j3⟩ := sj.layers.raw hj
  have hasj : (N.at j).has n = true := (sj.has n).2 (Or.inl hj)
  have hS : Raw (N.at j) n S :=
    h.raw (i := i) (within N j) (h.closed j) (by rw [si.store] at i1; exact i1) hasj
  have : S' = S := by
    rw [sj.store] at j1
    exact j1.unique hS
  subst this
  unfold State.layer
  have e1 : (A.stores i).log.parent n = (A.stores j).log.parent n := by
    rw [← si.layers.parent n hi, ← sj.layers.parent n hj, ← si.layers.run.shape.parent,
      ← sj.layers.run.shape.parent, si.store, sj.store]
    obtain ⟨e, he⟩ := has_iff.1 ((si.has n).2 (Or.inl hi))
    obtain ⟨e', he'⟩ := has_iff.1 hasj
    have := (h.agree i j n e e' he he').1
    simp [parent?, he, he', this]
  have e2 : (A.stores i).log.triples n = (A.stores j).log.triples n := by
    funext t
    exact propext ((i3 t).symm.trans (j3 t))
  rw [e1, e2, i2, j2]

/-! ### A call on one store -/

theorem set_at (N : Stores K V L) (i : Nat) (s : Api.Session K V L) :
    (N.set i s).stores i = s := by simp [Stores.set]

theorem set_ne (N : Stores K V L) {i j : Nat} (s : Api.Session K V L) (h : j ≠ i) :
    (N.set i s).stores j = N.stores j := by simp [Stores.set, h]

theorem aset_at (A : State K V L) (i : Nat) (s : Api.State K V L) :
    (A.set i s).stores i = s := by simp [State.set]

theorem aset_ne (A : State K V L) {i j : Nat} (s : Api.State K V L) (h : j ≠ i) :
    (A.set i s).stores j = A.stores j := by simp [State.set, h]

/-- One of the stores has changed. -/
theorem NetSim.change (h : NetSim N A) {i : Nat} {s : Api.Session K V L} {a : Api.State K V L}
    {w : World K V} (hs : Api.Sim s w a) (hx : Ext (N.at i) s.store)
    (hk : ∀ n, A.has i n → a.log.known n)
    (hag : ∀ j, j ≠ i → ∀ n e e', s.store.get? n = some e → (N.at j).get? n = some e' → Copy e e')
    (hk1 : ∀ j, j ≠ i → ∀ n, a.log.known n → n ∉ (A.stores j).hidden)
    (hk2 : ∀ j, j ≠ i → ∀ n, A.has j n → n ∉ a.hidden)
    (hb1 : ∀ j, j ≠ i → ∀ x ∈ s.builders, x.lock ≠ .taken → (N.at j).get? x.name = none)
    (hb2 : ∀ j, j ≠ i → ∀ x ∈ (N.stores j).builders, x.lock ≠ .taken → s.store.get? x.name = none)
    (hb3 : ∀ j, j ≠ i → ∀ x ∈ s.builders, ∀ y ∈ (N.stores j).builders, x.name ≠ y.name) :
    NetSim (N.set i s) (A.set i a) := by
  have sims : ∀ j, ∃ w, Api.Sim ((N.set i s).stores j) w ((A.set i a).stores j) := by
    intro j
    by_cases hj : j = i
    · subst hj; rw [set_at, aset_at]; exact ⟨w, hs⟩
    · rw [set_ne N s hj, aset_ne A a hj]; exact h.sims j
  exact {
    sims := sims
    agree := by
      intro j k n e e' h1 h2
      unfold Stores.at at h1 h2
      by_cases hj : j = i <;> by_cases hk : k = i
      · subst hj; subst hk; rw [h1] at h2; cases h2; exact copy_refl _
      · subst hj; rw [set_at] at h1; rw [set_ne N s hk] at h2; exact hag k hk n e e' h1 h2
      · subst hk; rw [set_at] at h2; rw [set_ne N s hj] at h1
        exact copy_symm (hag j hj n e' e h2 h1)
      · rw [set_ne N s hk] at h2; rw [set_ne N s hj] at h1; exact h.agree j k n e e' h1 h2
    kinds := by
      intro j k n h1
      unfold State.has at h1
      by_cases hj : j = i <;> by_cases hk : k = i
      · subst hj; subst hk; rw [aset_at] at h1 ⊢; exact hs.layers.apart n h1
      · subst hj; rw [aset_at] at h1; rw [aset_ne A a hk]; exact hk1 k hk n h1
      · subst hk; rw [aset_ne A a hj] at h1; rw [aset_at]; exact hk2 j hj n h1
      · rw [aset_ne A a hj] at h1; rw [aset_ne A a hk]; exact h.kinds j k n h1
    unborn := by
      intro j k x h1 h2
      unfold Stores.at
      by_cases hj : j = i <;> by_cases hk : k = i
      · subst hj; subst hk; rw [set_at] at h1 ⊢; exact hs.unused h1 h2
      · subst hj; rw [set_at] at h1; rw [set_ne N s hk]; exact hb1 k hk x h1 h2
      · subst hk; rw [set_ne N s hj] at h1; rw [set_at]; exact hb2 j hj x h1 h2
      · rw [set_ne N s hj] at h1; rw [set_ne N s hk]; exact h.unborn j k x h1 h2
    apart := by
      intro j k hjk x h1 y h2
      by_cases hj : j = i <;> by_cases hk : k = i
      · exact absurd (hj.trans hk.symm) hjk
      · subst hj; rw [set_at] at h1; rw [set_ne N s hk] at h2; exact hb3 k hk x h1 y h2
      · subst hk; rw [set_ne N s hj] at h1; rw [set_at] at h2
        exact Ne.symm (hb3 j hj y h2 x h1)
      · rw [set_ne N s hj] at h1; rw [set_ne N s hk] at h2; exact h.apart j k hjk x h1 y h2
    packs := by
      refine h.packs.imp fun P X hP => hP.mono ?_ ?_
      · intro j
        unfold Stores.at
        by_cases hj : j = i
        · subst hj; rw [set_at]; exact hx
        · rw [set_ne N s hj]; exact Ext.refl _
      · intro j n
        unfold State.has
        by_cases hj : j = i
        · subst hj; rw [aset_at]; exact hk n
        · rw [aset_ne A a hj]; exact id }

/-- What a call is to do. -/
def Simulates (A : State K V L) (c : Req K V L) (r : Ans K V L × Stores K V L) : Prop :=
  ∃ A', Step A c r.1 A' ∧ NetSim r.2 A'

theorem NetSim.on (h : NetSim N A) {ch : Choice K V L} (hch : ch.Possible N) {i : Nat}
    {c : Api.Req K V L} (hc : Api.InContract (A.stores i) c) :
    Simulates A (.on i c) (N.call ch (.on i c)) := by
  obtain ⟨w, hs⟩ := h.sims i
  obtain ⟨w', a, h1, h2⟩ := hs.call (hch.call i) hc
  obtain ⟨m1, m2⟩ := h1.mono
  have hg : Api.Grow ch.call.new (N.stores i) ((N.stores i).call ch.call c).2 :=
    Api.Grow.call ⟨(hch.call i).new.1, fun x hx hl => h.unborn i i x hx hl⟩ c
  show Simulates A (.on i c)
    (.said ((N.stores i).call ch.call c).1, N.set i ((N.stores i).call ch.call c).2)
  generalize (N.stores i).call ch.call c = rs at h1 h2 hg
  obtain ⟨r, s⟩ := rs
  dsimp only at h1 h2 hg
  -- what is new is nowhere else
  have hnew : ∀ j, j ≠ i → ∀ n, s.store.has n = true →
      (N.at i).has n = true ∨ (N.at j).get? n = none := by
    intro j hj n hn
    rcases hg.names n hn with h3 | rfl | ⟨x, hx, rfl, hl⟩
    · exact Or.inl h3
    · exact Or.inr (hch.call j).new.1
    · exact Or.inr (h.unborn i j x hx hl)
  have hknown : ∀ n, a.log.known n → (N.at i).has n = true → A.has i n := by
    intro n h3 h4
    rcases (hs.has n).1 h4 with h5 | h5
    · exact h5
    · exact absurd (m2 n h5) (h2.layers.apart n h3)
  have hno : ∀ j n, (N.at j).get? n = none → ¬ (A.has j n ∨ n ∈ (A.stores j).hidden) := by
    intro j n h3
    obtain ⟨wj, sj⟩ := h.sims j
    exact (sj.get?_none n).1 h3
  refine ⟨A.set i a, .on h1 ?_, h.change h2 hg.ext m1 ?_ ?_ ?_ ?_ ?_ ?_⟩
  · intro n hn
    by_cases hi : A.has i n
    · exact Or.inl hi
    · refine Or.inr fun j hj => ?_
      by_cases hji : j = i
      · subst hji; exact hi hj
      · rcases hnew j hji n ((h2.has n).2 (Or.inl hn)) with h3 | h3
        · exact hi (hknown n hn h3)
        · exact hno j n h3 (Or.inl hj)
  · intro j hj n e e' h3 h4
    rcases hnew j hj n (by simp [Store.has, h3]) with h5 | h5
    · obtain ⟨e0, h6⟩ := has_iff.1 h5
      obtain ⟨e1, h7, h8, h9⟩ := hg.ext n e0 h6
      rw [h3] at h7
      cases h7
      exact copy_trans ⟨h8.symm, h9.symm⟩ (h.agree i j n e0 e' h6 h4)
    · rw [h5] at h4; cases h4
  · intro j hj n h3 h4
    rcases hnew j hj n ((h2.has n).2 (Or.inl h3)) with h5 | h5
    · exact h.kinds i j n (hknown n h3 h5) h4
    · exact hno j n h5 (Or.inr h4)
  · intro j hj n h3 h4
    rcases hnew j hj n ((h2.has n).2 (Or.inr h4)) with h5 | h5
    · rcases (hs.has n).1 h5 with h6 | h6
      · exact h2.layers.apart n (m1 n h6) h4
      · exact h.kinds j i n h3 h6
    · exact hno j n h5 (Or.inl h3)
  · intro j hj x hx hl
    rcases hg.builders x hx with h3 | ⟨y, hy, h3, h4⟩
    · rw [h3]; exact (hch.call j).new.1
    · rw [← h3]; exact h.unborn i j y hy (h4 hl)
  · intro j hj x hx hl
    cases hgx : s.store.get? x.name with
    | none => rfl
    | some e =>
      exfalso
      rcases hg.names x.name (by simp [Store.has, hgx]) with h3 | h3 | ⟨y, hy, h3, _⟩
      · have := h.unborn j i x hx hl
        simp [Store.has, this] at h3
      · exact (hch.call j).new.2 x hx h3
      · exact h.apart i j (Ne.symm hj) y hy x hx h3
  · intro j hj x hx y hy
    rcases hg.builders x hx with h3 | ⟨z, hz, h3, _⟩
    · rw [h3]; exact Ne.symm ((hch.call j).new.2 y hy)
    · rw [← h3]; exact h.apart i j (Ne.symm hj) z hz y hy

/-! ### Packs -/

omit [LinearOrder K] [LinearOrder V] in
theorem packGet_cons (n m : Name) (e : Entry K V) (P : Pack K V) :
    Pack.get? ((n, e) :: P) m = if n = m then some e else Pack.get? P m := by
  unfold Pack.get?
  rw [List.find?_cons]
  by_cases h : n = m <;> simp [h]

/-- What is in a pack. -/
theorem packLayers_some {st : Store K V} : ∀ {ns : List Name}, (∀ n ∈ ns, st.has n = true) →
    ∃ P, packLayers st ns = some P ∧ ∀ n, Pack.get? P n =
      if n ∈ ns then (st.get? n).map (fun e => { parent := e.parent, data := e.data }) else none
  | [], _ => ⟨[], rfl, fun n => by simp [Pack.get?]⟩
  | n :: ns, h => by
    obtain ⟨P, h1, h2⟩ := packLayers_some (fun m hm => h m (List.mem_cons_of_mem _ hm))
    obtain ⟨e, he⟩ := has_iff.1 (h n (List.mem_cons_self ..))
    refine ⟨(n, { parent := e.parent, data := e.data }) :: P, ?_, ?_⟩
    · simp [packLayers, packLayer, he, h1]
    · intro m
      rw [packGet_cons, h2]
      by_cases hm : n = m
      · subst hm; simp [he]
      · simp [hm, Ne.symm hm]

omit [LinearOrder K] [LinearOrder V] in
theorem packLayers_none {st : Store K V} : ∀ {ns : List Name}, (∃ n ∈ ns, st.get? n = none) →
    packLayers st ns = none
  | [], h => by obtain ⟨n, hn, _⟩ := h; cases hn
  | n :: ns, h => by
    obtain ⟨m, hm, hg⟩ := h
    rcases List.mem_cons.1 hm with rfl | hm
    · simp [packLayers, packLayer, hg]
    · have := packLayers_none ⟨m, hm, hg⟩
      unfold packLayers
      rw [this]
      cases packLayer st n <;> rfl

theorem NetSim.pack (h : NetSim N A) {ch : Choice K V L} {i : Nat} {ns : List Nat}
    (hc : ∀ n ∈ ns, n ∉ (A.stores i).hidden) :
    Simulates A (.pack i ns) (N.call ch (.pack i ns)) := by
  obtain ⟨w, hs⟩ := h.sims i
  by_cases hk : ∀ n ∈ ns, A.has i n
  · obtain ⟨P, h1, h2⟩ := packLayers_some (st := (N.stores i).store) (ns := ns)
      (fun n hn => (hs.has n).2 (Or.inl (hk n hn)))
    simp only [Stores.call, h1]
    have hl : N.packs.length = A.packs.length := h.packs.length_eq
    refine ⟨{ A with packs := A.packs ++ [fun n => if n ∈ ns then some (A.layer i n) else none] },
      by rw [hl]; exact .pack hk,
      { sims := h.sims, agree := h.agree, kinds := h.kinds, unborn := h.unborn, apart := h.apart
        packs := ?_ }⟩
    refine Api.forall₂_snoc (h.packs.imp fun P X hP => hP.mono (fun _ => Ext.refl _)
      (fun _ _ h => h)) ?_
    intro n
    rw [h2]
    by_cases hn : n ∈ ns
    · obtain ⟨S, k1, _, k2, _, k3⟩ := hs.layers.raw (hk n hn)
      obtain ⟨e, he⟩ := has_iff.1 ((hs.has n).2 (Or.inl (hk n hn)))
      rw [hs.store] at k1
      refine Or.inr ⟨{ parent := e.parent, data := e.data }, A.layer i n, i, S, e, ?_, ?_, rfl, hk n hn,
        he, ⟨rfl, rfl⟩, k1, ?_, k2, fun t => (k3 t).symm⟩
      · simp [hn, he]
      · simp [hn]
      · show (A.stores i).log.parent n = e.parent
        rw [← hs.layers.parent n (hk n hn), ← hs.layers.run.shape.parent, hs.store]
        simp [parent?, he]
    · exact Or.inl (by simp [hn])
  · have hk : ∃ n ∈ ns, ¬ A.has i n := by
      by_contra hx
      exact hk fun n hn => by
        by_contra hy
        exact hx ⟨n, hn, hy⟩
    obtain ⟨n, hn, hx⟩ := hk
    have : packLayers (N.stores i).store ns = none :=
      packLayers_none ⟨n, hn, (hs.get?_none n).2 (not_or.2 ⟨hx, hc n hn⟩)⟩
    simp only [Stores.call, this]
    exact ⟨A, .packFailed ⟨n, hn, hx⟩, h⟩

theorem mem_listing (n : Name) (q : Option Name) : ∀ (P : Pack K V),
    (n, q) ∈ listing P ↔ ∃ e, P.get? n = some e ∧ e.parent = q
  | [] => by simp [listing, Pack.get?]
  | (m, e) :: P => by
    have ih := mem_listing n q P
    unfold listing at ih ⊢
    rw [List.foldr_cons, List.mem_cons, List.mem_filter, ih, packGet_cons]
    by_cases h : m = n
    · subst h
      simp [eq_comm]
    · simp [h, Ne.symm h]

omit [LinearOrder K] [LinearOrder V] in
theorem listing_nodup : ∀ (P : Pack K V), ((listing P).map Prod.fst).Nodup
  | [] => .nil
  | (m, e) :: P => by
    have ih := listing_nodup P
    unfold listing at ih ⊢
    rw [List.foldr_cons, List.map_cons, List.nodup_cons]
    constructor
    · rw [List.mem_map]
      rintro ⟨⟨a, b⟩, h1, rfl⟩
      rw [List.mem_filter] at h1
      simp at h1
    · exact ih.sublist (List.Sublist.map _ List.filter_sublist)

theorem NetSim.parents (h : NetSim N A) {ch : Choice K V L} (hch : ch.Possible N) {p : Nat}
    (hc : ∃ X, A.packs[p]? = some X) : Simulates A (.parents p) (N.call ch (.parents p)) := by
  obtain ⟨X, hX⟩ := hc
  obtain ⟨P, hP, hPX⟩ := Api.forall₂_get h.packs hX
  simp only [Stores.call, hP]
  have hp := hch.parents (listing P)
  refine ⟨A, .parents hX ?_ ?_, h⟩
  · exact ((hp.map Prod.fst).nodup_iff).2 (listing_nodup P)
  · intro n q
    rw [hp.mem_iff, mem_listing]
    rcases hPX n with ⟨h1, h2⟩ | ⟨e, x, _, _, _, h1, h2, _, _, _, _, _, h3, _⟩
    · simp [h1, h2]
    · simp [h1, h2, h3]

/-! ### Importing -/

/-- The parent of a layer in a pack, if it is asked for, comes first. -/
theorem NetSim.ready (h : NetSim N A) {P : Pack K V} {X : Shipment K V} (hP : PackSim N A P X)
    {ns : List Name} {i : Nat} {n : Name} {S : List (LayerData K V)} (hS : Raw (N.at i) n S)
    (hn : n ∈ ns) : ∃ m ∈ ns, ∀ p, P.parent? m = some p → p ∉ ns := by
  have key : ∀ {n : Name} {e : Entry K V} {p : Name}, (N.at i).get? n = some e →
      P.parent? n = some p → e.parent = some p := by
    intro n e p he hp
    unfold Pack.parent? at hp
    rcases hP n with ⟨h1, _⟩ | ⟨e1, x, j, _, e2, h1, _, _, _, h2, h3, _⟩
    · simp [h1] at hp
    · rw [h1] at hp
      have h4 := (h.agree i j n e e2 he h2).1
      rw [← h4, ← h3.1]
      exact hp
  induction hS with
  | @base n e g1 g2 =>
    refine ⟨n, hn, fun p hp => ?_⟩
    rw [key g1 hp] at g2; cases g2
  | @child n e p S g1 g2 g3 ih =>
    by_cases hp : p ∈ ns
    · exact ih hp
    · refine ⟨n, hn, fun q hq => ?_⟩
      have := key g1 hq
      rw [g2] at this
      cases this
      exact hp

/-- A layer has been imported. -/
def brought (w : World K V) (n : Name) (e : Entry K V) (T : VTriple K V → Prop) : World K V :=
  { w with store := (n, e) :: w.store
           past := w.seen
           log := .imported n e.parent T :: w.log }

/-- One layer. -/
theorem NetSim.importOne (h : NetSim N A) {P : Pack K V} {X : Shipment K V} (hP : PackSim N A P X)
    {s : Api.Session K V L} {w : World K V} {a : Api.State K V L} (hs : Api.Sim s w a)
    (hw : Within N s.store) {n : Name} {e : Entry K V} (he : P.get? n = some e)
    (hn : s.store.get? n = none) (hb : ∀ x ∈ s.builders, x.lock ≠ .taken → x.name ≠ n)
    (hp : ∀ p, e.parent = some p → a.log.known p) :
    (∃ w', World.Later true w w' ∧
      Api.Sim { s with store := (n, e) :: s.store } w' (receive X a n)) ∧
      Within N ((n, e) :: s.store) := by
  rcases hP n with ⟨h1, _⟩ | ⟨e1, x, i, S, e2, h1, h2, h3, h4, h5, h6, h7, h8, h9, h10⟩
  · rw [he] at h1; cases h1
  rw [he] at h1
  cases h1
  have hwi : Within N ((n, e) :: s.store) := by
    intro m e' hm
    rw [Store.get?] at hm
    split at hm
    · rename_i hx
      cases hm
      subst hx
      exact ⟨i, e2, h5, h6⟩
    · exact hw m e' hm
  refine ⟨?_, hwi⟩
  obtain ⟨u, hu⟩ := h.sims i
  have h7u : Raw u.store n S := by rw [hu.store]; exact h7
  have h5u : u.store.get? n = some e2 := by rw [hu.store]; exact h5
  have hR : Reachable S ∧ Api.NodesOnly S := by
    obtain ⟨S', k1, k2, _, k3, _⟩ := hu.layers.raw h4
    rw [k1.unique h7u] at k2 k3
    exact ⟨k2, k3⟩
  have hclosed : ∀ m p, s.store.parent? m = some p → s.store.has p = true := by
    intro m p
    rw [← hs.store]
    exact hs.layers.run.parent_has
  -- the stack below
  obtain ⟨S0, hS0, hbelow⟩ : ∃ S0, S = e.data :: S0 ∧ Below s.store e S0 := by
    cases h7 with
    | @base n e' g1 g2 =>
      have e1 : e' = e2 := by rw [h5] at g1; exact (Option.some.inj g1).symm
      subst e1
      have := hu.layers.run.inv.ok.own h5u h7u
      refine ⟨[], by rw [h6.2]; simpa using this, ?_⟩
      have : e.parent = none := h6.1.trans g2
      simp [Below, this]
    | @child n e' p S' g1 g2 g3 =>
      have e1 : e' = e2 := by rw [h5] at g1; exact (Option.some.inj g1).symm
      subst e1
      have := hu.layers.run.inv.ok.own h5u h7u
      have hpar : e.parent = some p := h6.1.trans g2
      refine ⟨S', by rw [h6.2]; simpa using this, ?_⟩
      have hhas : s.store.has p = true := (hs.has p).2 (Or.inl (hp p hpar))
      have := h.raw hw hclosed g3 hhas
      simpa [Below, hpar] using this
  subst hS0
  have hnr : ∀ o, ¬ u.log.rolledUp o n :=
    fun o ho => hu.layers.apart n h4 ((hu.layers.hid n).2 ⟨o, ho⟩)
  have hT : ∀ t, x.triples t ↔ Stack.valueTripleExists (e.data :: S0) t = some true := by
    intro t
    obtain ⟨Ps, Ns, hg⟩ := hR.1.good
    rw [h10]
    exact (valueTripleExists_iff hg t).symm
  have hstep : World.Step true w (brought w n e x.triples) := by
    refine .importLayer (by rw [hs.store]; exact hn) h3 (by rw [hs.store]; exact hbelow) hR.1 ?_ ?_ hT
    · have := hu.layers.run.forms.store n e2 h5u
      unfold Entry.Form at this ⊢
      rw [h6.1, h6.2]; exact this
    · rw [h6.2]
      exact hu.layers.run.plain.store n e2 h5u hnr
  have hraw : Raw ((n, e) :: w.store) n (e.data :: S0) := by
    rw [hs.store]
    refine h.raw hwi ?_ h7 (by simp [Store.has, get?_cons_self])
    intro m p hm
    have hp' : s.store.has p = true := by
      unfold Store.parent? at hm
      rw [Store.get?] at hm
      split at hm
      · exact (hs.has p).2 (Or.inl (hp p hm))
      · exact hclosed m p hm
    unfold Store.has at hp' ⊢
    rw [Store.get?]
    split
    · rfl
    · exact hp'
  have := hs.add (w' := brought w n e x.triples) (ev := .imported n e.parent x.triples) (e := e)
    (.step hs.layers.run hstep) (by intros; simp) (by rw [hs.store]; exact hn) ?_ rfl rfl rfl rfl h3
    hp (by intro t; simp [History.triples]) hraw hR.2
  · refine ⟨brought w n e x.triples, .step .now hstep, ?_⟩
    have e1 : receive X a n = a.add (.imported n e.parent x.triples) (Api.idsOf (e.data :: S0)) := by
      unfold receive
      rw [h2]
      simp only [h8, h9]
    rw [e1]
    exact this
  · intro y hy hc hyn
    obtain ⟨k, hk⟩ := List.getElem?_of_mem hy
    obtain ⟨z, hz, hzy⟩ := hs.builder hk
    refine hb z (List.mem_of_getElem? hz) ?_ (hzy.name.symm.trans hyn)
    rcases hzy.lock with ⟨_, k2⟩ | ⟨_, _, k2, _⟩
    · exact absurd k2 hc
    · rw [k2]; simp

/-- All of them. -/
theorem NetSim.importAll (h : NetSim N A) {P : Pack K V} {X : Shipment K V} (hP : PackSim N A P X) :
    ∀ (k : Nat) (ns : List Name) (s : Api.Session K V L) (w : World K V) (a : Api.State K V L),
    ns.length ≤ k → Api.Sim s w a → Within N s.store →
    (∀ n ∈ ns, ∃ e, P.get? n = some e ∧ s.store.get? n = none ∧
      ∀ p, e.parent = some p → p ∈ ns ∨ a.log.known p) →
    (∀ x ∈ s.builders, x.lock ≠ .taken → ∀ n ∈ ns, x.name ≠ n) →
    ∃ (ms : List Name) (w' : World K V), ms.Nodup ∧ (∀ n, n ∈ ms ↔ n ∈ ns) ∧
      Api.Sim { s with store := receiveAll P k ns s.store } w' (ms.foldl (receive X) a) ∧
      Within N (receiveAll P k ns s.store) ∧ Ext s.store (receiveAll P k ns s.store)
  | 0, ns, s, w, a, hl, hs, hw, _, _ => by
    have : ns = [] := List.length_eq_zero_iff.1 (Nat.le_zero.1 hl)
    subst this
    exact ⟨[], w, .nil, fun _ => Iff.rfl, hs, hw, Ext.refl _⟩
  | k + 1, ns, s, w, a, hl, hs, hw, hns, hb => by
    unfold receiveAll
    cases hf : ns.find? (fun n => match P.parent? n with | some p => decide (p ∉ ns) | none => true) with
    | none =>
      rw [List.find?_eq_none] at hf
      have : ns = [] := by
        rw [List.eq_nil_iff_forall_not_mem]
        intro n hn
        obtain ⟨e, he, _⟩ := hns n hn
        rcases hP n with ⟨h1, _⟩ | ⟨_, _, i, S, _, _, _, _, _, _, _, hS, _⟩
        · rw [he] at h1; cases h1
        · obtain ⟨m, hm, hr⟩ := h.ready hP hS hn
          refine hf m hm ?_
          cases hq : P.parent? m with
          | none => rfl
          | some p => simpa using hr p hq
      subst this
      exact ⟨[], w, .nil, fun _ => Iff.rfl, hs, hw, Ext.refl _⟩
    | some n =>
      have hn : n ∈ ns := List.mem_of_find?_eq_some hf
      have hr := List.find?_some hf
      obtain ⟨e, he, h1, h2⟩ := hns n hn
      simp only [he]
      have hp : ∀ p, e.parent = some p → p ∉ ns := by
        intro p hp
        have : P.parent? n = some p := by simp [Pack.parent?, he, hp]
        rw [this] at hr
        simpa using hr
      have hpk : ∀ p, e.parent = some p → a.log.known p := by
        intro p hq
        rcases h2 p hq with h3 | h3
        · exact absurd h3 (hp p hq)
        · exact h3
      obtain ⟨⟨w1, _, hs1⟩, hw1⟩ := h.importOne hP hs hw he h1 (fun x hx hl => hb x hx hl n hn) hpk
      have hkn : ∀ m, (receive X a n).log.known m ↔ m = n ∨ a.log.known m := by
        intro m
        rcases hP n with ⟨h3, _⟩ | ⟨_, x, _, _, _, _, h3, _⟩
        · rw [he] at h3; cases h3
        · unfold receive
          rw [h3]
          show History.known (_ :: _) m ↔ _
          rw [History.known_cons]
          constructor
          · rintro (h | h)
            · exact Or.inl h.symm
            · exact Or.inr h
          · rintro (h | h)
            · exact Or.inl h.symm
            · exact Or.inr h
      have hlen : (ns.filter (· ≠ n)).length ≤ k := by
        have : (ns.filter (· ≠ n)).length < ns.length := by
          rw [List.length_filter_lt_length_iff_exists]
          exact ⟨n, hn, by simp⟩
        omega
      have hns' : ∀ m ∈ ns.filter (· ≠ n), ∃ e', P.get? m = some e' ∧
          Store.get? ((n, e) :: s.store) m = none ∧
          ∀ p, e'.parent = some p → p ∈ ns.filter (· ≠ n) ∨ (receive X a n).log.known p := by
        intro m hm
        rw [List.mem_filter] at hm
        have hmn : m ≠ n := by simpa using hm.2
        obtain ⟨e', k1, k2, k3⟩ := hns m hm.1
        refine ⟨e', k1, ?_, ?_⟩
        · rw [get?_cons_ne (Ne.symm hmn)]; exact k2
        · intro p hp
          rw [hkn, List.mem_filter]
          by_cases hpn : p = n
          · exact Or.inr (Or.inl hpn)
          · rcases k3 p hp with k4 | k4
            · exact Or.inl ⟨k4, by simpa using hpn⟩
            · exact Or.inr (Or.inr k4)
      obtain ⟨ms, w', g1, g2, g3, g4, g5⟩ := NetSim.importAll h hP k (ns.filter (· ≠ n))
        { s with store := (n, e) :: s.store } w1 (receive X a n) hlen hs1 hw1 hns'
        (fun x hx hl m hm => hb x hx hl m (List.mem_filter.1 hm).1)
      refine ⟨n :: ms, w', ?_, ?_, g3, g4, (Ext.cons h1 e).trans g5⟩
      · rw [List.nodup_cons]
        refine ⟨?_, g1⟩
        rw [g2, List.mem_filter]
        simp
      · intro m
        rw [List.mem_cons, g2, List.mem_filter]
        by_cases hm : m = n
        · subst hm; simp [hn]
        · simp [hm]

theorem fold_receive (X : Shipment K V) : ∀ (ms : List Nat) (a : Api.State K V L),
    (ms.foldl (receive X) a).hidden = a.hidden ∧
      ∀ n, (ms.foldl (receive X) a).log.known n ↔ a.log.known n ∨ (n ∈ ms ∧ X n ≠ none)
  | [], a => ⟨rfl, fun n => by simp⟩
  | m :: ms, a => by
    obtain ⟨h1, h2⟩ := fold_receive X ms (receive X a m)
    rw [List.foldl_cons]
    refine ⟨?_, fun n => ?_⟩
    · rw [h1]
      unfold receive
      split <;> rfl
    · rw [h2]
      unfold receive
      cases hX : X m with
      | none =>
        simp only [List.mem_cons]
        constructor
        · rintro (h | ⟨h3, h4⟩)
          · exact Or.inl h
          · exact Or.inr ⟨Or.inr h3, h4⟩
        · rintro (h | ⟨rfl | h3, h4⟩)
          · exact Or.inl h
          · exact absurd hX h4
          · exact Or.inr ⟨h3, h4⟩
      | some x =>
        show History.known (_ :: _) n ∨ _ ↔ _
        rw [History.known_cons, List.mem_cons]
        constructor
        · rintro ((h | h) | ⟨h3, h4⟩)
          · have h : m = n := h
            subst h
            exact Or.inr ⟨Or.inl rfl, by rw [hX]; simp⟩
          · exact Or.inl h
          · exact Or.inr ⟨Or.inr h3, h4⟩
        · rintro (h | ⟨rfl | h3, h4⟩)
          · exact Or.inl (Or.inr h)
          · exact Or.inl (Or.inl rfl)
          · exact Or.inr ⟨h3, h4⟩

theorem NetSim.unpack (h : NetSim N A) {ch : Choice K V L} {i p : Nat} {ns : List Nat}
    (hc : ∃ X, A.packs[p]? = some X ∧ A.Fits i X ns) :
    Simulates A (.unpack i p ns) (N.call ch (.unpack i p ns)) := by
  obtain ⟨X, hX, hfit⟩ := hc
  obtain ⟨P, hP, hPX⟩ := Api.forall₂_get h.packs hX
  obtain ⟨w, hs⟩ := h.sims i
  -- the layers that are asked for
  have hns : ∀ n ∈ ns, ∃ e, P.get? n = some e ∧ (N.at i).get? n = none ∧
      ∀ p, e.parent = some p → p ∈ ns ∨ (A.stores i).log.known p := by
    intro n hn
    obtain ⟨x, h1, h2, h3⟩ := hfit n hn
    rcases hPX n with ⟨_, h4⟩ | ⟨e, x', j, S, e', k1, k2, _, k4, _, _, _, k8, _⟩
    · rw [h1] at h4; cases h4
    · rw [h1] at k2
      cases k2
      refine ⟨e, k1, ?_, ?_⟩
      · exact (hs.get?_none n).2 (not_or.2 ⟨h2, h.kinds j i n k4⟩)
      · intro q hq
        exact h3 q (k8.trans hq)
  have hsrc : ∀ n ∈ ns, ∃ j, A.has j n := by
    intro n hn
    obtain ⟨e, h1, _⟩ := hns n hn
    rcases hPX n with ⟨h4, _⟩ | ⟨_, _, j, _, _, _, _, _, k4, _⟩
    · rw [h1] at h4; cases h4
    · exact ⟨j, k4⟩
  have hhas : ∀ j n, A.has j n → (N.at j).has n = true := by
    intro j n hj
    obtain ⟨wj, sj⟩ := h.sims j
    exact (sj.has n).2 (Or.inl hj)
  have hall : ns.all (fun n => (P.get? n).isSome && ((N.stores i).store.get? n).isNone) = true := by
    rw [List.all_eq_true]
    intro n hn
    obtain ⟨e, h1, h2, _⟩ := hns n hn
    have h2 : (N.stores i).store.get? n = none := h2
    simp [h1, h2]
  obtain ⟨ms, w', g1, g2, g3, g4, g5⟩ := h.importAll hPX ns.length ns (N.stores i) w (A.stores i)
    (Nat.le_refl _) hs (within N i) hns (by
      intro x hx hl n hn hxn
      obtain ⟨j, hj⟩ := hsrc n hn
      have h1 := h.unborn i j x hx hl
      have h2 := hhas j n hj
      rw [hxn] at h1
      simp [Store.has, h1] at h2)
  obtain ⟨f1, f2⟩ := fold_receive X ms (A.stores i)
  simp only [Stores.call, hP, hall, if_true]
  refine ⟨_, .unpack hX hfit g1 g2, ?_⟩
  refine h.change (i := i) g3 g5 ?_ ?_ ?_ ?_ ?_ ?_ ?_
  · intro n hn
    exact (f2 n).2 (Or.inl hn)
  · intro j _ n e e' h1 h2
    obtain ⟨k, e'', h3, h4⟩ := g4 n e h1
    exact copy_trans (copy_symm h4) (h.agree k j n e'' e' h3 h2)
  · intro j _ n hn
    rcases (f2 n).1 hn with h1 | ⟨h1, _⟩
    · exact h.kinds i j n h1
    · obtain ⟨k, hk⟩ := hsrc n ((g2 n).1 h1)
      exact h.kinds k j n hk
  · intro j _ n hn
    rw [f1]
    exact h.kinds j i n hn
  · intro j _ x hx hl
    exact h.unborn i j x hx hl
  · intro j _ x hx hl
    cases hg : (receiveAll P ns.length ns (N.stores i).store).get? x.name with
    | none => rfl
    | some e =>
      obtain ⟨k, e'', h3, _⟩ := g4 x.name e hg
      rw [h.unborn j k x hx hl] at h3
      cases h3
  · intro j hj x hx y hy
    exact h.apart i j (Ne.symm hj) x hx y hy

/-- One call. -/
theorem NetSim.call (h : NetSim N A) {ch : Choice K V L} (hch : ch.Possible N) {c : Req K V L}
    (hc : InContract A c) : Simulates A c (N.call ch c) := by
  cases c with
  | on i c => exact h.on hch hc
  | pack i ns => exact h.pack hc
  | unpack i p ns => exact h.unpack hc
  | parents p => exact h.parents hch hc

theorem receiveAll_other {P : Pack K V} {m : Name} : ∀ (k : Nat) (ns : List Name) (st : Store K V),
    m ∉ ns → (receiveAll P k ns st).get? m = st.get? m
  | 0, _, _, _ => rfl
  | k + 1, ns, st, hm => by
    unfold receiveAll
    split
    · rfl
    · rename_i n hn
      split
      · rfl
      · have hne : n ≠ m := by
          rintro rfl; exact hm (List.mem_of_find?_eq_some hn)
        rw [receiveAll_other k _ _ (fun h => hm (List.mem_filter.1 h).1), get?_cons_ne hne]

/-- A call uses up no other name, but for those of layers in a pack. -/
theorem free_call {ch : Choice K V L} {c : Req K V L} {i : Nat} {m : Name}
    (h : (N.stores i).Free m) (hm : m ≠ ch.call.new) (hc : ∀ p ns, c = .unpack i p ns → m ∉ ns) :
    ((N.call ch c).2.stores i).Free m := by
  cases c with
  | on j c =>
    show (((N.set j _).stores i)).Free m
    unfold Stores.set
    dsimp only
    split
    · rename_i e
      subst e
      exact Api.Session.free_perform
        (s := { N.stores i with cache := ch.call.keep (N.stores i).cache }) ⟨h.1, h.2⟩ hm c
    · exact h
  | pack j ns =>
    unfold Stores.call
    dsimp only
    split <;> exact h
  | unpack j p ns =>
    unfold Stores.call
    dsimp only
    split
    · exact h
    · split
      · show (((N.set j _).stores i)).Free m
        unfold Stores.set
        dsimp only
        split
        · rename_i e
          subst e
          exact ⟨(receiveAll_other _ _ _ (hc p ns rfl)).trans h.1, h.2⟩
        · exact h
      · exact h
  | parents p =>
    unfold Stores.call
    dsimp only
    split <;> exact h

/-- From any point on. -/
theorem NetSim.explains {tr : List (Req K V L × Ans K V L × Name)} (ht : NamedTrace N tr) :
    ∀ {A : State K V L}, NetSim N A → ExplainsNames A tr := by
  induction ht with
  | nil => intro A _; exact .nil
  | @call N ch c rest hch _ ih =>
    intro A h
    by_cases hc : InContract A c
    · obtain ⟨A', h1, h2⟩ := h.call hch hc
      refine .step hc h1 h2.consistent (fun i n hn hnew hx => ?_) (ih h2)
      obtain ⟨w, hw⟩ := h.sims i
      obtain ⟨w', hw'⟩ := h2.sims i
      exact hw'.free.2 (free_call (hw.free.1 hn) hnew hx)
    · exact .out hc

end Verif.Net
