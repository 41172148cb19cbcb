import Verif.Lemmas.NetSim
import Verif.Lemmas.ConcRuns
import Verif.Model.Trade

/-!
How the states of several stores that many calls use, and of the specification, belong together, and
that they still do whatever happens.
-/

set_option linter.unusedSectionVars false

namespace Verif.Conc

open Spec Api

variable {K V L : Type} [LinearOrder K] [LinearOrder V] [DecidableEq L]

/-- The names of builders after a call. -/
theorem step_builders {s s' : State K V L} {c : Req K V L} {r : Ans K V L} (h : Step s c r s') :
    (∀ y' ∈ s'.builders, (∃ y ∈ s.builders, y.name = y'.name) ∨ s.Fresh y'.name) ∧
      s'.lost = s.lost := by
  have same : ∀ y' ∈ s.builders, (∃ y ∈ s.builders, y.name = y'.name) ∨ s.Fresh y'.name :=
    fun y hy => Or.inl ⟨y, hy, rfl⟩
  have set : ∀ {b : Nat} {x x' : Builder K V}, s.builders[b]? = some x → x'.name = x.name →
      ∀ y' ∈ s.builders.set b x', (∃ y ∈ s.builders, y.name = y'.name) ∨ s.Fresh y'.name := by
    intro b x x' hx hn y hy
    rcases List.mem_or_eq_of_mem_set hy with hy | rfl
    · exact same y hy
    · exact Or.inl ⟨x, List.mem_of_getElem? hx, hn.symm⟩
  have snoc : ∀ {x' : Builder K V}, s.Fresh x'.name →
      ∀ y' ∈ s.builders ++ [x'], (∃ y ∈ s.builders, y.name = y'.name) ∨ s.Fresh y'.name := by
    intro x' hf y hy
    rcases List.mem_append.1 hy with hy | hy
    · exact same y hy
    · rw [List.mem_singleton] at hy
      subst hy
      exact Or.inr hf
  cases h with
  | createBase h => exact ⟨snoc h, rfl⟩
  | openWrite _ h => exact ⟨snoc h, rfl⟩
  | edit h _ _ => exact ⟨set h rfl, rfl⟩
  | commitNoLoad h _ _ => exact ⟨set h rfl, rfl⟩
  | commit h _ _ => exact ⟨set h rfl, rfl⟩
  | applyDelta h _ _ _ => exact ⟨set h rfl, rfl⟩
  | applyDiff h _ _ _ => exact ⟨set h rfl, rfl⟩
  | _ => exact ⟨same, rfl⟩

/-- What a step of a call leaves, and the names of builders after it. -/
theorem effect_names {past : List (State K V L)} {s s' : State K V L} {p p' : Pending K V L}
    (h : Effect past s p s' p') :
    s'.lost = s.lost ∧ (∀ n, s.log.known n → s'.log.known n) ∧ (∀ n ∈ s.hidden, n ∈ s'.hidden) ∧
      ∀ y' ∈ s'.builders, (∃ y ∈ s.builders, y.name = y'.name) ∨ s.Fresh y'.name := by
  have same : ∀ y' ∈ s.builders, (∃ y ∈ s.builders, y.name = y'.name) ∨ s.Fresh y'.name :=
    fun y hy => Or.inl ⟨y, hy, rfl⟩
  have set : ∀ {b : Nat} {x x' : Builder K V}, s.builders[b]? = some x → x'.name = x.name →
      ∀ y' ∈ s.builders.set b x', (∃ y ∈ s.builders, y.name = y'.name) ∨ s.Fresh y'.name := by
    intro b x x' hx hn y hy
    rcases List.mem_or_eq_of_mem_set hy with hy | rfl
    · exact same y hy
    · exact Or.inl ⟨x, List.mem_of_getElem? hx, hn.symm⟩
  cases h with
  | once h _ =>
    obtain ⟨h1, h2⟩ := step_builders h
    obtain ⟨h3, h4⟩ := h.mono
    exact ⟨h2, h3, h4, h1⟩
  | close _ h _ => exact ⟨rfl, fun _ h => h, fun _ h => h, set h rfl⟩
  | write _ _ _ => exact ⟨rfl, fun _ h => History.known_cons.2 (Or.inr h), fun _ h => h, same⟩
  | hide _ _ _ _ => exact ⟨rfl, fun _ h => h, fun _ h => List.mem_cons_of_mem _ h, same⟩
  | apply h _ => exact ⟨rfl, fun _ h => h, fun _ h => h, set h rfl⟩
  | _ => exact ⟨rfl, fun _ h => h, fun _ h => h, same⟩

/-- What happens in a store leaves layers and rollups as they are, and uses up no other name than
the one that it is free to use and those of builders. -/
structure Named (A : CState K V L) (e : Option (Event K V L)) (A' : CState K V L) : Prop where
  lost : A'.now.lost = A.now.lost
  known : ∀ n, A.now.log.known n → A'.now.log.known n
  hidden : ∀ n ∈ A.now.hidden, n ∈ A'.now.hidden
  names : ∀ n, (A'.now.log.known n ∨ n ∈ A'.now.hidden) → (A.now.log.known n ∨ n ∈ A.now.hidden) ∨
    (∃ t, e = some (.act t n)) ∨ ∃ y ∈ A.now.builders, y.name = n
  builders : ∀ y' ∈ A'.now.builders, (∃ y ∈ A.now.builders, y.name = y'.name) ∨
    ∃ t, e = some (.act t y'.name)

theorem Named.refl {A : CState K V L} {e : Option (Event K V L)} : Named A e A :=
  ⟨rfl, fun _ h => h, fun _ h => h, fun _ h => Or.inl h, fun y h => Or.inl ⟨y, h, rfl⟩⟩

theorem Goes.named {A A' : CState K V L} {e : Event K V L} (h : Goes A e A')
    (hl : A.now.lost = []) : Named A (some e) A' := by
  cases h with
  | inv _ => exact ⟨rfl, fun _ h => h, fun _ h => h, fun _ h => Or.inl h, fun y h => Or.inl ⟨y, h, rfl⟩⟩
  | skip _ _ => exact .refl
  | ret _ => exact ⟨rfl, fun _ h => h, fun _ h => h, fun _ h => Or.inl h, fun y h => Or.inl ⟨y, h, rfl⟩⟩
  | @act t new p s' p' _ _ he hf =>
    obtain ⟨h1, h2, h3, h4⟩ := effect_names he
    refine ⟨h1, h2, h3, fun n hn => ?_, fun y hy => ?_⟩
    · by_contra hx
      simp only [not_or] at hx
      obtain ⟨⟨k1, k2⟩, k3, k4⟩ := hx
      obtain ⟨g1, g2, _⟩ := hf n ⟨k1, k2, fun y hy e => k4 ⟨y, hy, e⟩, by rw [hl]; simp⟩
        (fun e => k3 ⟨t, by rw [e]⟩)
      rcases hn with hn | hn
      · exact g1 hn
      · exact g2 hn
    · rcases h4 y hy with h5 | h5
      · exact Or.inl h5
      · right
        refine ⟨t, ?_⟩
        by_contra hx
        exact (hf y.name h5 (fun e => hx (by rw [e]))).2.2.1 y hy rfl

end Verif.Conc

namespace Verif.Api

variable {K V L : Type} [LinearOrder K] [LinearOrder V] [DecidableEq L]

theorem Sim.builderNames {s : Session K V L} {w : World K V} {a : State K V L} (h : Sim s w a) :
    s.builders.map (·.name) = a.builders.map (·.name) := by
  have := h.builders
  generalize s.builders = xs at this
  generalize a.builders = ys at this
  induction this with
  | nil => rfl
  | cons h1 _ ih => rw [List.map_cons, List.map_cons, ih, h1.name]

theorem Sim.named {s : Session K V L} {w : World K V} {a : State K V L} (h : Sim s w a)
    {x : HeldBuilder K V} (hx : x ∈ s.builders) : ∃ y ∈ a.builders, y.name = x.name := by
  have : x.name ∈ a.builders.map (·.name) := by
    rw [← h.builderNames]; exact List.mem_map_of_mem hx
  obtain ⟨y, h1, h2⟩ := List.mem_map.1 this
  exact ⟨y, h1, h2⟩

theorem Sim.named' {s : Session K V L} {w : World K V} {a : State K V L} (h : Sim s w a)
    {y : Builder K V} (hy : y ∈ a.builders) : ∃ x ∈ s.builders, x.name = y.name := by
  have : y.name ∈ s.builders.map (·.name) := by
    rw [h.builderNames]; exact List.mem_map_of_mem hy
  obtain ⟨x, h1, h2⟩ := List.mem_map.1 this
  exact ⟨x, h1, h2⟩

end Verif.Api

namespace Verif.Trade

open Spec Store Net Conc

variable {K V L : Type} [LinearOrder K] [LinearOrder V] [DecidableEq L]

/-- The stores of the model without the calls under way. -/
def Shops.net (N : Shops K V L) : Stores K V L :=
  { stores := fun i => (N.shops i).session, packs := N.packs }

/-- The name is that of a layer or of a rollup. -/
def Knows (A : State K V L) (i n : Nat) : Prop :=
  (A.stores i).now.log.known n ∨ n ∈ (A.stores i).now.hidden

/-- The name is new in all stores. -/
def Unused (A : State K V L) (n : Nat) : Prop :=
  ∀ j, ¬ Knows A j n ∧ ∀ y ∈ (A.stores j).now.builders, y.name ≠ n

/-- The layers `ns` of the store are in the pack. -/
def Reads (N : Shops K V L) (A : State K V L) (i : Nat) (ns : List Name) (P : Pack K V) : Prop :=
  ∀ n, (P.get? n = none ∧ n ∉ ns) ∨ ∃ e e', P.get? n = some e ∧ n ∈ ns ∧ e.rollup = none ∧
    A.net.has i n ∧ (N.net.at i).get? n = some e' ∧ Copy e' e

/-- How far a call with a pack is. -/
inductive JobSim (N : Shops K V L) (A : State K V L) :
    Option (Stage K V) → Option (Job K V) → Prop
  | idle : JobSim N A none none
  | asked {c} : JobSim N A (some (.asked c)) (some (.asked c))
  | packing {i left P ns done} : ns = done ++ left → Reads N A i done P →
      JobSim N A (some (.packing i left P)) (some (.asked (.pack i ns)))
  | unpacking {i P left X} : PackSim N.net A.net P X →
      (∀ n ∈ left, ∃ e, P.get? n = some e ∧ (N.net.at i).get? n = none ∧
        ∀ p, e.parent = some p → p ∈ left ∨ A.net.has i p) →
      JobSim N A (some (.unpacking i P left)) (some (.taking i X left))
  | answered {r} : JobSim N A (some (.answered r)) (some (.answered r))

/-- The states belong together. -/
structure TSim (N : Shops K V L) (A : State K V L) : Prop where
  sims : ∀ i, ∃ w, CSim (N.shops i) (A.stores i) w
  net : NetSim N.net A.net
  lost : ∀ i, (A.stores i).now.lost = []
  born : ∀ i j, ∀ y ∈ (A.stores i).now.builders, Knows A j y.name → Knows A i y.name
  apart : ∀ i j, i ≠ j → ∀ x ∈ (A.stores i).now.builders, ∀ y ∈ (A.stores j).now.builders,
    x.name ≠ y.name
  jobs : ∀ t, JobSim N A (N.jobs t) (A.jobs t)
  once : ∀ t u i X ns X' ns' n, A.jobs t = some (.taking i X ns) →
    A.jobs u = some (.taking i X' ns') → n ∈ ns → n ∈ ns' → t = u

theorem TSim.start {disk : Nat → Bool} : TSim (.new disk : Shops K V L) {} :=
  { sims := fun _ => ⟨_, CSim.start⟩
    net := NetSim.start (disk := disk)
    lost := fun _ => rfl
    born := by intro i j y hy; cases hy
    apart := by intro i j _ y hy; cases hy
    jobs := fun _ => .idle
    once := by intro t u i X ns X' ns' n h; cases h }

variable {N N' : Shops K V L} {A A' : State K V L}

theorem set_net (N : Shops K V L) (i : Nat) (M : Shop K V L) :
    (N.set i M).net = N.net.set i M.session := by
  unfold Shops.net Shops.set Stores.set
  congr
  funext j
  dsimp only
  split <;> rfl

theorem aset_net (A : State K V L) (i : Nat) (a : CState K V L) :
    (A.set i a).net = A.net.set i a.now := by
  unfold State.net State.set Net.State.set
  congr
  funext j
  dsimp only
  split <;> rfl

theorem TSim.sim (h : TSim N A) (i : Nat) :
    ∃ w, Api.Sim (N.net.stores i) w (A.net.stores i) := by
  obtain ⟨w, hw⟩ := h.sims i
  exact ⟨w, hw.sim⟩

theorem TSim.has (h : TSim N A) (i n : Nat) : (N.net.at i).has n = true ↔ Knows A i n := by
  obtain ⟨w, hw⟩ := h.sims i
  exact hw.sim.has n

theorem TSim.get?_none (h : TSim N A) (i n : Nat) : (N.net.at i).get? n = none ↔ ¬ Knows A i n := by
  obtain ⟨w, hw⟩ := h.sims i
  exact hw.sim.get?_none n

theorem TSim.unused (h : TSim N A) {n : Nat}
    (hn : ∀ j, (N.shops j).session.store.get? n = none ∧
      ∀ b ∈ (N.shops j).session.builders, b.name ≠ n) : Unused A n := by
  intro j
  obtain ⟨w, hw⟩ := h.sims j
  refine ⟨(h.get?_none j n).1 (hn j).1, fun y hy e => ?_⟩
  obtain ⟨x, h1, h2⟩ := hw.sim.named' hy
  exact (hn j).2 x h1 (h2.trans e)

theorem Reads.mono {i : Nat} {ns : List Name} {P : Pack K V} (h : Reads N A i ns P)
    (h1 : Ext (N.net.at i) (N'.net.at i)) (h2 : ∀ n, A.net.has i n → A'.net.has i n) :
    Reads N' A' i ns P := by
  intro n
  rcases h n with h | ⟨e, e', k1, k2, k3, k4, k5, k6⟩
  · exact Or.inl h
  · obtain ⟨e'', g1, g2, g3⟩ := h1 n e' k5
    exact Or.inr ⟨e, e'', k1, k2, k3, h2 n k4, g1, by rw [g2]; exact k6.1, by rw [g3]; exact k6.2⟩

theorem JobSim.mono {st : Option (Stage K V)} {j : Option (Job K V)} (h : JobSim N A st j)
    (h1 : ∀ i, Ext (N.net.at i) (N'.net.at i)) (h2 : ∀ i n, A.net.has i n → A'.net.has i n)
    (h3 : ∀ i X ns, j = some (.taking i X ns) → ∀ n ∈ ns, (∃ k, A.net.has k n) →
      (N.net.at i).get? n = none → (N'.net.at i).get? n = none) : JobSim N' A' st j := by
  cases h with
  | idle => exact .idle
  | asked => exact .asked
  | packing e hr => exact .packing e (hr.mono (h1 _) (h2 _))
  | unpacking hp hl =>
    refine .unpacking (hp.mono h1 h2) fun n hn => ?_
    obtain ⟨e, k1, k2, k3⟩ := hl n hn
    refine ⟨e, k1, h3 _ _ _ rfl n hn ?_ k2, fun p hp => (k3 p hp).imp id (h2 _ p)⟩
    rcases hp n with ⟨g, _⟩ | ⟨_, _, k, _, _, _, _, _, g, _⟩
    · rw [k1] at g; cases g
    · exact ⟨k, g⟩
  | answered => exact .answered

/-- Something happens in one store. -/
theorem TSim.update (h : TSim N A) {i : Nat} {M : Shop K V L} {a : CState K V L}
    {e : Option (Conc.Event K V L)} {w w' : World K V} (hw : CSim (N.shops i) (A.stores i) w)
    (hc : CSim M a w') (hl : World.Later true w w') (hn : Named (A.stores i) e a)
    (hf : ∀ t new, e = some (.act t new) → Unused A new) :
    TSim (N.set i M) (A.set i a) ∧
      ∀ n, a.now.log.known n → A.net.has i n ∨ ∀ j, ¬ A.net.has j n := by
  have hx : Ext (N.net.at i) M.session.store := by
    have := hl.ext
    rw [hw.sim.store, hc.sim.store] at this
    exact this
  have hext : ∀ j, Ext (N.net.at j) ((N.set i M).net.at j) := by
    intro j
    rw [set_net]
    unfold Stores.at
    by_cases hj : j = i
    · subst hj; rw [set_at]; exact hx
    · rw [set_ne _ _ hj]; exact Ext.refl _
  have hhas : ∀ j n, A.net.has j n → (A.set i a).net.has j n := by
    intro j n
    rw [aset_net]
    unfold Net.State.has
    by_cases hj : j = i
    · subst hj; rw [aset_at]; exact hn.known n
    · rw [aset_ne _ _ hj]; exact id
  -- what is new is nowhere else
  have hnew : ∀ j, j ≠ i → ∀ n, (a.now.log.known n ∨ n ∈ a.now.hidden) →
      Knows A i n ∨ ¬ Knows A j n := by
    intro j hj n h1
    rcases hn.names n h1 with h2 | ⟨t, h2⟩ | ⟨y, hy, rfl⟩
    · exact Or.inl h2
    · exact Or.inr (hf t n h2 j).1
    · by_cases hk : Knows A i y.name
      · exact Or.inl hk
      · exact Or.inr fun h3 => hk (h.born i j y hy h3)
  have hknown : ∀ n, a.now.log.known n → Knows A i n → A.net.has i n := by
    intro n h3 h4
    rcases h4 with h5 | h5
    · exact h5
    · exact absurd (hn.hidden n h5) (hc.sim.layers.apart n h3)
  have born' : ∀ j, j ≠ i → ∀ y ∈ a.now.builders, Knows A j y.name →
      a.now.log.known y.name ∨ y.name ∈ a.now.hidden := by
    intro j hj y hy hk
    rcases hn.builders y hy with ⟨z, hz, h1⟩ | ⟨t, h1⟩
    · rw [← h1] at hk ⊢
      exact (h.born i j z hz hk).imp (hn.known _) (hn.hidden _)
    · exact absurd hk (hf t _ h1 j).1
  have born2 : ∀ j, j ≠ i → ∀ y ∈ (A.stores j).now.builders,
      (a.now.log.known y.name ∨ y.name ∈ a.now.hidden) → Knows A j y.name := by
    intro j hj y hy hk
    rcases hn.names _ hk with h1 | ⟨t, h1⟩ | ⟨z, hz, h1⟩
    · exact h.born j i y hy h1
    · exact absurd rfl ((hf t _ h1 j).2 y hy)
    · exact absurd h1 (h.apart i j (Ne.symm hj) z hz y hy)
  have apart' : ∀ j, j ≠ i → ∀ x ∈ a.now.builders, ∀ y ∈ (A.stores j).now.builders,
      x.name ≠ y.name := by
    intro j hj x hx y hy
    rcases hn.builders x hx with ⟨z, hz, h1⟩ | ⟨t, h1⟩
    · rw [← h1]; exact h.apart i j (Ne.symm hj) z hz y hy
    · exact fun e => (hf t _ h1 j).2 y hy e.symm
  have stores_at : (A.set i a).stores i = a := by simp [State.set]
  have stores_ne : ∀ {j}, j ≠ i → (A.set i a).stores j = A.stores j := by
    intro j hj; simp [State.set, hj]
  have shops_at : (N.set i M).shops i = M := by simp [Shops.set]
  have shops_ne : ∀ {j}, j ≠ i → (N.set i M).shops j = N.shops j := by
    intro j hj; simp [Shops.set, hj]
  refine ⟨?_, ?_⟩
  · exact {
      sims := by
        intro j
        by_cases hj : j = i
        · subst hj; rw [stores_at, shops_at]; exact ⟨w', hc⟩
        · rw [stores_ne hj, shops_ne hj]; exact h.sims j
      net := by
        rw [set_net, aset_net]
        refine h.net.change hc.sim hx hn.known ?_ ?_ ?_ ?_ ?_ ?_
        · intro j hj n e1 e2 h3 h4
          have hkj : Knows A j n := (h.has j n).1 (by simp [Store.has, h4])
          have hk : a.now.log.known n ∨ n ∈ a.now.hidden :=
            (hc.sim.has n).1 (by simp [Store.has, h3])
          rcases hnew j hj n hk with h5 | h5
          · obtain ⟨e0, h6⟩ := has_iff.1 ((h.has i n).2 h5)
            obtain ⟨e1', h7, h8, h9⟩ := hx n e0 h6
            rw [h3] at h7
            cases h7
            exact copy_trans ⟨h8.symm, h9.symm⟩ (h.net.agree i j n e0 e2 h6 h4)
          · exact absurd hkj h5
        · intro j hj n h3 h4
          rcases hnew j hj n (Or.inl h3) with h5 | h5
          · exact h.net.kinds i j n (hknown n h3 h5) h4
          · exact h5 (Or.inr h4)
        · intro j hj n h3 h4
          rcases hnew j hj n (Or.inr h4) with h5 | h5
          · rcases h5 with h6 | h6
            · exact hc.sim.layers.apart n (hn.known n h6) h4
            · exact h.net.kinds j i n h3 h6
          · exact h5 (Or.inl h3)
        · intro j hj x hx1 hx2
          rw [h.get?_none]
          intro hk
          obtain ⟨y, hy, h1⟩ := hc.sim.named hx1
          have h2 := hc.sim.unused hx1 hx2
          rw [hc.sim.get?_none] at h2
          rw [← h1] at h2 hk
          exact h2 (born' j hj y hy hk)
        · intro j hj x hx1 hx2
          rw [hc.sim.get?_none]
          intro hk
          obtain ⟨wj, sj⟩ := h.sims j
          obtain ⟨y, hy, h1⟩ := sj.sim.named hx1
          have h2 := sj.sim.unused hx1 hx2
          rw [sj.sim.get?_none] at h2
          rw [← h1] at h2 hk
          exact h2 (born2 j hj y hy hk)
        · intro j hj x hx1 z hz
          obtain ⟨wj, sj⟩ := h.sims j
          obtain ⟨y, hy, h1⟩ := hc.sim.named hx1
          obtain ⟨y', hy', h1'⟩ := sj.sim.named hz
          rw [← h1, ← h1']
          exact apart' j hj y hy y' hy'
      lost := by
        intro j
        by_cases hj : j = i
        · subst hj; rw [stores_at, hn.lost]; exact h.lost j
        · rw [stores_ne hj]; exact h.lost j
      born := by
        intro j k y
        unfold Knows
        by_cases hj : j = i <;> by_cases hk : k = i
        · subst hj; subst hk; rw [stores_at]; exact fun _ h => h
        · subst hj; rw [stores_at, stores_ne hk]; exact born' k hk y
        · subst hk; rw [stores_at, stores_ne hj]; exact born2 j hj y
        · rw [stores_ne hk, stores_ne hj]; exact h.born j k y
      apart := by
        intro j k hjk x
        by_cases hj : j = i <;> by_cases hk : k = i
        · exact absurd (hj.trans hk.symm) hjk
        · subst hj; rw [stores_at, stores_ne hk]; exact apart' k hk x
        · subst hk; rw [stores_at, stores_ne hj]
          exact fun hx y hy => Ne.symm (apart' j hj y hy x hx)
        · rw [stores_ne hk, stores_ne hj]; exact h.apart j k hjk x
      jobs := by
        intro t
        refine (h.jobs t).mono hext hhas ?_
        intro j X ns _ n _ hk h1
        rw [set_net]
        unfold Stores.at
        by_cases hj : j = i
        · subst hj
          rw [set_at, hc.sim.get?_none]
          rw [h.get?_none] at h1
          obtain ⟨k, hk⟩ := hk
          have hkj : k ≠ j := by rintro rfl; exact h1 (Or.inl hk)
          intro h2
          rcases hnew k hkj n h2 with h3 | h3
          · exact h1 h3
          · exact h3 (Or.inl hk)
        · rw [set_ne _ _ hj]; exact h1
      once := h.once }
  · intro n h1
    by_cases h2 : A.net.has i n
    · exact Or.inl h2
    · refine Or.inr fun j hj => ?_
      by_cases hji : j = i
      · subst hji; exact h2 hj
      · rcases hnew j hji n (Or.inl h1) with h3 | h3
        · exact h2 (hknown n h1 h3)
        · exact h3 (Or.inl hj)

/-- Whatever can happen in a store is allowed. -/
theorem TSim.on (h : TSim N A) {i : Nat} {e : Option (Conc.Event K V L)} {M : Shop K V L}
    (hx : Conc.Next (N.shops i) e M)
    (hf : ∀ t new, e = some (.act t new) → ∀ j, (N.shops j).session.store.get? new = none ∧
        ∀ b ∈ (N.shops j).session.builders, b.name ≠ new) :
    (∃ A', TSim (N.set i M) A' ∧ ((e = none ∧ A' = A) ∨ ∃ e', e = some e' ∧ Goes A (.on i e') A')) ∨
      ∃ e', e = some e' ∧ A.Leaves (.on i e') := by
  obtain ⟨w, hw⟩ := h.sims i
  have hf' : ∀ t new, e = some (.act t new) → Unused A new := fun t new he => h.unused (hf t new he)
  rcases hw.nextLater hx with ⟨a, w', h1, h2, ⟨rfl, rfl⟩ | ⟨e, rfl, h3⟩⟩ | ⟨e, rfl, h1⟩
  · left
    refine ⟨A, ?_, Or.inl ⟨rfl, rfl⟩⟩
    have := (h.update hw h1 h2 (e := none) .refl hf').1
    have e : A.set i (A.stores i) = A := by
      unfold State.set
      congr
      funext j
      split
      · rename_i e; rw [e]
      · rfl
    rw [e] at this
    exact this
  · by_cases hE : ∃ t new, e = .act t new ∧ A.Early i t
    · exact Or.inr ⟨e, rfl, Or.inr hE⟩
    · left
      obtain ⟨k1, k2⟩ := h.update hw h1 h2 (h3.named (h.lost i)) hf'
      exact ⟨_, k1, Or.inr ⟨e, rfl, .on h3 (fun t new he hE' => hE ⟨t, new, he, hE'⟩) k2⟩⟩
  · exact Or.inr ⟨e, rfl, Or.inl h1⟩

/-! ### Calls with packs -/

theorem JobSim.same {st : Option (Stage K V)} {j : Option (Job K V)} (h : JobSim N A st j)
    (h1 : N'.net = N.net) (h2 : A'.net = A.net) : JobSim N' A' st j :=
  h.mono (fun i => by rw [h1]; exact Ext.refl _) (fun i n => by rw [h2]; exact id)
    (fun i X ns _ n _ _ => by rw [h1]; exact id)

/-- A call with a pack goes on. -/
theorem TSim.does (h : TSim N A) {t : Nat} {st : Option (Stage K V)} {j : Option (Job K V)}
    (hj : JobSim N A st j) (ho : ∀ u i X ns X' ns' n, u ≠ t → j = some (.taking i X ns) →
      A.jobs u = some (.taking i X' ns') → n ∈ ns → n ∉ ns') :
    TSim (N.does t st) (A.does t j) :=
  { sims := h.sims
    net := h.net
    lost := h.lost
    born := h.born
    apart := h.apart
    jobs := by
      intro u
      show JobSim _ _ (if u = t then st else N.jobs u) (if u = t then j else A.jobs u)
      by_cases hu : u = t
      · rw [if_pos hu, if_pos hu]; exact hj.same rfl rfl
      · rw [if_neg hu, if_neg hu]; exact (h.jobs u).same rfl rfl
    once := by
      intro u v i X ns X' ns' n h1 h2 h3 h4
      change (if u = t then j else A.jobs u) = _ at h1
      change (if v = t then j else A.jobs v) = _ at h2
      by_cases hu : u = t <;> by_cases hv : v = t
      · rw [hu, hv]
      · rw [if_pos hu] at h1; rw [if_neg hv] at h2
        exact (ho v i X ns X' ns' n hv h1 h2 h3 h4).elim
      · rw [if_neg hu] at h1; rw [if_pos hv] at h2
        exact (ho u i X' ns' X ns n hu h2 h1 h4 h3).elim
      · rw [if_neg hu] at h1; rw [if_neg hv] at h2
        exact h.once u v i X ns X' ns' n h1 h2 h3 h4 }

/-- There is one more pack. -/
theorem TSim.morePacks (h : TSim N A) {P : Pack K V} {X : Shipment K V}
    (hp : PackSim N.net A.net P X) :
    TSim { N with packs := N.packs ++ [P] } { A with packs := A.packs ++ [X] } :=
  { sims := h.sims
    net := { sims := h.net.sims, agree := h.net.agree, kinds := h.net.kinds, unborn := h.net.unborn
             apart := h.net.apart
             packs := Api.forall₂_snoc (h.net.packs.imp fun _ _ hP =>
               hP.mono (fun _ => Ext.refl _) (fun _ _ h => h))
               (hp.mono (fun _ => Ext.refl _) (fun _ _ h => h)) }
    lost := h.lost
    born := h.born
    apart := h.apart
    jobs := fun t => (h.jobs t).mono (fun _ => Ext.refl _) (fun _ _ h => h) (fun _ _ _ _ _ _ _ h => h)
    once := h.once }

omit [LinearOrder K] [LinearOrder V] in
theorem packGet_snoc (P : Pack K V) (q : Name × Entry K V) (n : Name) :
    Pack.get? (P ++ [q]) n = (Pack.get? P n).or (if q.1 = n then some q.2 else none) := by
  unfold Pack.get?
  rw [List.find?_append]
  cases P.find? (fun q => q.1 = n) with
  | some x => simp
  | none =>
    rw [List.find?_cons]
    by_cases h : q.1 = n <;> simp [h]

/-- One more layer is in the pack. -/
theorem Reads.more (h : TSim N A) {i n : Nat} {ns : List Name} {P : Pack K V}
    {q : Name × Entry K V} (hr : Reads N A i ns P)
    (hq : packLayer (N.shops i).session.store n = some q)
    (hn : n ∉ (A.stores i).now.hidden) : Reads N A i (ns ++ [n]) (P ++ [q]) := by
  obtain ⟨e, he, rfl⟩ := Option.map_eq_some_iff.1 hq
  intro m
  rw [packGet_snoc]
  rcases hr m with ⟨h1, h2⟩ | ⟨e1, e2, k1, k2, k3⟩
  · rw [h1]
    by_cases hm : n = m
    · subst hm
      right
      refine ⟨{ parent := e.parent, data := e.data }, e, by simp, by simp, rfl, ?_, he, rfl, rfl⟩
      have : Knows A i n := (h.has i n).1 (by
        show (N.shops i).session.store.has n = true
        simp [Store.has, he])
      rcases this with h3 | h3
      · exact h3
      · exact absurd h3 hn
    · left
      refine ⟨by simp [hm], ?_⟩
      rw [List.mem_append, List.mem_singleton, not_or]
      exact ⟨h2, Ne.symm hm⟩
  · right
    exact ⟨e1, e2, by rw [k1]; rfl, List.mem_append.2 (Or.inl k2), k3⟩

/-- The pack is complete. -/
theorem Reads.pack (h : TSim N A) {i : Nat} {ns : List Name} {P : Pack K V}
    (hr : Reads N A i ns P) :
    (∀ n ∈ ns, A.net.has i n) ∧
      PackSim N.net A.net P (fun n => if n ∈ ns then some (A.net.layer i n) else none) := by
  have hk : ∀ n ∈ ns, A.net.has i n := by
    intro n hn
    rcases hr n with ⟨_, h1⟩ | ⟨_, _, _, _, _, h1, _⟩
    · exact absurd hn h1
    · exact h1
  refine ⟨hk, fun n => ?_⟩
  obtain ⟨w, hs⟩ := h.sim i
  rcases hr n with ⟨h1, h2⟩ | ⟨e, e', k1, k2, k3, k4, k5, k6⟩
  · exact Or.inl ⟨h1, if_neg h2⟩
  · obtain ⟨S, g1, _, g2, _, g3⟩ := hs.layers.raw (hk n k2)
    rw [hs.store] at g1
    refine Or.inr ⟨e, A.net.layer i n, i, S, e', k1, if_pos k2, k3, k4, k5, k6, g1, ?_, g2,
      fun t => (g3 t).symm⟩
    show (A.net.stores i).log.parent n = e.parent
    rw [← hs.layers.parent n k4, ← hs.layers.run.shape.parent, hs.store]
    have k5 : (N.net.stores i).store.get? n = some e' := k5
    simp [parent?, k5, k6.1]

end Verif.Trade

namespace Verif.Conc

open Spec Api

variable {K V L : Type} [LinearOrder K] [LinearOrder V] [DecidableEq L]
  {M : Shop K V L} {A : CState K V L} {w : World K V}

/-- Something happens in the store that is no call on it. -/
theorem CSim.around (h : CSim M A w) {s : Session K V L} {w' : World K V} {a : State K V L}
    (hl : World.Later true w w') (hs : Sim s w' a) (hg : Grew (fun _ => False) A.now a) :
    CSim ({ M with session := s }.seeing) { A with now := a, past := A.now :: A.past } (tick w') :=
  { sim := hs.passes (.step hs.layers.run tick_step) rfl rfl (fun _ hq => hq) rfl
    loaded := fun l hx => hl.loaded l (h.loaded l hx)
    seen := by
      show List.Sublist _ (⟨w'.store, w'.cache⟩ :: w'.seen)
      rw [hs.store, hs.cache]
      exact (h.seen.trans hl.seen).cons_cons _
    top := ⟨M.seen, rfl⟩
    calls := fun u => match_mono (h.calls u) (.step hl tick_step) hg (fun _ _ _ _ hx => hx)
      ⟨[_], rfl⟩ .act h.handlesKnown h.sim.layers.parentKnown
    apart := h.apart
    began := fun u c k h1 => Nat.le_succ_of_le (h.began u c k h1) }

end Verif.Conc

namespace Verif.Trade

open Spec Store Net Conc

variable {K V L : Type} [LinearOrder K] [LinearOrder V] [DecidableEq L]
  {N N' : Shops K V L} {A A' : State K V L}

theorem receive_known {X : Shipment K V} {a : Api.State K V L} {n : Nat} {x : Shipped K V}
    (hX : X n = some x) (m : Nat) : (receive X a n).log.known m ↔ m = n ∨ a.log.known m := by
  unfold receive
  rw [hX]
  show History.known (_ :: _) m ↔ _
  rw [History.known_cons]
  constructor
  · rintro (h | h)
    · exact Or.inl h.symm
    · exact Or.inr h
  · rintro (h | h)
    · exact Or.inl h.symm
    · exact Or.inr h

theorem receive_other {X : Shipment K V} {a : Api.State K V L} {n : Nat} :
    (receive X a n).hidden = a.hidden ∧ (receive X a n).builders = a.builders ∧
      (receive X a n).lost = a.lost ∧ (receive X a n).handles = a.handles := by
  unfold receive
  split <;> exact ⟨rfl, rfl, rfl, rfl⟩

/-- A layer comes into a store. -/
theorem TSim.bring (h : TSim N A) {i n : Nat} {P : Pack K V} {X : Shipment K V} {e : Entry K V}
    (hP : PackSim N.net A.net P X) (he : P.get? n = some e) (hn : (N.net.at i).get? n = none)
    (hp : ∀ p, e.parent = some p → A.net.has i p)
    (ho : ∀ t X' ns', A.jobs t = some (.taking i X' ns') → n ∉ ns') :
    (∃ x, X n = some x ∧ x.parent = e.parent) ∧ (A.stores i).now.Fresh n ∧
    TSim (N.bring i n e) (A.set i { A.stores i with
      now := receive X (A.stores i).now n
      past := (A.stores i).now :: (A.stores i).past }) := by
  obtain ⟨w, hw⟩ := h.sims i
  obtain ⟨x, k, hx, hk, hpar⟩ : ∃ x k, X n = some x ∧ A.net.has k n ∧ x.parent = e.parent := by
    rcases hP n with ⟨h1, _⟩ | ⟨_, x, k, _, _, h1, h2, _, h4, _, _, _, h5, _⟩
    · rw [he] at h1; cases h1
    · rw [he] at h1
      cases h1
      exact ⟨x, k, h2, h4, h5⟩
  have hni : ¬ Knows A i n := (h.get?_none i n).1 hn
  have hnb : ∀ y ∈ (A.stores i).now.builders, y.name ≠ n := by
    rintro y hy rfl
    exact hni (h.born i k y hy (Or.inl hk))
  have hfr : (A.stores i).now.Fresh n :=
    ⟨fun h => hni (Or.inl h), fun h => hni (Or.inr h), hnb, by rw [h.lost i]; simp⟩
  refine ⟨⟨x, hx, hpar⟩, hfr, ?_⟩
  obtain ⟨⟨w', hl, hs⟩, hwi⟩ := h.net.importOne hP hw.sim (Net.within N.net i) he hn
    (by
      intro y hy _ e
      obtain ⟨z, hz, h1⟩ := hw.sim.named hy
      exact hnb z hz (h1.trans e)) hp
  have hkn := receive_known (a := (A.stores i).now) hx
  obtain ⟨r1, r2, r3, r4⟩ := receive_other (X := X) (a := (A.stores i).now) (n := n)
  have hg : Grew (fun _ => False) (A.stores i).now (receive X (A.stores i).now n) := by
    unfold receive
    rw [hx]
    exact Grew.addFresh hfr
  have hc := hw.around hl hs hg
  unfold Shops.bring
  generalize hM : ({ N.shops i with session :=
    { (N.shops i).session with store := (n, e) :: (N.shops i).session.store } } : Shop K V L).seeing =
      M at hc
  have hMs : M.session = { (N.shops i).session with store := (n, e) :: (N.shops i).session.store } := by
    rw [← hM]; rfl
  have hext' : Ext (N.net.at i) ((n, e) :: (N.shops i).session.store) := Ext.cons hn e
  have hext : ∀ j, Ext (N.net.at j) ((N.set i M).net.at j) := by
    intro j
    rw [set_net]
    unfold Stores.at
    by_cases hj : j = i
    · subst hj; rw [set_at, hMs]; exact hext'
    · rw [set_ne _ _ hj]; exact Ext.refl _
  have hknows : ∀ m, ((receive X (A.stores i).now n).log.known m ∨
      m ∈ (receive X (A.stores i).now n).hidden) ↔ m = n ∨ Knows A i m := by
    intro m
    rw [hkn, r1, or_assoc]
    rfl
  have born2 : ∀ j, ∀ y ∈ (A.stores j).now.builders, (y.name = n ∨ Knows A i y.name) →
      Knows A j y.name := by
    rintro j y hy (h1 | h1)
    · refine h.born j k y hy ?_
      rw [h1]; exact Or.inl hk
    · exact h.born j i y hy h1
  have stores_at : ∀ a, (A.set i a).stores i = a := by simp [State.set]
  have stores_ne : ∀ {j} a, j ≠ i → (A.set i a).stores j = A.stores j := by
    intro j a hj; simp [State.set, hj]
  have shops_at : (N.set i M).shops i = M := by simp [Shops.set]
  have shops_ne : ∀ {j}, j ≠ i → (N.set i M).shops j = N.shops j := by
    intro j hj; simp [Shops.set, hj]
  exact {
    sims := by
      intro j
      by_cases hj : j = i
      · subst hj; rw [stores_at, shops_at]; exact ⟨_, hc⟩
      · rw [stores_ne _ hj, shops_ne hj]; exact h.sims j
    net := by
      rw [set_net, aset_net, hMs]
      refine h.net.change hs hext' (fun m hm => (hkn m).2 (Or.inr hm)) ?_ ?_ ?_ ?_ ?_ ?_
      · intro j _ m e1 e2 h1 h2
        obtain ⟨k', e'', h3, h4⟩ := hwi m e1 h1
        exact copy_trans (copy_symm h4) (h.net.agree k' j m e'' e2 h3 h2)
      · intro j _ m hm
        rcases (hkn m).1 hm with rfl | h1
        · exact h.net.kinds k j m hk
        · exact h.net.kinds i j m h1
      · intro j _ m hm
        show m ∉ (receive X (A.stores i).now n).hidden
        rw [r1]
        exact h.net.kinds j i m hm
      · intro j _ y hy hl
        exact h.net.unborn i j y hy hl
      · intro j _ y hy hl
        show Store.get? ((n, e) :: _) y.name = none
        cases hg : Store.get? ((n, e) :: (N.shops i).session.store) y.name with
        | none => rfl
        | some e1 =>
          obtain ⟨k', e'', h3, _⟩ := hwi y.name e1 hg
          rw [h.net.unborn j k' y hy hl] at h3
          cases h3
      · intro j hj y hy z hz
        exact h.net.apart i j (Ne.symm hj) y hy z hz
    lost := by
      intro j
      by_cases hj : j = i
      · subst hj
        rw [stores_at]
        exact r3.trans (h.lost j)
      · rw [stores_ne _ hj]; exact h.lost j
    born := by
      intro j k' y
      unfold Knows
      by_cases hj : j = i <;> by_cases hk' : k' = i
      · subst hj; subst hk'; rw [stores_at]; exact fun _ h => h
      · subst hj
        rw [stores_at, stores_ne _ hk']
        dsimp only
        rw [r2, hknows]
        exact fun hy hz => Or.inr (h.born j k' y hy hz)
      · subst hk'
        rw [stores_at, stores_ne _ hj]
        dsimp only
        rw [hknows]
        exact born2 j y
      · rw [stores_ne _ hk', stores_ne _ hj]; exact h.born j k' y
    apart := by
      intro j k' hjk y
      by_cases hj : j = i <;> by_cases hk' : k' = i
      · exact absurd (hj.trans hk'.symm) hjk
      · subst hj
        rw [stores_at, stores_ne _ hk']
        dsimp only
        rw [r2]
        exact h.apart j k' hjk y
      · subst hk'
        rw [stores_at, stores_ne _ hj]
        dsimp only
        rw [r2]
        exact h.apart j k' hjk y
      · rw [stores_ne _ hk', stores_ne _ hj]; exact h.apart j k' hjk y
    jobs := by
      intro t
      refine (h.jobs t).mono hext ?_ ?_
      · intro j m
        rw [aset_net]
        unfold Net.State.has
        by_cases hj : j = i
        · subst hj; rw [aset_at]; exact fun hm => (hkn m).2 (Or.inr hm)
        · rw [aset_ne _ _ hj]; exact id
      · intro j X' ns' h1 m hm _ h2
        rw [set_net]
        unfold Stores.at
        by_cases hj : j = i
        · subst hj
          rw [set_at, hMs]
          have : n ≠ m := by rintro rfl; exact ho t X' ns' h1 hm
          show Store.get? ((n, e) :: _) m = none
          rw [get?_cons_ne this]
          exact h2
        · rw [set_ne _ _ hj]; exact h2
    once := h.once }

end Verif.Trade
