import Verif.Lemmas.ConcLoad

/-!
The decision of a rollup while other tasks are running: a rollup file that was there is still
there, and the decision is one that could have been made at a single moment.
-/

set_option linter.unusedSectionVars false

namespace Verif

open SimpleBuilder Spec

variable {K V : Type} [LinearOrder K] [LinearOrder V]

namespace World

open Store

/-- A layer that has a rollup keeps having one. -/
theorem Step.rollup_stays {safe : Bool} {w w' : World K V} (h : Step safe w w') {n : Name}
    (hr : (w.store.rollup? n).isSome) : (w'.store.rollup? n).isSome := by
  have hcons : ∀ {new : Name} {e : Entry K V}, w.store.get? new = none →
      (Store.rollup? ((new, e) :: w.store) n).isSome := by
    intro new e hn
    unfold Store.rollup? at hr ⊢
    by_cases hh : new = n
    · rw [← hh, hn] at hr
      simp at hr
    · rw [get?_cons_ne hh]
      exact hr
  cases h with
  | register hm =>
    rename_i m r
    show ((registerRollup w.store m r).rollup? n).isSome
    unfold registerRollup
    split
    · exact hr
    · unfold Store.rollup? at hr ⊢
      rw [get?_setRollup]
      split
      · cases hg : w.store.get? n with
        | none => rw [hg] at hr; simp at hr
        | some e => simp
      · exact hr
  | commitBase hn => exact hcons hn
  | commit _ hn => exact hcons hn
  | importLayer hn => exact hcons hn
  | writeRollup _ hn => exact hcons hn
  | writeSquash _ hn => exact hcons hn
  | writeSquashUpto _ hn => exact hcons hn
  | writeMerge _ hn => exact hcons hn
  | _ => exact hr

theorem Later.rollup_stays {safe : Bool} {w w' : World K V} (h : Later safe w w') {n : Name}
    (hr : (w.store.rollup? n).isSome) : (w'.store.rollup? n).isSome := by
  induction h with
  | now => exact hr
  | step _ hs ih => exact hs.rollup_stays ih

theorem Run.rollups_stay {safe : Bool} {w : World K V} (h : Run safe w) :
    w.seen.Pairwise (fun a b => ∀ n, (b.store.rollup? n).isSome → (a.store.rollup? n).isSome) := by
  induction h with
  | start => simp [World.seen]
  | @step w w' h hs ih =>
    unfold World.seen
    rw [hs.past_eq]
    refine List.pairwise_cons.2 ⟨fun b hb n hn => hs.rollup_stays ?_, ih⟩
    rcases List.mem_cons.1 hb with rfl | hb
    · exact hn
    · exact (List.pairwise_cons.1 ih).1 b hb n hn

/-- A rollup decides something, namely what it would have decided at one of the moments. -/
theorem decides {w : World K V} (h : Run true w) {q : Name}
    {l : InternalLayer K V} (hl : (q, l) ∈ w.held) {v : Nat → View K V} (hv : w.Sees v) :
    ∃ pl, performRollupView v l = .ok pl ∧ ∃ u ∈ w.seen, performRollup u.store l = .ok pl := by
  have hvo := h.inv.sees hv
  obtain ⟨i, hi, hv⟩ := hv
  obtain ⟨Ps, Ns, hok⟩ := ((h.inv.held _ hl).1.reachable h.inv.ok).good
  obtain ⟨d, P, h1, _⟩ := Rollup.deltaRollup_spec hok
  obtain ⟨u, u1, u2, _⟩ := hv 0
  obtain ⟨u', u1', u2', _⟩ := hv 1
  have hu := List.mem_of_getElem? u1
  have hu' := List.mem_of_getElem? u1'
  unfold performRollupView performRollup
  simp only [h1, Out.ofOption, Out.ok_bind, Out.pure_eq]
  cases hp : l.parentName with
  | none => exact ⟨_, rfl, u, hu, rfl⟩
  | some p =>
    simp only
    by_cases h0 : ((v 0).store.rollup? l.name).isSome
    · rw [if_pos h0]
      have h1' : ((v 1).store.rollup? l.name).isSome := by
        rw [u2] at h0
        rw [u2']
        exact pairwise_get h.rollups_stay (fun _ _ h => h) (hi 0) u1' u1 l.name h0
      obtain ⟨r, hr⟩ := Option.isSome_iff_exists.1 h1'
      obtain ⟨_, R, _, hR, _⟩ := (hvo.ok 1).1.rollup hr
      obtain ⟨e, he⟩ := has_iff.1 hR.has
      obtain ⟨e', he', hpar, _⟩ := hvo.mono 1 r e he
      have hpp : (v 2).store.parent? r = (v 1).store.parent? r := by
        unfold Store.parent?
        rw [he, he']
        exact hpar
      rw [hr]
      simp only [hpp]
      split
      · rename_i hh
        refine ⟨_, rfl, u', hu', ?_⟩
        rw [← u2', hr]
        simp only [hh, if_true]
      · rename_i hh
        refine ⟨_, rfl, u', hu', ?_⟩
        rw [← u2', hr]
        simp only [hh]
        rfl
    · rw [if_neg h0]
      refine ⟨_, rfl, u, hu, ?_⟩
      rw [u2] at h0
      cases hr : u.store.rollup? l.name with
      | none => rfl
      | some r => rw [hr] at h0; simp at h0

/-- What is seen from some moment on. -/
theorem Sees.from {w : World K V} {v : Nat → View K V} (hv : w.Sees v) (k : Nat) :
    w.Sees (fun t => v (t + k)) := by
  obtain ⟨i, hi, hv⟩ := hv
  exact ⟨fun t => i (t + k), fun t => by
    show i (t + 1 + k) ≤ i (t + k)
    rw [Nat.add_right_comm]
    exact hi (t + k), fun t => hv (t + k)⟩

/-- What had a rollup at a moment that is seen has one now. -/
theorem Run.rollup_now {safe : Bool} {w : World K V} (h : Run safe w) {v : Nat → View K V}
    (hv : w.Sees v) {t : Nat} {n : Name} (hr : w.store.rollup? n = none) :
    (v t).store.rollup? n = none := by
  obtain ⟨i, _, hv⟩ := hv
  obtain ⟨u, h1, h2, _⟩ := hv t
  rw [h2]
  cases hu : u.store.rollup? n with
  | none => rfl
  | some r =>
    have := pairwise_get h.rollups_stay (fun _ _ h => h) (Nat.zero_le _)
      (show w.seen[0]? = some ⟨w.store, w.cache⟩ from rfl) h1 n (by rw [hu]; rfl)
    simp only [hr] at this
    cases this

/-- A load while other tasks are running ends with a layer that answers as one that is loaded now. -/
theorem Run.loads_alike {w : World K V} (h : Run true w) (hf : w.log.noRollupOfRollup)
    {v : Nat → View K V} (hv : w.Sees v) {m : Name} (hm : (v 0).store.has m = true) {c : Cache K V}
    (hc : CacheOk w.store c) {p : InternalLayer K V} {cs : List (InternalLayer K V)}
    (hp : w.store.getLayer c m = .ok (some p, cs)) :
    ∃ f0, ∀ f, f0 ≤ f → ∃ p' cs', getLayerView v f w.store m = .ok (some p', cs') ∧
      SameAnswers p.stack p'.stack := by
  have hvo := h.inv.sees hv
  obtain ⟨f0, h1⟩ := getLayerView_ends h.inv.ok hvo.ok hvo.mono hvo.rolled hf hm
  refine ⟨f0, fun f hff => ?_⟩
  obtain ⟨p', cs', h2⟩ := h1 f hff
  have k1 := ((getLayer_ok h.inv.ok hc hp).1 p rfl).2
  have k2 := ((getLayerView_sound h.inv.ok hvo.ok hvo.mono h2).1 p' rfl).2
  exact ⟨p', cs', h2, (Stands.alike k1 k2).answers⟩

/-- A rollup down to an ancestor of a layer without rollup decides what it would have decided now. -/
theorem decides_upto {w : World K V} (h : Run true w) (hf : w.log.noRollupOfRollup)
    {mk : Store K V → InternalLayer K V → List (LayerData K V) → Out (LayerData K V)}
    (hmk : ∀ st l S S', SameAnswers S S' → mk st l S = mk st l S')
    {l : InternalLayer K V} {upto : Name} {v : Nat → View K V} (hv : w.Sees v)
    (hr : w.store.rollup? l.name = none) (hm : (v 3).store.has upto = true) {c : Cache K V}
    (hc : CacheOk w.store c) {pl : Plan K V} (hp : performRollupUptoWith mk w.store c l upto = .ok pl) :
    ∃ f0, ∀ f, f0 ≤ f → performRollupUptoWithView mk v f w.store l upto = .ok pl := by
  unfold performRollupUptoWith at hp
  unfold performRollupUptoWithView
  split at hp
  · rename_i h1
    exact ⟨0, fun f _ => by rw [if_pos h1]; exact hp⟩
  rename_i h1
  split at hp
  · rename_i h2
    exact ⟨0, fun f _ => by rw [if_neg h1, if_pos h2]; exact hp⟩
  rename_i h2
  simp only [hr] at hp
  obtain ⟨⟨p, cs⟩, h3, h4⟩ := Out.bind_eq_ok.1 hp
  cases p with
  | none => cases h4
  | some p =>
    obtain ⟨f0, h5⟩ := h.loads_alike hf (hv.from 3) hm hc h3
    refine ⟨f0, fun f hff => ?_⟩
    obtain ⟨p', cs', h6, h7⟩ := h5 f hff
    rw [if_neg h1, if_neg h2, h.rollup_now hv (t := 0) hr]
    simp only [h6, Out.ok_bind, ← hmk w.store l _ _ h7]
    exact h4

/-- A squash down to an ancestor decides what it would have decided now. -/
theorem decides_squashUpto {w : World K V} (h : Run true w) (hf : w.log.noRollupOfRollup)
    {l : InternalLayer K V} {upto : Name} {v : Nat → View K V} (hv : w.Sees v)
    (hm : (v 0).store.has upto = true) {pl : Plan K V} (hp : w.store.squashUpto l upto = .ok pl) :
    ∃ f0, ∀ f, f0 ≤ f → squashUptoView v f w.store l upto = .ok pl := by
  unfold squashUpto at hp
  unfold squashUptoView
  obtain ⟨⟨nv, np⟩, h1, hp⟩ := Out.bind_eq_ok.1 hp
  obtain ⟨ns, h2, hp⟩ := Out.bind_eq_ok.1 hp
  obtain ⟨T, h3, hp⟩ := Out.bind_eq_ok.1 hp
  obtain ⟨⟨p, cs⟩, h4, hp⟩ := Out.bind_eq_ok.1 hp
  cases p with
  | none => cases hp
  | some p =>
    obtain ⟨f0, h5⟩ := h.loads_alike hf hv hm (by intro n l hx; cases hx) h4
    refine ⟨f0, fun f hff => ?_⟩
    obtain ⟨p', cs', h6, h7⟩ := h5 f hff
    simp only [h1, h2, h3, h6, Out.ok_bind]
    have k : Rollup.squashUpto nv np T p'.stack = Rollup.squashUpto nv np T p.stack := by
      unfold Rollup.squashUpto
      rw [h7.nodeAndValueCount, h7.predicateCount]
    rw [k]
    exact hp

end World

end Verif
