import Verif.Lemmas.ApiMake
import Verif.ConcSpec

/-!
Rollups are as specified (`Verif.Api.Step`).
-/

namespace Verif.Api

open Spec SimpleBuilder Store World Session

variable {K V L : Type} [LinearOrder K] [LinearOrder V] [DecidableEq L]
  {s : Session K V L} {w : World K V} {a : State K V L} {ch : Choice K V L}

omit [LinearOrder K] [LinearOrder V] in
theorem remove_sub (c : Cache K V) (n m : Name) (l : InternalLayer K V)
    (h : c.remove n m = some l) : c m = some l := by
  unfold Cache.remove at h
  split at h
  · cases h
  · exact h

/-- A rollup that exists is registered. -/
theorem Sim.registerExisting (h : Sim s w a) {n r : Nat} {q : Name} {l : InternalLayer K V}
    (hl : (q, l) ∈ w.held) (hln : l.name = n) (hr : n = r ∨ w.store.rollup? n = some r)
    (hrun : Run true { w with plans := (.rollup l.name, .existing r) :: w.plans, past := w.seen })
    (new : Name) {c : Req K V L} (hc : Step a c .done a) :
    Simulates a c (s.register new l (.ok (.existing r))) := by
  have _ := hl
  have q1 := Run.step hrun (.keep (List.mem_cons_self ..))
  have q2 := Run.step q1 (.register (List.mem_cons_self ..))
  have q3 := Run.step q2 (.evict (c := w.cache.remove l.name) (remove_sub w.cache l.name))
  have es : { s with store := registerRollup s.store l.name r, cache := s.cache.remove l.name } =
      { s with store := registerRollup w.store l.name r, cache := w.cache.remove l.name } := by
    rw [h.store, h.cache]
  suffices hk : ∀ m, (registerRollup w.store l.name r).get? m = w.store.get? m from
    ⟨_, a, hc, (congrArg (fun z => Sim z _ a) es).mpr (h.rollAgain q3 hk rfl rfl)⟩
  intro m
  · show (registerRollup w.store l.name r).get? m = w.store.get? m
    rw [hln]
    unfold registerRollup
    split
    · rfl
    · rename_i hne
      rcases hr with hr | hr
      · exact absurd hr hne
      · rw [get?_setRollup]
        split
        · rename_i e
          subst e
          unfold Store.rollup? at hr
          cases hg : w.store.get? m with
          | none => rfl
          | some x =>
            rw [hg] at hr
            have : x.rollup = some r := hr
            cases x
            simp only at this
            subst this
            rfl
        · rfl

/-- A rollup is written and registered. -/
theorem Sim.registerNew (h : Sim s w a) (hch : ch.Possible s) {n : Nat} (hn : a.log.known n)
    {l : InternalLayer K V} (hln : l.name = n) {e : Entry K V}
    (hrun : Run true { w with plans := (.rollup l.name, .write e) :: w.plans, past := w.seen })
    (hu : ∀ p, e.parent = some p → a.Under p n) {c : Req K V L}
    (hc : a.Fresh ch.new → Step a c .done (a.roll n e.parent ch.new)) :
    Simulates a c (s.register ch.new l (.ok (.write e))) := by
  obtain ⟨fr, hnew⟩ := h.fresh hch.new.1 hch.new.2 hch.lost
  have q1 := Run.step hrun (.writeRollup (new := ch.new) (List.mem_cons_self ..) hnew)
  have q2 := Run.step q1 (.register (List.mem_cons_self ..))
  have q3 := Run.step q2 (.evict (c := w.cache.remove l.name) (remove_sub w.cache l.name))
  have es : { s with store := registerRollup ((ch.new, e) :: s.store) l.name ch.new,
                     cache := s.cache.remove l.name } =
      { s with store := registerRollup ((ch.new, e) :: w.store) l.name ch.new,
               cache := w.cache.remove l.name } := by
    rw [h.store, h.cache]
  subst hln
  exact ⟨_, _, hc fr, (congrArg (fun z => Sim z _ _) es).mpr
    (h.roll q3 (n := l.name) (e := e) hnew fr.2.2.1 hn rfl rfl rfl hu)⟩

/-- What a rollup `c` of the layer `l`, which is `n`, can decide. -/
inductive RollPlan (w : World K V) (a : State K V L) (c : Req K V L) (n : Nat)
    (l : InternalLayer K V) : Out (Plan K V) → Prop
  | existing {k} : n = k ∨ (w.store.rollup? n = some k ∧ Conc.Rolls a c n (w.store.parent? k)) →
      Step a c .done a →
      World.Step true w { w with plans := (.rollup l.name, .existing k) :: w.plans, past := w.seen } →
      RollPlan w a c n l (.ok (.existing k))
  | wrong : Step a c .failed a → RollPlan w a c n l .err
  | write {e} : (∀ p, e.parent = some p → a.Under p n) → Conc.Rolls a c n e.parent →
      Conc.Needs a n e.parent →
      (∀ new, a.Fresh new → Step a c .done (a.roll n e.parent new)) →
      World.Step true w { w with plans := (.rollup l.name, .write e) :: w.plans, past := w.seen } →
      RollPlan w a c n l (.ok (.write e))

/-- It does what it has decided. -/
theorem Sim.register (h : Sim s w a) (hch : ch.Possible s) {n : Nat} (hn : a.log.known n)
    {l : InternalLayer K V} (hl : (n, l) ∈ w.held) (hln : l.name = n) {c : Req K V L}
    {pl : Out (Plan K V)} (hp : RollPlan w a c n l pl) :
    Simulates a c (s.register ch.new l pl) := by
  cases hp with
  | existing h1 h2 h3 =>
    exact h.registerExisting hl hln (h1.imp id And.left) (.step h.layers.run h3) _ h2
  | wrong h1 => exact ⟨w, a, h1, h⟩
  | write h1 _ _ h3 h4 => exact h.registerNew hch hn hln (.step h.layers.run h4) h1 (h3 _)

/-- What `rollup` decides. -/
theorem Sim.planRollup (h : Sim s w a) {i n : Nat} (hi : a.handles[i]? = some n)
    (hn : a.log.known n) {l : InternalLayer K V} (hl : (n, l) ∈ w.held) :
    RollPlan w a (.rollup i) n l (Store.performRollup w.store l) := by
  have hlo := (h.layers.run.inv.held _ hl).1
  obtain ⟨hln, hlp⟩ := h.layers.named hn hl
  obtain ⟨pl, hpl⟩ := performRollup_total h.layers.run.inv.ok hlo
  have hrun := World.Step.planRollup (safe := true) hl hpl
  have hrolled := h.layers.rolledIs n hn
  rw [hpl]
  unfold performRollup at hpl
  rw [hlp, hln] at hpl
  cases hp : a.log.parent n with
  | none =>
    rw [hp] at hpl
    dsimp only at hpl
    cases hpl
    exact .existing (Or.inl rfl) (.rollupNothing hi (Or.inl hp)) hrun
  | some p =>
    rw [hp] at hpl
    dsimp only at hpl
    have hpn : a.log.parent n ≠ none := by rw [hp]; simp
    have key : ((Out.ofOption (Rollup.deltaRollup l.stack)).bind fun d =>
        .ok (.write { parent := none, data := d })) = .ok pl → a.rolled n ≠ some none →
        RollPlan w a (.rollup i) n l (.ok pl) := by
      intro hw hnr
      obtain ⟨d, _, hd⟩ := Out.bind_eq_ok.1 hw
      cases hd
      exact .write (by intro p hp; cases hp) (.all hi hpn) hnr
        (fun new fr => .rollup hi hpn hnr fr) hrun
    cases hr : w.store.rollup? n with
    | none =>
      rw [hr] at hpl hrolled
      exact key hpl (by rw [hrolled]; simp)
    | some r =>
      rw [hr] at hpl hrolled
      dsimp only at hpl
      cases hq : w.store.parent? r with
      | none =>
        rw [hq] at hpl
        simp only [Option.isNone_none, if_true] at hpl
        cases hpl
        exact .existing (Or.inr ⟨hr, by rw [hq]; exact .all hi hpn⟩)
          (.rollupNothing hi (Or.inr (by rw [hrolled]; simp [hq]))) hrun
      | some m =>
        rw [hq] at hpl
        simp only [Option.isNone_some, Bool.false_eq_true, if_false] at hpl
        exact key hpl (by rw [hrolled]; simp [hq])

theorem Sim.rollup (h : Sim s w a) (hch : ch.Possible s) {i : Nat} (hi : a.Held i) :
    Simulates a (.rollup i) (s.perform ch (.rollup i)) := by
  obtain ⟨n, hi⟩ := hi
  obtain ⟨x, hx, hn, hxh⟩ := h.handle hi
  obtain ⟨hxn, _⟩ := h.layers.named hn hxh
  simp only [perform]
  rw [h.withLayer hx, hxn]
  obtain ⟨l, w1, h1, h2, h3, h4, h5⟩ := h.load hn .failed
  rw [h1]
  have hl : (n, l) ∈ w1.held := by rw [h5]; exact List.mem_cons_self ..
  have hch' : ch.Possible { s with cache := w1.cache } :=
    ⟨hch.new, hch.nv, hch.pm, hch.calls, hch.labels, hch.keep, hch.keep2, hch.lost⟩
  have hplan := h2.planRollup hi hn hl
  rw [h2.store] at hplan
  exact h2.register hch' hn hl (h2.layers.named hn hl).1 hplan

/-- What the two rollups down to an ancestor have in common. -/
theorem Sim.rollupUptoWith (h : Sim s w a) {i j n m : Nat}
    (hi : a.handles[i]? = some n) (hj : a.handles[j]? = some m)
    (hn : a.log.known n) (hm : a.log.known m) {l : InternalLayer K V} (hl : (n, l) ∈ w.held)
    {mk : Store K V → InternalLayer K V → List (LayerData K V) → Out (LayerData K V)}
    {c : Cache K V} (hc : CacheOk w.store c)
    (hmk : ¬ a.Under m n → ∀ S, mk w.store l S = .err)
    (hplan : ∀ pl, performRollupUptoWith mk w.store c l m = .ok pl →
      ((∃ e, pl = .write e) → a.Under m n ∧ a.Unrolled n m) →
      World.Step true w { w with plans := (.rollup l.name, pl) :: w.plans, past := w.seen })
    (hgood : a.Under m n → a.Unrolled n m → a.log.parent n ≠ some m →
      ∃ e, performRollupUptoWith mk w.store c l m = .ok (.write e) ∧ e.parent = some m)
    (hin : n = m ∨ a.log.parent n = some m ∨ ¬ a.Under m n ∨
        a.rolled n = some none ∨ a.rolled n = some (some m) ∨ a.Unrolled n m)
    {r : Req K V L} (hr : r = .rollupUpto i j ∨ r = .impreciseRollupUpto i j) :
    RollPlan w a r n l (performRollupUptoWith mk w.store c l m) := by
  obtain ⟨hln, hlp⟩ := h.layers.named hn hl
  have hrolled := h.layers.rolledIs n hn
  have existing : ∀ k, performRollupUptoWith mk w.store c l m = .ok (.existing k) →
      (n = k ∨ (w.store.rollup? n = some k ∧ Conc.Rolls a r n (w.store.parent? k))) →
      (n = m ∨ a.log.parent n = some m ∨ (a.Under m n ∧ a.rolled n = some (some m))) →
      RollPlan w a r n l (performRollupUptoWith mk w.store c l m) := by
    intro k hk hnk hx
    have hrun := hplan _ hk (by rintro ⟨e, he⟩; cases he)
    rw [hk]
    exact .existing hnk (.rollupUptoNothing hi hj hx hr) hrun
  by_cases hnm : n = m
  · subst hnm
    refine existing n ?_ (Or.inl rfl) (Or.inl rfl)
    unfold performRollupUptoWith
    rw [if_pos hln, hln]
  by_cases hpm : a.log.parent n = some m
  · refine existing n ?_ (Or.inl rfl) (Or.inr (Or.inl hpm))
    unfold performRollupUptoWith
    rw [if_neg (by rw [hln]; exact hnm), if_pos (by rw [hlp]; exact hpm), hln]
  have hform : performRollupUptoWith mk w.store c l m =
      (let write : Out (Plan K V) := do
        let r ← w.store.getLayer c m
        match r.1 with
        | none => .err
        | some pl => do
          let d ← mk w.store l pl.stack
          return .write { parent := some m, data := d }
      match w.store.rollup? n with
      | none => write
      | some r =>
        match w.store.parent? r with
        | none => .err
        | some p => if m = p then .ok (.existing r) else write) := by
    rw [performRollupUptoWith, if_neg (by rw [hln]; exact hnm), if_neg (by rw [hlp]; exact hpm), hln]
    rfl
  have hfail : performRollupUptoWith mk w.store c l m = .err → ¬ a.Under m n ∨ a.rolled n = some none →
      RollPlan w a r n l (performRollupUptoWith mk w.store c l m) := by
    intro he hx
    rw [he]
    exact .wrong (.rollupUptoWrong hi hj hnm hpm hx hr)
  have hwrite : ¬ a.Under m n → ((do
        let r ← w.store.getLayer c m
        match r.1 with
        | none => .err
        | some pl => do
          let d ← mk w.store l pl.stack
          return .write { parent := some m, data := d }) : Out (Plan K V)) = .err := by
    intro hu
    obtain ⟨⟨lo, cs⟩, k1, k2⟩ := getLayer_total h.layers.run.inv.ok hc m
    rw [k1, Out.ok_bind]
    cases lo with
    | none => rfl
    | some pl =>
      dsimp only
      rw [hmk hu]
      rfl
  have hnew : a.Under m n → a.Unrolled n m →
      RollPlan w a r n l (performRollupUptoWith mk w.store c l m) := by
    intro hu hx
    obtain ⟨e, he, hep⟩ := hgood hu hx hpm
    have hrun := hplan _ he (fun _ => ⟨hu, hx⟩)
    rw [he]
    refine .write (fun p hp => ?_) ?_ ?_ (fun new fr => ?_) hrun
    · rw [hep] at hp; cases hp; exact hu
    · rw [hep]; exact .upto hi hj hr hu hpm
    · rw [hep]; exact ⟨hnm, hx⟩
    · rw [hep]; exact .rollupUpto hi hj hnm hpm hu hx fr hr
  cases hro : w.store.rollup? n with
  | none =>
    rw [hro] at hrolled
    rw [hro] at hform
    dsimp only at hform
    by_cases hu : a.Under m n
    · refine hnew hu ?_
      rcases hin with h1 | h1 | h1 | h1 | h1 | h1
      · exact absurd h1 hnm
      · exact absurd h1 hpm
      · exact absurd hu h1
      · rw [hrolled] at h1; cases h1
      · rw [hrolled] at h1; cases h1
      · exact h1
    · exact hfail (by rw [hform]; exact hwrite hu) (Or.inl hu)
  | some k =>
    rw [hro] at hrolled
    rw [hro] at hform
    dsimp only at hform
    cases hpk : w.store.parent? k with
    | none =>
      rw [hpk] at hform
      exact hfail hform (Or.inr (by rw [hrolled]; simp [hpk]))
    | some p =>
      rw [hpk] at hform
      dsimp only at hform
      have hrp : a.rolled n = some (some p) := by rw [hrolled]; simp [hpk]
      by_cases hmp : m = p
      · subst hmp
        rw [if_pos rfl] at hform
        have hum := h.layers.under n m hrp
        exact existing k hform (Or.inr ⟨hro, by rw [hpk]; exact .upto hi hj hr hum hpm⟩)
          (Or.inr (Or.inr ⟨hum, hrp⟩))
      · rw [if_neg hmp] at hform
        by_cases hu : a.Under m n
        · rcases hin with h1 | h1 | h1 | h1 | h1 | h1
          · exact absurd h1 hnm
          · exact absurd h1 hpm
          · exact absurd hu h1
          · rw [hrp] at h1; cases h1
          · rw [hrp] at h1; injection h1 with h1; injection h1 with h1; exact absurd h1.symm hmp
          · have := h1 n (.self n) hu
            rw [hrp] at this; cases this
        · exact hfail (by rw [hform]; exact hwrite hu) (Or.inl hu)

/-- Nothing above the bound is rolled up. -/
theorem Sim.untouched (h : Sim s w a) {n m : Nat} (hn : a.log.known n) (hx : a.Unrolled n m) :
    ∀ k, w.log.Ancestor k n → (∃ p, w.log.parent k = some p ∧ w.log.Ancestor m p) →
      w.store.rollup? k = none ∧ ∀ r, ¬ w.log.rolledUp r k := by
  intro k hk hu
  have hk' := (h.layers.ancestor hn).1 hk
  have hkn := h.layers.ancestorKnown hn hk'
  have hr := hx k hk' ((h.layers.underIff hkn).1 hu)
  constructor
  · have h2 := h.layers.rolledIs k hkn
    rw [hr] at h2
    cases hq : w.store.rollup? k with
    | none => rfl
    | some x => rw [hq] at h2; cases h2
  · intro r hr'
    exact h.layers.apart k hkn ((h.layers.hid k).2 ⟨r, hr'⟩)

theorem Sim.safeUptoBound (h : Sim s w a) {n m : Nat} (hn : a.log.known n)
    {l : InternalLayer K V} (hl : (n, l) ∈ w.held) (hnm : n ≠ m) (hu : ¬ a.Under m n) :
    w.store.safeUptoBound l m = .err := by
  obtain ⟨hln, hlp⟩ := h.layers.named hn hl
  obtain ⟨_, u2⟩ := h.layers.run.shape.closed.stackNamesUpto h.layers.run.shape.parent n m
  unfold Store.safeUptoBound
  rw [hln, if_neg hnm, u2 (fun hx => hu ((h.layers.underIff hn).1 hx))]
  rfl

/-- What `rollup_upto` decides. -/
theorem Sim.planUpto (h : Sim s w a) {i j n m : Nat}
    (hi : a.handles[i]? = some n) (hj : a.handles[j]? = some m)
    (hin : n = m ∨ a.log.parent n = some m ∨ ¬ a.Under m n ∨
        a.rolled n = some none ∨ a.rolled n = some (some m) ∨ a.Unrolled n m)
    {l : InternalLayer K V} (hl : (n, l) ∈ w.held) {c : Cache K V}
    (hsub : ∀ n l, c n = some l → w.cache n = some l) :
    RollPlan w a (.rollupUpto i j) n l (Store.performRollupUpto w.store c l m) := by
  obtain ⟨_, _, hn, _⟩ := h.handle hi
  obtain ⟨_, _, hm, _⟩ := h.handle hj
  obtain ⟨hln, hlp⟩ := h.layers.named hn hl
  have hcok : CacheOk w.store c := (Run.step h.layers.run (.evict (c := c) hsub)).inv.cache
  have hplan : a.Under m n → a.Unrolled n m → _ := fun hu hx =>
    h.layers.run.rollupUpto_plan h.layers.flat hl ((h.layers.underIff hn).2 hu)
      (h.untouched hn hx) hcok
  show RollPlan w a _ n l (performRollupUptoWith (preciseDelta m) w.store c l m)
  by_cases hnm : n = m
  · subst hnm
    have hpl : performRollupUptoWith (preciseDelta n) w.store c l n = .ok (.existing l.name) := by
      unfold performRollupUptoWith
      rw [if_pos hln]
    rw [hpl]
    exact .existing (Or.inl hln.symm) (.rollupUptoNothing hi hj (Or.inl rfl) (Or.inl rfl))
      (.planRollupUpto hl hsub (by intro _ e he; cases he) hpl)
  refine h.rollupUptoWith hi hj hn hm hl hcok ?_ ?_ ?_ hin (Or.inl rfl)
  · intro hu S
    unfold preciseDelta
    rw [h.safeUptoBound hn hl hnm hu]
    rfl
  · intro pl hpl hw
    refine .planRollupUpto hl hsub ?_ hpl
    intro _ e he
    obtain ⟨hu, hx⟩ := hw ⟨e, he⟩
    exact (hplan hu hx).1
  · intro hu hx hp
    exact ((hplan hu hx).2.2 (by rw [h.layers.parent n hn]; exact hp)).1

theorem Sim.rollupUpto (h : Sim s w a) (hch : ch.Possible s) {i j : Nat}
    (hin : InContract a (.rollupUpto i j)) :
    Simulates a (.rollupUpto i j) (s.perform ch (.rollupUpto i j)) := by
  obtain ⟨n, m, hi, hj, hin⟩ := hin
  obtain ⟨x, hx, hn, hxh⟩ := h.handle hi
  obtain ⟨hxn, _⟩ := h.layers.named hn hxh
  obtain ⟨y, hy, hm, hyh⟩ := h.handle hj
  obtain ⟨hym, _⟩ := h.layers.named hm hyh
  simp only [perform]
  rw [h.withLayer hx, h.withLayer hy, hxn, hym]
  obtain ⟨l, w1, h1, h2, h3, h4, h5⟩ := h.load hn .failed
  rw [h1]
  have hl : (n, l) ∈ w1.held := by rw [h5]; exact List.mem_cons_self ..
  have hch' : ch.Possible { s with cache := w1.cache } :=
    ⟨hch.new, hch.nv, hch.pm, hch.calls, hch.labels, hch.keep, hch.keep2, hch.lost⟩
  have hplan := h2.planUpto hi hj hin hl (c := ch.keep2 w1.cache) (hch.keep2 w1.cache)
  rw [h2.store] at hplan
  exact h2.register hch' hn hl (h2.layers.named hn hl).1 hplan

/-- What `imprecise_rollup_upto` decides. -/
theorem Sim.planImprecise (h : Sim s w a) {i j n m : Nat}
    (hi : a.handles[i]? = some n) (hj : a.handles[j]? = some m)
    (hin : n = m ∨ a.log.parent n = some m ∨ ¬ a.Under m n ∨
        a.rolled n = some none ∨ a.rolled n = some (some m) ∨ a.Unrolled n m)
    {l : InternalLayer K V} (hl : (n, l) ∈ w.held) {c : Cache K V}
    (hsub : ∀ n l, c n = some l → w.cache n = some l) :
    RollPlan w a (.impreciseRollupUpto i j) n l (Store.performImpreciseRollupUpto w.store c l m) := by
  obtain ⟨_, _, hn, _⟩ := h.handle hi
  obtain ⟨_, _, hm, _⟩ := h.handle hj
  obtain ⟨hln, hlp⟩ := h.layers.named hn hl
  have hcok : CacheOk w.store c := (Run.step h.layers.run (.evict (c := c) hsub)).inv.cache
  have hplan : a.Under m n → a.Unrolled n m → _ := fun hu hx =>
    h.layers.run.rollupUpto_plan h.layers.flat hl ((h.layers.underIff hn).2 hu)
      (h.untouched hn hx) hcok
  show RollPlan w a _ n l (performRollupUptoWith (impreciseDelta m) w.store c l m)
  by_cases hnm : n = m
  · subst hnm
    have hpl : performRollupUptoWith (impreciseDelta n) w.store c l n = .ok (.existing l.name) := by
      unfold performRollupUptoWith
      rw [if_pos hln]
    rw [hpl]
    exact .existing (Or.inl hln.symm) (.rollupUptoNothing hi hj (Or.inl rfl) (Or.inr rfl))
      (.planImpreciseRollupUpto hl hsub (by intro _ e he; cases he) hpl)
  refine h.rollupUptoWith hi hj hn hm hl hcok ?_ ?_ ?_ hin (Or.inr rfl)
  · intro hu S
    unfold impreciseDelta
    rw [h.safeUptoBound hn hl hnm hu]
    rfl
  · intro pl hpl hw
    refine .planImpreciseRollupUpto hl hsub ?_ hpl
    intro _ e he
    obtain ⟨hu, hx⟩ := hw ⟨e, he⟩
    exact (hplan hu hx).2.1
  · intro hu hx hp
    exact ((hplan hu hx).2.2 (by rw [h.layers.parent n hn]; exact hp)).2

theorem Sim.impreciseRollupUpto (h : Sim s w a) (hch : ch.Possible s) {i j : Nat}
    (hin : InContract a (.impreciseRollupUpto i j)) :
    Simulates a (.impreciseRollupUpto i j) (s.perform ch (.impreciseRollupUpto i j)) := by
  obtain ⟨n, m, hi, hj, hin⟩ := hin
  obtain ⟨x, hx, hn, hxh⟩ := h.handle hi
  obtain ⟨hxn, _⟩ := h.layers.named hn hxh
  obtain ⟨y, hy, hm, hyh⟩ := h.handle hj
  obtain ⟨hym, _⟩ := h.layers.named hm hyh
  simp only [perform]
  rw [h.withLayer hx, h.withLayer hy, hxn, hym]
  obtain ⟨l, w1, h1, h2, h3, h4, h5⟩ := h.load hn .failed
  rw [h1]
  have hl : (n, l) ∈ w1.held := by rw [h5]; exact List.mem_cons_self ..
  have hch' : ch.Possible { s with cache := w1.cache } :=
    ⟨hch.new, hch.nv, hch.pm, hch.calls, hch.labels, hch.keep, hch.keep2, hch.lost⟩
  have hplan := h2.planImprecise hi hj hin hl (c := noCache) (by intro n l hx; cases hx)
  rw [h2.store] at hplan
  exact h2.register hch' hn hl (h2.layers.named hn hl).1 hplan

end Verif.Api
