import Verif.Lemmas.CrashInv
import Verif.Lemmas.Forms

/-!
Loading from the files of a process: what a new process reads is what the store has.
-/

set_option linter.unusedSectionVars false

namespace Verif

variable {K V : Type} [LinearOrder K] [LinearOrder V]

open Store

namespace Proc

variable {c : LayerCodec K V} {trunc : Bool} {p : Proc K V}

theorem Inv.readParent (h : Inv c trunc p) {n : Name} (hn : p.world.store.has n = true) :
    p.disk.parent n = .ok (p.world.store.parent? n) := by
  obtain ⟨e, he⟩ := has_iff.1 hn
  have hf := h.file n e he FileKind.parent (by decide)
  have hp : p.world.store.parent? n = e.parent := by simp [parent?, he]
  rw [show target c e FileKind.parent = e.parent.map (fun q => parentFile (layerName q)) from rfl] at hf
  unfold Disk.parent
  rw [hf, hp]
  cases hq : e.parent with
  | none => rfl
  | some q =>
    have hs : q < nameLimit := by
      refine h.small q ?_
      obtain ⟨S, hS, _⟩ := h.run.inv.ok.raw he
      exact hS.parent_has (hp.trans hq)
    have hr : readParentFile (parentFile (layerName q)) = .ok (layerName q) := by
      unfold readParentFile parentFile bytesToName
      have hl := nameToString_length (layerName q)
      rw [if_neg (by omega), List.take_of_length_le (by omega), if_neg (by omega),
        utf8Lossy_ascii _ nameToString_ascii, stringToName_nameToString]
    simp only [Option.map_some, hr, Out.ok_bind, Out.pure_eq, num_layerName hs]

theorem Inv.readRollup (h : Inv c trunc p) {n : Name} (hn : p.world.store.has n = true)
    (ht : ¬ p.Torn n) : p.disk.rollup n = .ok (p.world.store.rollup? n) := by
  obtain ⟨e, he⟩ := has_iff.1 hn
  have hp : p.world.store.rollup? n = e.rollup := by simp [rollup?, he]
  unfold Disk.rollup
  rw [hp]
  rcases h.rollup n e he ht with ⟨h1, h2⟩ | ⟨r, b, h1, h2, h3⟩
  · rw [h1, h2]
  · rw [h1, h2]
    have hs : r < nameLimit := by
      refine h.small r ?_
      obtain ⟨_, R, _, hR, _⟩ := h.run.inv.ok.rollup (hp.trans h1)
      exact hR.has
    simp only [h3.read, Out.ok_bind, Out.pure_eq, num_layerName hs]

theorem Inv.readTorn (h : Inv c trunc p) {n : Name} (ht : p.Torn n) (hc : trunc = true) :
    p.disk.rollup n = .err := by
  obtain ⟨b, h1, h2⟩ := h.torn n ht
  obtain ⟨x, i, h3, rfl⟩ := h2 hc
  unfold Disk.rollup
  rw [h1]
  simp only [readRollupFile_short x h3]
  rfl

/-- The search for the base layer, on the files and on the store. -/
theorem Inv.find (h : Inv c trunc p) : ∀ (f t : Nat) (q : Pending) (rest : List Pending),
    p.world.store.has q.current = true →
    (∃ m, p.world.store.Passes q.current m ∧ p.Torn m ∧
      (trunc = true → p.disk.find f (q :: rest) = .err ∨
        findAncestor (fun _ => ⟨p.world.store, noCache⟩) f t (q :: rest) = .panic)) ∨
    p.disk.find f (q :: rest) =
      (findAncestor (fun _ => ⟨p.world.store, noCache⟩) f t (q :: rest) >>= fun r => .ok r.2)
  | 0, t, q, rest, _ => by right; rfl
  | f + 1, t, q, rest, hq => by
    by_cases ht : p.Torn q.current
    · left
      refine ⟨_, .self, ht, fun hc => Or.inl ?_⟩
      simp only [Disk.find, h.readTorn ht hc]
      rfl
    · have hr := h.readRollup hq ht
      have hp := h.readParent hq
      cases hro : p.world.store.rollup? q.current with
      | some r =>
        rw [hro] at hr
        by_cases hrc : r = q.current
        · right
          simp only [Disk.find, hr, Out.ok_bind, findAncestor, noCache, hro, hrc, if_true]
          rfl
        · have hhas : p.world.store.has r = true := by
            obtain ⟨_, R, _, hR, _⟩ := h.run.inv.ok.rollup hro
            exact hR.has
          have e1 : p.disk.find (f + 1) (q :: rest) = p.disk.find f
              ((q.current, some (r, p.world.store.parent? q.current)) :: rest) := by
            simp only [Disk.find, hr, hp, Out.ok_bind, hrc, if_false]
          have e2 : findAncestor (fun _ => ⟨p.world.store, noCache⟩) (f + 1) t (q :: rest) =
              findAncestor (fun _ => ⟨p.world.store, noCache⟩) f (t + 1)
                ((q.current, some (r, p.world.store.parent? q.current)) :: rest) := by
            simp only [findAncestor, noCache, hro, hrc, if_false]
          rw [e1, e2]
          rcases Inv.find h f (t + 1) (q.current, some (r, p.world.store.parent? q.current)) rest hhas
            with ⟨m, k1, k2⟩ | k
          · exact Or.inl ⟨m, .rollup hro k1, k2⟩
          · exact Or.inr k
      | none =>
        rw [hro] at hr
        cases hpa : p.world.store.parent? q.current with
        | some p' =>
          rw [hpa] at hp
          have hhas : p.world.store.has p' = true := by
            obtain ⟨S, _, hS, _⟩ := AlikeN.self h.run.inv.ok hq
            exact hS.parent_has hpa
          have e1 : p.disk.find (f + 1) (q :: rest) = p.disk.find f ((p', none) :: q :: rest) := by
            simp only [Disk.find, hr, hp, Out.ok_bind]
          have e2 : findAncestor (fun _ => ⟨p.world.store, noCache⟩) (f + 1) t (q :: rest) =
              findAncestor (fun _ => ⟨p.world.store, noCache⟩) f (t + 1)
                ((p', none) :: q :: rest) := by
            simp only [findAncestor, noCache, hro, hpa]
          rw [e1, e2]
          rcases Inv.find h f (t + 1) (p', none) (q :: rest) hhas with ⟨m, k1, k2⟩ | k
          · exact Or.inl ⟨m, .parent hro hpa k1, k2⟩
          · exact Or.inr k
        | none =>
          rw [hpa] at hp
          right
          simp only [Disk.find, hr, hp, Out.ok_bind, findAncestor, noCache, hro, hpa]

/-- The contents of a layer are read back. -/
theorem Inv.readData (h : Inv c trunc p) {n : Name} {e : Entry K V}
    (he : p.world.store.get? n = some e) : ∃ d', c.read e.parent.isSome (p.disk.file n) = .ok d' ∧
      ∀ T, d'.onTop T = e.data.onTop T := by
  obtain ⟨S, hS, hr, _⟩ := h.run.inv.ok.raw he
  have hown := h.run.inv.ok.own he hS
  have key : ∀ S', S = e.data :: S' → e.parent.isSome = !S'.isEmpty → ∃ d',
      c.read e.parent.isSome (p.disk.file n) = .ok d' ∧ ∀ T, d'.onTop T = e.data.onTop T := by
    intro S' e1 e2
    rw [e1] at hr
    rw [e2]
    have hform := h.run.forms.store n e he
    unfold Entry.Form at hform
    refine c.read_files hr (fun e3 => ?_) (fun e3 => ?_) _ ?_
    · subst e3
      cases hp : e.parent with
      | none => rw [hp] at hform; exact hform
      | some q => rw [hp] at e2; cases e2
    · cases hp : e.parent with
      | none =>
        rw [hp] at e2
        cases S' with
        | nil => exact absurd rfl e3
        | cons _ _ => cases e2
      | some q => rw [hp] at hform; exact hform
    intro k k1 k2
    rw [h.file n e he k k2, ← e2]
    simp only [target, k1, k2, if_false]
  cases hS with
  | base g1 g2 =>
    rw [he] at g1
    cases g1
    refine key [] ?_ (by rw [g2]; rfl)
    simp only [List.head?_cons, Option.some.injEq] at hown
    rw [hown]
  | @child _ e' q S' g1 g2 g3 =>
    rw [he] at g1
    cases g1
    refine key S' ?_ ?_
    · simp only [List.head?_cons, Option.some.injEq] at hown
      rw [hown]
    · rw [g2]
      obtain ⟨_, _⟩ | ⟨_, _, _⟩ := g3 <;> rfl

theorem Inv.readLoad (h : Inv c trunc p) {n : Name} {d : LayerData K V}
    (hd : load p.world.store n = .ok d) {b : Bool} (hb : (p.world.store.parent? n).isSome = b) :
    ∃ d', c.read b (p.disk.file n) = .ok d' ∧ ∀ T, d'.onTop T = d.onTop T := by
  unfold load at hd
  cases he : p.world.store.get? n with
  | none => rw [he] at hd; cases hd
  | some e =>
    rw [he] at hd
    cases hd
    have : p.world.store.parent? n = e.parent := by simp [parent?, he]
    rw [← hb, this]
    exact h.readData he

theorem Inv.loadBase (h : Inv c trunc p) {q : Pending} (hp : p.world.store.parent? q.current = none)
    {l : InternalLayer K V} {cs : List (InternalLayer K V)}
    (hl : Store.loadBase p.world.store q = .ok (l, cs)) : Disk.loadBase c p.disk q = .ok l := by
  obtain ⟨n, ro⟩ := q
  cases ro with
  | none =>
    simp only [Store.loadBase] at hl
    obtain ⟨d, h1, h2⟩ := Out.bind_eq_ok.1 hl
    simp only [Out.pure_eq, Out.ok.injEq, Prod.mk.injEq] at h2
    obtain ⟨d', k1, k2⟩ := h.readLoad h1 (b := false) (by
      rw [show p.world.store.parent? n = none from hp]; rfl)
    simp only [Disk.loadBase, k1, Out.ok_bind, Out.pure_eq, k2, h2.1]
  | some ro =>
    obtain ⟨r, op⟩ := ro
    simp only [Store.loadBase] at hl
    obtain ⟨d, h1, h2⟩ := Out.bind_eq_ok.1 hl
    simp only [Out.pure_eq, Out.ok.injEq, Prod.mk.injEq] at h2
    obtain ⟨d', k1, k2⟩ := h.readLoad h1 (b := false) (by
      rw [show p.world.store.parent? r = none from hp]; rfl)
    simp only [Disk.loadBase, k1, Out.ok_bind, Out.pure_eq, k2, h2.1]

theorem Inv.loadChild (h : Inv c trunc p) {q : Pending} {m : Name}
    (hp : p.world.store.parent? q.current = some m) {anc l : InternalLayer K V}
    {cs : List (InternalLayer K V)}
    (hl : Store.loadChild p.world.store anc q = .ok (l, cs)) :
    Disk.loadChild c p.disk anc q = .ok l := by
  obtain ⟨n, ro⟩ := q
  cases ro with
  | none =>
    simp only [Store.loadChild] at hl
    obtain ⟨d, h1, h2⟩ := Out.bind_eq_ok.1 hl
    simp only [Out.pure_eq, Out.ok.injEq, Prod.mk.injEq] at h2
    obtain ⟨d', k1, k2⟩ := h.readLoad h1 (b := true) (by
      rw [show p.world.store.parent? n = some m from hp]; rfl)
    simp only [Disk.loadChild, k1, Out.ok_bind, Out.pure_eq, k2, h2.1]
  | some ro =>
    obtain ⟨r, op⟩ := ro
    cases op with
    | none => simp [Store.loadChild] at hl
    | some o =>
      simp only [Store.loadChild] at hl
      obtain ⟨d, h1, h2⟩ := Out.bind_eq_ok.1 hl
      simp only [Out.pure_eq, Out.ok.injEq, Prod.mk.injEq] at h2
      obtain ⟨d', k1, k2⟩ := h.readLoad h1 (b := true) (by
        rw [show p.world.store.parent? r = some m from hp]; rfl)
      simp only [Disk.loadChild, k1, Out.ok_bind, Out.pure_eq, k2, h2.1]

theorem Inv.loadChildren (h : Inv c trunc p) {n : Name} : ∀ (qs : List Pending) {m : Name}
    {anc l : InternalLayer K V} {cs cs' : List (InternalLayer K V)} (_ : Need p.world.store n qs m)
    (_ : Store.loadChildren p.world.store anc qs cs = .ok (l, cs')),
    Disk.loadChildren c p.disk anc qs = .ok l
  | [], m, anc, l, cs, cs', _, hl => by
    simp only [Store.loadChildren, Out.ok.injEq, Prod.mk.injEq] at hl
    simp only [Disk.loadChildren, hl.1]
  | q :: qs, m, anc, l, cs, cs', hn, hl => by
    obtain ⟨_, h2, p', h3, _⟩ := hn
    simp only [Store.loadChildren] at hl
    obtain ⟨⟨l1, c1⟩, k1, k2⟩ := Out.bind_eq_ok.1 hl
    simp only [Disk.loadChildren, h.loadChild h2 k1, Out.ok_bind]
    exact Inv.loadChildren h qs h3 k2

theorem findAncestor_noCache {st : Store K V} : ∀ (f t : Nat) (qs : List Pending)
    {r : Option (InternalLayer K V) × List Pending},
    findAncestor (fun _ => ⟨st, noCache⟩) f t qs = .ok r → r.1 = none
  | 0, _, _, _, h => by simp [findAncestor] at h
  | _ + 1, _, [], _, h => by simp [findAncestor] at h
  | f + 1, t, q :: rest, r, h => by
    simp only [findAncestor, noCache] at h
    cases hr : st.rollup? q.current with
    | some x =>
      simp only [hr] at h
      split at h
      · cases h
      · exact findAncestor_noCache f _ _ h
    | none =>
      simp only [hr] at h
      cases hp : st.parent? q.current with
      | some x =>
        simp only [hp] at h
        exact findAncestor_noCache f _ _ h
      | none =>
        simp only [hp, Out.ok.injEq] at h
        subst h
        rfl

theorem cacheOk_noCache (st : Store K V) : CacheOk st (noCache : Cache K V) := by
  intro n l h
  cases h

/-- A new process loads what the store has, unless it has to read a rollup file that was cut
off. -/
theorem Inv.getLayer (h : Inv c trunc p) {n : Name} (hn : p.world.store.has n = true) :
    ∃ l cs, p.world.store.getLayer noCache n = .ok (some l, cs) ∧
      ((∃ m, p.world.store.Passes n m ∧ p.Torn m ∧ (trunc = true →
          p.disk.getLayer c p.world.store.loadFuel n = .err)) ∨
        p.disk.getLayer c p.world.store.loadFuel n = .ok (some l)) := by
  have ho := h.run.inv.ok
  obtain ⟨⟨lo, cs⟩, h1, h2⟩ := getLayer_total ho (cacheOk_noCache _) n
  cases lo with
  | none => exact absurd (h2.2 hn) (by simp)
  | some l =>
    refine ⟨l, cs, h1, ?_⟩
    unfold Store.getLayer getLayerView at h1
    simp only [noCache, hn, if_true] at h1
    obtain ⟨r, k1, k2⟩ := Out.bind_eq_ok.1 h1
    obtain ⟨q, k3, k4⟩ := Out.bind_eq_ok.1 k2
    simp only [Out.pure_eq, Out.ok.injEq, Prod.mk.injEq, Option.some.injEq] at k4
    have hr := findAncestor_noCache _ _ _ k1
    have hself := AlikeN.self ho hn
    have hf := findAncestor_sound ho (v := fun _ => ⟨p.world.store, noCache⟩)
      (fun t => ⟨ho, cacheOk_noCache _, Ext.refl _⟩) p.world.store.loadFuel 1 [(n, none)]
      ⟨⟨hself, by intro r op e; cases e⟩, n, rfl, hself⟩ (by
        intro q hq
        simp only [List.head?_cons, Option.mem_def, Option.some.injEq] at hq
        subst hq
        exact hn) (fun _ => Ext.refl _) r k1
    obtain ⟨ro, qs⟩ := r
    cases hr
    obtain ⟨q0, rest, rfl, g1, g2, p', g3, g4⟩ := hf
    rcases h.find p.world.store.loadFuel 1 (n, none) [] hn with ⟨m, j1, j2, j3⟩ | j
    · left
      refine ⟨m, j1, j2, fun hc => ?_⟩
      rcases j3 hc with j | j
      · simp only [Disk.getLayer, h.dir n hn, if_true, j]
        rfl
      · rw [show findAncestor (fun _ => ⟨p.world.store, noCache⟩) p.world.store.loadFuel 1 [(n, none)] =
          .ok (none, q0 :: rest) from k1] at j
        cases j
    · right
      rw [show findAncestor (fun _ => ⟨p.world.store, noCache⟩) p.world.store.loadFuel 1 [(n, none)] =
          .ok (none, q0 :: rest) from k1, Out.ok_bind] at j
      simp only [loadAll] at k3
      obtain ⟨⟨b, c1⟩, i1, i2⟩ := Out.bind_eq_ok.1 k3
      obtain ⟨l', cs'⟩ := q
      have hb := h.loadBase g2 i1
      have hc := h.loadChildren rest g3 i2
      simp only [Disk.getLayer, h.dir n hn, if_true, j, Out.ok_bind, hb, hc, Out.pure_eq]
      rw [show l' = l from k4.1]

end Proc

end Verif
