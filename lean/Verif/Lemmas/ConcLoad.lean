import Verif.Lemmas.WorldMore

/-!
A load that runs while others work comes to an end.
-/

namespace Verif

open SimpleBuilder Spec

variable {K V : Type} [LinearOrder K] [LinearOrder V]

namespace Store

/-- The rounds the search still needs. -/
def Rounds (st : Store K V) (rolled : Name → Name → Prop) (n : Name) (f : Nat) : Prop :=
  ∃ S, Raw st n S ∧ 2 * S.length < f ∧ ∀ r, rolled n r → 2 * S.length + 1 < f

/-- The search comes to an end when no rollup is rolled up again. -/
theorem findAncestor_ends {v : Nat → View K V} {last : Store K V} (hl : Ok last)
    (hv : ∀ t, Ok (v t).store ∧ CacheOk (v t).store (v t).cache ∧ Ext (v t).store last)
    (hm : ∀ t, Ext (v t).store (v (t + 1)).store) {rolled : Name → Name → Prop}
    (hr1 : ∀ t n r, (v t).store.rollup? n = some r → rolled n r)
    (hr2 : ∀ n r r', rolled n r → ¬ rolled r r') {n : Name} :
    ∀ (f t : Nat) (q : Pending) (rest : List Pending), PendOk last n (q :: rest) →
      (v t).store.has q.current = true → Rounds last rolled q.current f →
      ∃ res, findAncestor v f t (q :: rest) = .ok res
  | 0, _, q, rest, _, _, hb => by obtain ⟨S, _, h, _⟩ := hb; omega
  | f + 1, t, q, rest, hp, hhas, hb => by
    obtain ⟨S, hS, hlt, hlt'⟩ := hb
    obtain ⟨hq, p', hneed, hal⟩ := hp
    obtain ⟨hok, hc, hx⟩ := hv t
    cases hca : (v t).cache q.current with
    | some layer =>
      obtain ⟨g1, g2⟩ := hc _ _ hca
      obtain ⟨l, k1, k2, k3⟩ := hq.wrap (g1.ext hx) g2 hl
      exact ⟨(some l, rest), by simp only [findAncestor, hca, k1, Out.ok_bind, Out.pure_eq]⟩
    | none =>
      cases hr : (v t).store.rollup? q.current with
      | some r =>
        have hro := hr1 _ _ _ hr
        have hrc : r ≠ q.current := by rintro rfl; exact hr2 _ _ _ hro hro
        simp only [findAncestor, hca, hr, hrc, if_false]
        obtain ⟨S', R, h1, h2, h3, h4⟩ := hok.rollup hr
        cases hS.unique (h1.ext hx)
        refine findAncestor_ends hl hv hm hr1 hr2 f (t + 1) _ _
          ⟨hq.toRollup hok hx hr, p', hneed, hal.trans hq.alike⟩ (h2.ext (hm t)).has
          ⟨R, h2.ext hx, ?_, fun r' h => absurd h (hr2 _ _ _ hro)⟩
        have := hlt' r hro
        omega
      | none =>
        cases hpa : (v t).store.parent? q.current with
        | some p =>
          simp only [findAncestor, hca, hr, hpa]
          have hself : AlikeN (v t).store p p := by
            obtain ⟨S, _, hS, _⟩ := AlikeN.self hok hhas
            exact AlikeN.self hok (hS.parent_has hpa)
          have hsome : QOk last (p, none) := ⟨hself.ext hx, by intro r op e; cases e⟩
          have hpl := parent_ext hx hpa
          refine findAncestor_ends hl hv hm hr1 hr2 f (t + 1) (p, none) (q :: rest)
            ⟨hsome, p, ⟨hq, hpl, p', hneed, hal⟩, hself.ext hx⟩ ?_ ?_
          · obtain ⟨R, _, hR, _⟩ := hself
            exact (hR.ext (hm t)).has
          · rcases hS.parent with ⟨e, _⟩ | ⟨p'', e, R, g1, g2, g3, rfl⟩
            · rw [hpl] at e; cases e
            · rw [hpl] at g1
              cases g1
              simp only [List.length_cons] at hlt
              exact ⟨R, g3, by omega, fun _ _ => by omega⟩
        | none => exact ⟨(none, q :: rest), by simp only [findAncestor, hca, hr, hpa]⟩

/-- A layer that was there at the first look is loaded. -/
theorem getLayerView_ends {v : Nat → View K V} {last : Store K V} (hl : Ok last)
    (hv : ∀ t, Ok (v t).store ∧ CacheOk (v t).store (v t).cache ∧ Ext (v t).store last)
    (hm : ∀ t, Ext (v t).store (v (t + 1)).store) {rolled : Name → Name → Prop}
    (hr1 : ∀ t n r, (v t).store.rollup? n = some r → rolled n r)
    (hr2 : ∀ n r r', rolled n r → ¬ rolled r r') {n : Name}
    (hn : (v 0).store.has n = true) :
    ∃ f0, ∀ f, f0 ≤ f → ∃ l cs, getLayerView v f last n = .ok (some l, cs) := by
  obtain ⟨hok, hc, hx⟩ := hv 0
  have hself := (AlikeN.self hok hn).ext hx
  obtain ⟨S, _, hS, _⟩ := hself
  refine ⟨2 * S.length + 2, fun f hf => ?_⟩
  unfold getLayerView
  cases hca : (v 0).cache n with
  | some l => exact ⟨l, [], rfl⟩
  | none =>
    dsimp only
    rw [if_pos hn]
    have hself := (AlikeN.self hok hn).ext hx
    have hpend : PendOk last n [(n, none)] :=
      ⟨⟨hself, by intro r op e; cases e⟩, n, rfl, hself⟩
    have hhas : (v 1).store.has n = true := by
      obtain ⟨S, _, hS, _⟩ := AlikeN.self hok hn
      exact (hS.ext (hm 0)).has
    obtain ⟨res, h1⟩ := findAncestor_ends hl hv hm hr1 hr2 f 1 (n, none) [] hpend hhas
      ⟨S, hS, by omega, fun _ _ => by omega⟩
    have hf := findAncestor_sound hl hv f 1 [(n, none)] hpend (by
      intro q hq
      simp only [List.head?_cons, Option.mem_def, Option.some.injEq] at hq
      subst hq
      exact hhas) hm res h1
    obtain ⟨l, cs, k1, _⟩ := loadAll_ok hl hf
    exact ⟨l, cs, by simp only [h1, Out.ok_bind, k1, Out.pure_eq]⟩

end Store

/-- The moments of a part of a list are moments of the list. -/
theorem sublist_index {α : Type} {as bs : List α} (h : as.Sublist bs) :
    ∃ f : Nat → Nat, (∀ i j, i ≤ j → f i ≤ f j) ∧ ∀ i x, as[i]? = some x → bs[f i]? = some x := by
  induction h with
  | slnil => exact ⟨id, fun _ _ h => h, fun _ _ h => h⟩
  | cons a _ ih =>
    obtain ⟨f, h1, h2⟩ := ih
    exact ⟨fun i => f i + 1, fun i j h => Nat.succ_le_succ (h1 i j h), fun i x h => by simpa using h2 i x h⟩
  | cons_cons a _ ih =>
    obtain ⟨f, h1, h2⟩ := ih
    refine ⟨fun i => match i with | 0 => 0 | i + 1 => f i + 1, ?_, ?_⟩
    · intro i j h
      match i, j with
      | 0, _ => exact Nat.zero_le _
      | i + 1, 0 => omega
      | i + 1, j + 1 => exact Nat.succ_le_succ (h1 i j (by omega))
    · intro i x h
      match i with
      | 0 => simpa using h
      | i + 1 => simpa using h2 i x (by simpa using h)

namespace World

open Store

/-- A load that saw some of the moments, and the layer at the first of them, ends. -/
theorem Run.loads {w : World K V} (h : Run true w) (hf : w.log.noRollupOfRollup)
    {seen : List (View K V)} (hs : seen.Sublist w.seen) {v : Nat → View K V} {i : Nat → Nat}
    (hv : ∀ t, seen[i t]? = some (v t)) (hi : ∀ t, i (t + 1) ≤ i t) {n : Name}
    (hn : (v 0).store.has n = true) {f : Nat}
    (hstop : ∀ f', f ≤ f' → getLayerView v f' w.store n = getLayerView v f w.store n) :
    ∃ l cs, getLayerView v f w.store n = .ok (some l, cs) ∧
      Step true w { w with held := (n, l) :: w.held, loaded := cs ++ w.loaded, past := w.seen } := by
  obtain ⟨g, g1, g2⟩ := sublist_index hs
  have hv' : ∀ t, w.seen[g (i t)]? = some (v t) := fun t => g2 _ _ (hv t)
  have hi' : ∀ t, g (i (t + 1)) ≤ g (i t) := fun t => g1 _ _ (hi t)
  obtain ⟨k1, k2, k3⟩ := h.inv.views (i := fun t => g (i t)) hv' hi'
  obtain ⟨f0, k4⟩ := getLayerView_ends h.inv.ok k1 k2 k3 (fun n r r' h1 h2 => hf n r r' h1 h2) hn
  obtain ⟨l, cs, k5⟩ := k4 (max f f0) (Nat.le_max_right ..)
  rw [hstop _ (Nat.le_max_left ..)] at k5
  exact ⟨l, cs, k5, .load (i := fun t => g (i t)) hv' hi' k5⟩

/-- A layer in the cache. -/
theorem Run.loadsCached {w : World K V} {n : Name} {l : InternalLayer K V} (hc : w.cache n = some l) :
    Step true w { w with held := (n, l) :: w.held, loaded := [] ++ w.loaded, past := w.seen } := by
  refine .load (v := fun _ => ⟨w.store, w.cache⟩) (i := fun _ => 0) (f := 0) (fun _ => rfl)
    (fun _ => Nat.le_refl _) ?_
  unfold getLayerView
  simp only [hc]

theorem Step.plans_mono {safe : Bool} {w w' : World K V} (h : Step safe w w') :
    ∀ e ∈ w.plans, e ∈ w'.plans := by
  intro e he
  cases h <;> first | exact he | exact List.mem_cons_of_mem _ he

theorem Step.pending_mono {safe : Bool} {w w' : World K V} (h : Step safe w w') :
    ∀ e ∈ w.pending, e ∈ w'.pending := by
  intro e he
  cases h <;> first | exact he | exact List.mem_cons_of_mem _ he

theorem Step.loaded_mono {safe : Bool} {w w' : World K V} (h : Step safe w w') :
    ∀ e ∈ w.loaded, e ∈ w'.loaded := by
  intro e he
  cases h <;> first | exact he | exact List.mem_append_right _ he

theorem Later.plans {safe : Bool} {w w' : World K V} (h : Later safe w w') :
    ∀ q ∈ w.plans, q ∈ w'.plans := by
  induction h with
  | now => exact fun _ h => h
  | step _ hs ih => exact fun q hq => hs.plans_mono q (ih q hq)

theorem Later.pending {safe : Bool} {w w' : World K V} (h : Later safe w w') :
    ∀ q ∈ w.pending, q ∈ w'.pending := by
  induction h with
  | now => exact fun _ h => h
  | step _ hs ih => exact fun q hq => hs.pending_mono q (ih q hq)

theorem Later.loaded {safe : Bool} {w w' : World K V} (h : Later safe w w') :
    ∀ q ∈ w.loaded, q ∈ w'.loaded := by
  induction h with
  | now => exact fun _ h => h
  | step _ hs ih => exact fun q hq => hs.loaded_mono q (ih q hq)

theorem Later.trans {safe : Bool} {w w' w'' : World K V} (h : Later safe w w')
    (h' : Later safe w' w'') : Later safe w w'' := by
  induction h' with
  | now => exact h
  | step _ hs ih => exact .step ih hs

/-- What could be seen can still be told. -/
theorem Later.seen {safe : Bool} {w w' : World K V} (h : Later safe w w') :
    w.seen.Sublist w'.seen := by
  induction h with
  | now => exact List.Sublist.refl _
  | step _ hs ih =>
    refine ih.trans ?_
    show List.Sublist _ (_ :: _)
    rw [hs.past_eq]
    exact List.sublist_cons_self ..

end World

end Verif
