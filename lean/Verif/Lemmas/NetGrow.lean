import Verif.Model.Net
import Verif.Lemmas.StoreOps

/-!
What a call does to the names in a store: layers stay, and new ones have the new name or that of
a builder.
-/

set_option linter.unusedSectionVars false

namespace Verif.Api

open Spec SimpleBuilder Store Session

variable {K V L : Type} [LinearOrder K] [LinearOrder V] [DecidableEq L]

/-- How a session can change when `new` is the new name. -/
structure Grow (new : Name) (s s' : Session K V L) : Prop where
  ext : Ext s.store s'.store
  names : ∀ n, s'.store.has n = true →
    s.store.has n = true ∨ n = new ∨ ∃ x ∈ s.builders, x.name = n ∧ x.lock ≠ .taken
  builders : ∀ x ∈ s'.builders, x.name = new ∨
    ∃ y ∈ s.builders, y.name = x.name ∧ (x.lock ≠ .taken → y.lock ≠ .taken)

/-- The names that can be used are not used yet. -/
structure Unused (new : Name) (s : Session K V L) : Prop where
  new : s.store.get? new = none
  builders : ∀ x ∈ s.builders, x.lock ≠ .taken → s.store.get? x.name = none

variable {s s' : Session K V L} {new : Name}

theorem Grow.same (h1 : s'.store = s.store) (h2 : s'.builders = s.builders) : Grow new s s' :=
  { ext := by rw [h1]; exact Ext.refl _
    names := by rw [h1]; exact fun _ h => Or.inl h
    builders := by rw [h2]; exact fun x hx => Or.inr ⟨x, hx, rfl, id⟩ }

theorem Grow.cons (h : Unused new s) {n : Name} {e : Entry K V}
    (hn : n = new ∨ ∃ x ∈ s.builders, x.name = n ∧ x.lock ≠ .taken)
    (h1 : s'.store = (n, e) :: s.store)
    (h2 : ∀ x ∈ s'.builders, x.name = new ∨
      ∃ y ∈ s.builders, y.name = x.name ∧ (x.lock ≠ .taken → y.lock ≠ .taken)) : Grow new s s' :=
  { ext := by
      have hf : s.store.get? n = none := by
        rcases hn with rfl | ⟨x, hx, rfl, hl⟩
        · exact h.new
        · exact h.builders x hx hl
      intro m e' he
      rw [h1]
      refine ⟨e', ?_, rfl, rfl⟩
      rw [Store.get?, if_neg, he]
      rintro rfl
      rw [hf] at he; cases he
    names := by
      intro m hm
      rw [h1, Store.has, Store.get?] at hm
      split at hm
      · rename_i e; subst e
        rcases hn with hn | hn
        · exact Or.inr (Or.inl hn)
        · exact Or.inr (Or.inr hn)
      · exact Or.inl hm
    builders := h2 }

theorem Grow.trans_roll (h : Grow new s s') {n r : Name} {s'' : Session K V L}
    (h1 : s''.store = registerRollup s'.store n r) (h2 : s''.builders = s'.builders) :
    Grow new s s'' := by
  have hg : ∀ m, s''.store.get? m = (s'.store.get? m).map
      (fun e => if n ≠ r ∧ m = n then { e with rollup := some r } else e) := by
    intro m
    rw [h1]
    unfold registerRollup
    split
    · rename_i e; subst e
      cases s'.store.get? m <;> simp
    · rename_i e
      rw [get?_setRollup]
      by_cases hm : m = n
      · simp [hm, e]
      · simp [hm]
  refine ⟨?_, ?_, by rw [h2]; exact h.builders⟩
  · intro m e he
    obtain ⟨e', k1, k2, k3⟩ := h.ext m e he
    refine ⟨_, by rw [hg, k1]; rfl, ?_, ?_⟩
    · split <;> exact k2
    · split <;> exact k3
  · intro m hm
    apply h.names
    unfold Store.has at hm ⊢
    rw [hg] at hm
    simpa using hm

theorem Grow.loading {n : Name} {m : Ans K V L}
    {k : InternalLayer K V → Session K V L → Ans K V L × Session K V L}
    {t : Session K V L} (h1 : t.store = s.store) (h2 : t.builders = s.builders)
    (hk : ∀ l (t : Session K V L), t.store = s.store → t.builders = s.builders →
      Grow new s (k l t).2) : Grow new s (t.loading n m k).2 := by
  unfold Session.loading Session.load
  cases t.store.getLayer t.cache n with
  | ok q =>
    obtain ⟨r, cs⟩ := q
    cases r with
    | none => exact .same h1 h2
    | some l => exact hk l _ h1 h2
  | err => exact .same h1 h2
  | panic => exact .same h1 h2

theorem Grow.withLayer {i : Nat} {k : InternalLayer K V → Ans K V L × Session K V L}
    (hk : ∀ l, Grow new s (k l).2) : Grow new s (s.withLayer i k).2 := by
  unfold Session.withLayer
  split
  · exact hk _
  · exact .same rfl rfl

theorem Grow.withBuilder {b : Nat} {k : HeldBuilder K V → Ans K V L × Session K V L}
    (hk : ∀ x, s.builders[b]? = some x → Grow new s (k x).2) : Grow new s (s.withBuilder b k).2 := by
  unfold Session.withBuilder
  split
  · rename_i x hx
    exact hk x hx
  · exact .same rfl rfl

theorem Grow.graphCall {α : Type} {p : Prog L Name α} {f : α → Ans K V L} :
    Grow new s (s.graphCall p f).2 := .same rfl rfl

theorem Grow.give {l : InternalLayer K V} {t : Session K V L} (h1 : t.store = s.store)
    (h2 : t.builders = s.builders) : Grow new s (Session.give l t).2 := .same h1 h2

theorem Grow.apply (h : Unused new s) {t : Session K V L} (h1 : t.store = s.store)
    (h2 : t.builders = s.builders) (pl : Plan K V) :
    Grow new s { t with store := (pl.apply new t.store).2 } := by
  cases pl with
  | existing n => exact .same h1 h2
  | write e =>
    refine .cons h (n := new) (e := e) (Or.inl rfl) (by rw [← h1]; rfl) ?_
    intro x hx
    exact Or.inr ⟨x, h2 ▸ hx, rfl, id⟩

theorem Grow.register (h : Unused new s) {t : Session K V L} (h1 : t.store = s.store)
    (h2 : t.builders = s.builders) (l : InternalLayer K V) (o : Out (Plan K V)) :
    Grow new s (t.register new l o).2 := by
  cases o with
  | ok pl => exact (Grow.apply h h1 h2 pl).trans_roll rfl rfl
  | err => exact .same h1 h2
  | panic => exact .same h1 h2

theorem Grow.trans_same {s'' : Session K V L} (h : Grow new s s') (h1 : s''.store = s'.store)
    (h2 : s''.builders = s'.builders) : Grow new s s'' :=
  ⟨by rw [h1]; exact h.ext, by rw [h1]; exact h.names, by rw [h2]; exact h.builders⟩

theorem Grow.trans_loading {n : Name} {m : Ans K V L} {t : Session K V L} (h : Grow new s t) :
    Grow new s (t.loading n m Session.give).2 := by
  have : Grow new t (t.loading n m Session.give).2 :=
    Grow.loading rfl rfl (fun l u g1 g2 => Grow.give g1 g2)
  unfold Session.loading Session.load
  cases t.store.getLayer t.cache n with
  | ok q =>
    obtain ⟨r, cs⟩ := q
    cases r with
    | none => exact h.trans_same rfl rfl
    | some l => exact h.trans_same rfl rfl
  | err => exact h.trans_same rfl rfl
  | panic => exact h.trans_same rfl rfl

theorem Grow.setLock {b : Nat} {x : HeldBuilder K V} (hx : s.builders[b]? = some x)
    {l : BuilderLock K V} (hl : l ≠ .taken → x.lock ≠ .taken) : Grow new s (s.setLock b x l) :=
  { ext := Ext.refl _
    names := fun _ h => Or.inl h
    builders := by
      intro y hy
      rcases List.mem_or_eq_of_mem_set hy with hy | rfl
      · exact Or.inr ⟨y, hy, rfl, id⟩
      · exact Or.inr ⟨x, List.mem_of_getElem? hx, rfl, hl⟩ }

theorem stays_withBuilder {l : BuilderLock K V} {op : Op K V}
    (h : (BuilderUse.withBuilder l op).2 ≠ .taken) : l ≠ .taken := by
  rintro rfl
  exact h rfl

theorem stays_runIgnoring : ∀ (ops : List (Op K V)),
    (runIgnoring (.taken : BuilderLock K V) ops).2 = .taken
  | [] => rfl
  | op :: ops => by
    unfold runIgnoring
    exact stays_runIgnoring ops

theorem stays_runUnwrapping : ∀ (ops : List (Op K V)),
    (runUnwrapping (.taken : BuilderLock K V) ops).2 = .taken
  | [] => rfl
  | _ :: _ => rfl

theorem Grow.applied {ch : Choice K V L} {b : Nat} {x : HeldBuilder K V}
    (hx : s.builders[b]? = some x) {run : BuilderLock K V → List (Op K V) → Out Unit × BuilderLock K V}
    (hr : ∀ ops, (run .taken ops).2 = .taken) (o : Out (List (Op K V))) :
    Grow new s (s.applied ch b x run o).2 := by
  cases o with
  | ok ops =>
    refine Grow.setLock hx ?_
    intro h e
    rw [e, hr] at h
    exact h rfl
  | err => exact .same rfl rfl
  | panic => exact .same rfl rfl

/-- Committing; `k` is what is done afterwards. -/
theorem Grow.committing (h : Unused new s) {ch : Choice K V L} {b : Nat} {x : HeldBuilder K V}
    (hx : s.builders[b]? = some x) {k : Session K V L → Ans K V L × Session K V L}
    (hk : ∀ t, Grow new s t → Grow new s (k t).2) : Grow new s (s.committing ch b x k).2 := by
  unfold Session.committing
  cases hl : x.lock with
  | taken => exact Grow.setLock hx (fun h => absurd rfl h)
  | poisoned => exact Grow.setLock hx (fun _ => by rw [hl]; simp)
  | «open» sb =>
    dsimp only [BuilderUse.takeBuilder]
    cases sb.commitWith (ch.nv sb.nvMap) (ch.pm sb.pMap) with
    | none => exact Grow.setLock hx (fun h => absurd rfl h)
    | some d =>
      apply hk
      refine .cons h (Or.inr ⟨x, List.mem_of_getElem? hx, rfl, by rw [hl]; simp⟩) rfl ?_
      exact (Grow.setLock (new := new) (l := .taken) hx (fun h => absurd rfl h)).builders

theorem Grow.newBuilder {t : Session K V L} (h1 : t.store = s.store) (h2 : t.builders = s.builders)
    {x : HeldBuilder K V} (hx : x.name = new) :
    Grow new s { t with builders := t.builders ++ [x] } :=
  { ext := by rw [h1]; exact Ext.refl _
    names := by rw [h1]; exact fun _ h => Or.inl h
    builders := by
      intro y hy
      rcases List.mem_append.1 hy with hy | hy
      · exact Or.inr ⟨y, h2 ▸ hy, rfl, id⟩
      · rw [List.mem_singleton] at hy
        subst hy
        exact Or.inl hx }

/-- One call. -/
theorem Grow.perform {ch : Choice K V L} (h : Unused ch.new s) (c : Req K V L) :
    Grow ch.new s (s.perform ch c).2 := by
  cases c with
  | createGraph l => exact .same rfl rfl
  | openGraph l => exact .same rfl rfl
  | deleteGraph l => exact .same rfl rfl
  | dropGraph l => exact .same rfl rfl
  | graphs => exact .same rfl rfl
  | head l =>
    simp only [Session.perform, Session.head]
    split
    · exact .same rfl rfl
    · exact Grow.loading rfl rfl (fun l t h1 h2 => .same h1 h2)
    · exact .same rfl rfl
    · exact .same rfl rfl
  | setHead l i => exact Grow.withLayer fun _ => .same rfl rfl
  | forceSetHead l i => exact Grow.withLayer fun _ => .same rfl rfl
  | forceSetHeadVersion l i v => exact Grow.withLayer fun _ => .same rfl rfl
  | getLayer n => exact Grow.loading rfl rfl (fun l t h1 h2 => Grow.give h1 h2)
  | createBase => exact Grow.newBuilder rfl rfl rfl
  | merge ns =>
    simp only [Session.perform, Session.merged]
    split
    · exact Grow.apply h rfl rfl _
    · exact .same rfl rfl
    · exact .same rfl rfl
  | openWrite i =>
    exact Grow.withLayer fun _ => Grow.loading rfl rfl (fun l t h1 h2 => Grow.newBuilder h1 h2 rfl)
  | parent i =>
    refine Grow.withLayer fun x => ?_
    split
    · exact .same rfl rfl
    · exact Grow.loading rfl rfl (fun l t h1 h2 => Grow.give h1 h2)
  | squash i =>
    refine Grow.withLayer fun _ => Grow.loading rfl rfl (fun l t h1 h2 => ?_)
    unfold Session.squashed
    split
    · exact Grow.trans_loading ((Grow.apply h h1 h2 _).trans_same rfl rfl)
    · exact .same h1 h2
    · exact .same h1 h2
  | squashUpto i j =>
    refine Grow.withLayer fun _ => Grow.withLayer fun _ => Grow.loading rfl rfl (fun l t h1 h2 => ?_)
    unfold Session.squashed
    split
    · exact Grow.trans_loading ((Grow.apply h h1 h2 _).trans_same rfl rfl)
    · exact .same h1 h2
    · exact .same h1 h2
  | rollup i =>
    exact Grow.withLayer fun _ => Grow.loading rfl rfl (fun l t h1 h2 => Grow.register h h1 h2 l _)
  | rollupUpto i j =>
    exact Grow.withLayer fun _ => Grow.withLayer fun _ =>
      Grow.loading rfl rfl (fun l t h1 h2 => Grow.register h h1 h2 l _)
  | impreciseRollupUpto i j =>
    exact Grow.withLayer fun _ => Grow.withLayer fun _ =>
      Grow.loading rfl rfl (fun l t h1 h2 => Grow.register h h1 h2 l _)
  | stackNames i => exact Grow.withLayer fun _ => .same rfl rfl
  | layerName i => exact Grow.withLayer fun _ => .same rfl rfl
  | parentName i => exact Grow.withLayer fun _ => .same rfl rfl
  | query i q => exact Grow.withLayer fun _ => .same rfl rfl
  | additions i q => exact Grow.withLayer fun _ => .same rfl rfl
  | removals i q => exact Grow.withLayer fun _ => .same rfl rfl
  | builderName b => exact Grow.withBuilder fun _ _ => .same rfl rfl
  | builderParent b =>
    refine Grow.withBuilder fun x _ => ?_
    split
    · exact .same rfl rfl
    · exact Grow.give rfl rfl
  | edit b e =>
    exact Grow.withBuilder fun x hx => Grow.setLock hx stays_withBuilder
  | committed b => exact Grow.withBuilder fun _ _ => .same rfl rfl
  | commitNoLoad b =>
    exact Grow.withBuilder fun x hx => Grow.committing h hx (fun t ht => ht)
  | commit b =>
    exact Grow.withBuilder fun x hx => Grow.committing h hx
      (fun t ht => Grow.trans_loading (ht.trans_same rfl rfl))
  | applyDelta b i =>
    exact Grow.withBuilder fun x hx => Grow.withLayer fun _ => Grow.applied hx stays_runIgnoring _
  | applyDiff b i =>
    exact Grow.withBuilder fun x hx => Grow.withLayer fun _ => Grow.applied hx stays_runUnwrapping _

/-- One call, with what vanishes from the cache before. -/
theorem Grow.call {ch : Choice K V L} (h : Unused ch.new s) (c : Req K V L) :
    Grow ch.new s (s.call ch c).2 := by
  have : Grow ch.new { s with cache := ch.keep s.cache } (s.call ch c).2 :=
    Grow.perform (s := { s with cache := ch.keep s.cache }) ⟨h.new, h.builders⟩ c
  exact ⟨this.ext, this.names, this.builders⟩

end Verif.Api
