import Verif.Model.Store
import Verif.Lemmas.AnswersOk

/-!
The invariant of the layer store, and the correctness of loading.
-/

set_option linter.unusedSectionVars false
set_option linter.unusedVariables false

namespace Verif

variable {K V : Type} [LinearOrder K] [LinearOrder V]

namespace Out

@[simp] theorem pure_eq {α : Type} (a : α) : (pure a : Out α) = .ok a := rfl

theorem bind_eq_ok {α β : Type} {x : Out α} {f : α → Out β} {b : β} :
    x >>= f = .ok b ↔ ∃ a, x = .ok a ∧ f a = .ok b := by
  cases x with
  | ok a =>
    constructor
    · intro h; exact ⟨a, rfl, h⟩
    · rintro ⟨a', h1, h2⟩; cases h1; exact h2
  | err =>
    constructor
    · intro h; cases h
    · rintro ⟨a', h1, h2⟩; cases h1
  | panic =>
    constructor
    · intro h; cases h
    · rintro ⟨a', h1, h2⟩; cases h1

@[simp] theorem ok_bind {α β : Type} (a : α) (f : α → Out β) : (Out.ok a >>= f) = f a := rfl

theorem ofOption_ok {α : Type} {x : Option α} {a : α} : ofOption x = .ok a ↔ x = some a := by
  cases x <;> simp [ofOption]

end Out

/-! ### Levels of a loaded layer -/

namespace InternalLayer

theorem levels_eq : ∀ l : InternalLayer K V, ∃ rest, l.levels = (l.name, l.data) :: rest
  | base n d => ⟨[], rfl⟩
  | child n d p => ⟨p.levels, rfl⟩
  | rollup i o p => ⟨i.levels.tail, rfl⟩

theorem stack_rollup (i : InternalLayer K V) (o : Name) (p : Option Name) :
    (rollup i o p).stack = i.stack := by
  obtain ⟨rest, h⟩ := levels_eq i
  simp only [stack, levels, h, List.tail_cons, List.map_cons]

theorem stack_child (n : Name) (d : LayerData K V) (p : InternalLayer K V) :
    (child n d p).stack = d :: p.stack := rfl

theorem stack_base (n : Name) (d : LayerData K V) : (base n d).stack = [d] := rfl

theorem immediateParent_length : ∀ l : InternalLayer K V,
    l.immediateParent.isSome = true ↔ 2 ≤ l.stack.length
  | base n d => by simp [immediateParent, stack, levels]
  | child n d p => by
    obtain ⟨rest, h⟩ := levels_eq p
    simp [immediateParent, stack, levels, h]
  | rollup i o p => by
    rw [stack_rollup]
    exact immediateParent_length i

end InternalLayer

theorem LayerData.onTop_congr {d : LayerData K V} {A B : List (LayerData K V)} (h : Same A B) :
    d.onTop A = d.onTop B := by
  unfold LayerData.onTop
  rw [h.nvCount, h.pCount]

theorem LayerData.onTop_self {d : LayerData K V} {S : List (LayerData K V)}
    (h : d.parentNV = Stack.nvCount S ∧ d.parentP = Stack.pCount S) : d.onTop S = d := by
  unfold LayerData.onTop
  rw [← h.1, ← h.2]

/-! ### The stored stack of a name -/

namespace Store

variable {st st' : Store K V}

theorem Raw.unique {n : Name} {S S' : List (LayerData K V)} (h : Raw st n S) (h' : Raw st n S') :
    S = S' := by
  induction h generalizing S' with
  | base g1 g2 =>
    cases h' with
    | base k1 k2 => rw [g1] at k1; cases k1; rfl
    | child k1 k2 k3 => rw [g1] at k1; cases k1; rw [g2] at k2; cases k2
  | child g1 g2 g3 ih =>
    cases h' with
    | base k1 k2 => rw [g1] at k1; cases k1; rw [g2] at k2; cases k2
    | child k1 k2 k3 =>
      rw [g1] at k1; cases k1; rw [g2] at k2; cases k2
      rw [ih k3]

theorem Raw.parent {n : Name} {S : List (LayerData K V)} (h : Raw st n S) :
    (st.parent? n = none ∧ S.length = 1) ∨
      ∃ p e R, st.parent? n = some p ∧ st.get? n = some e ∧ Raw st p R ∧ S = e.data.onTop R :: R := by
  cases h with
  | base g1 g2 => left; simp [parent?, g1, g2]
  | child g1 g2 g3 => right; exact ⟨_, _, _, by simp [parent?, g1, g2], g1, g3, rfl⟩

theorem Raw.has {n : Name} {S : List (LayerData K V)} (h : Raw st n S) : st.has n = true := by
  cases h with
  | base g1 _ => simp [Store.has, g1]
  | child g1 _ _ => simp [Store.has, g1]

/-- The second store has all layers of the first, unchanged but for their rollups. -/
def Ext (st st' : Store K V) : Prop :=
  ∀ n e, st.get? n = some e → ∃ e', st'.get? n = some e' ∧ e'.parent = e.parent ∧ e'.data = e.data

theorem Ext.refl (st : Store K V) : Ext st st := fun _ e h => ⟨e, h, rfl, rfl⟩

theorem Ext.trans {a b c : Store K V} (h : Ext a b) (h' : Ext b c) : Ext a c := by
  intro n e he
  obtain ⟨e1, g1, g2, g3⟩ := h n e he
  obtain ⟨e2, k1, k2, k3⟩ := h' n e1 g1
  exact ⟨e2, k1, k2.trans g2, k3.trans g3⟩

theorem Raw.ext (hx : Ext st st') {n : Name} {S : List (LayerData K V)} (h : Raw st n S) :
    Raw st' n S := by
  induction h with
  | base g1 g2 =>
    obtain ⟨e', k1, k2, k3⟩ := hx _ _ g1
    rw [← k3]
    exact .base k1 (k2.trans g2)
  | child g1 g2 _ ih =>
    obtain ⟨e', k1, k2, k3⟩ := hx _ _ g1
    rw [← k3]
    exact .child k1 (k2.trans g2) ih

/-- The second name stands for the same layer as the first, with no more layers below. -/
def AlikeN (st : Store K V) (a b : Name) : Prop :=
  ∃ S R, Raw st a S ∧ Raw st b R ∧ Alike S R ∧ R.length ≤ S.length

/-- A loaded layer stands for a name. -/
def Stands (st : Store K V) (n : Name) (l : InternalLayer K V) : Prop :=
  ∃ S, Raw st n S ∧ Alike S l.stack ∧ l.stack.length ≤ S.length

theorem AlikeN.trans {a b c : Name} (h : AlikeN st a b) (h' : AlikeN st b c) : AlikeN st a c := by
  obtain ⟨S, R, h1, h2, h3, h4⟩ := h
  obtain ⟨S', R', g1, g2, g3, g4⟩ := h'
  cases h2.unique g1
  exact ⟨S, R', h1, g2, h3.trans g3, g4.trans h4⟩

theorem AlikeN.stands {a b : Name} {l : InternalLayer K V} (h : AlikeN st a b)
    (h' : Stands st b l) : Stands st a l := by
  obtain ⟨S, R, h1, h2, h3, h4⟩ := h
  obtain ⟨S', g1, g2, g3⟩ := h'
  cases h2.unique g1
  exact ⟨S, h1, h3.trans g2, g3.trans h4⟩

theorem AlikeN.ext (hx : Ext st st') {a b : Name} (h : AlikeN st a b) : AlikeN st' a b := by
  obtain ⟨S, R, h1, h2, h3⟩ := h
  exact ⟨S, R, h1.ext hx, h2.ext hx, h3⟩

theorem Stands.ext (hx : Ext st st') {a : Name} {l : InternalLayer K V} (h : Stands st a l) :
    Stands st' a l := by
  obtain ⟨S, h1, h3⟩ := h
  exact ⟨S, h1.ext hx, h3⟩

/-- The invariant of a store. -/
structure Ok (st : Store K V) : Prop where
  raw : ∀ {n e}, st.get? n = some e → ∃ S, Raw st n S ∧ Reachable S ∧ S.length ≤ st.length
  rollup : ∀ {n r}, st.rollup? n = some r → AlikeN st n r
  order : ∀ {n r}, st.rollup? n = some r → st.index n < st.index r
  own : ∀ {n e S}, st.get? n = some e → Raw st n S → S.head? = some e.data

/-- What a loaded layer has to do with the store. -/
def LayerOk (st : Store K V) : InternalLayer K V → Prop
  | .base n d => ∃ e, st.get? n = some e ∧ e.parent = none ∧ d = e.data.onTop []
  | .child n d p => LayerOk st p ∧ ∃ e q, st.get? n = some e ∧ e.parent = some q ∧
      d = e.data.onTop p.stack ∧ Stands st q p
  | .rollup i o op => LayerOk st i ∧ st.parent? o = op ∧ Stands st o i

theorem LayerOk.ext (hx : Ext st st') : ∀ {l : InternalLayer K V}, LayerOk st l → LayerOk st' l
  | .base n d, h => by
    obtain ⟨e, h1, h2, h3⟩ := h
    obtain ⟨e', k1, k2, k3⟩ := hx _ _ h1
    exact ⟨e', k1, k2.trans h2, by rw [k3]; exact h3⟩
  | .child n d p, h => by
    obtain ⟨h0, e, q, h1, h2, h3, h4⟩ := h
    obtain ⟨e', k1, k2, k3⟩ := hx _ _ h1
    exact ⟨LayerOk.ext hx h0, e', q, k1, k2.trans h2, by rw [k3]; exact h3, h4.ext hx⟩
  | .rollup i o op, h => by
    obtain ⟨h0, h1, h2⟩ := h
    refine ⟨LayerOk.ext hx h0, ?_, h2.ext hx⟩
    obtain ⟨S, hS, _⟩ := h2
    have : ∃ e, st.get? o = some e := by
      cases hS with
      | base g1 _ => exact ⟨_, g1⟩
      | child g1 _ _ => exact ⟨_, g1⟩
    obtain ⟨e, he⟩ := this
    obtain ⟨e', k1, k2, k3⟩ := hx _ _ he
    rw [← h1]
    simp [parent?, he, k1, k2]

/-- A loaded layer stands for the name it reports. -/
theorem LayerOk.stands (ho : Ok st) : ∀ {l : InternalLayer K V}, LayerOk st l →
    Stands st l.name l
  | .base n d, h => by
    obtain ⟨e, h1, h2, rfl⟩ := h
    obtain ⟨S, g1, g2, _⟩ := ho.raw h1
    have := Raw.base h1 h2
    cases g1.unique this
    exact ⟨_, this, g2, Nat.le_refl _⟩
  | .child n d p, h => by
    obtain ⟨h0, e, q, h1, h2, rfl, R, h3, h4, h5⟩ := h
    obtain ⟨S, g1, g2, _⟩ := ho.raw h1
    have := Raw.child h1 h2 h3
    cases g1.unique this
    refine ⟨_, this, ?_, ?_⟩
    · rw [InternalLayer.stack_child, ← LayerData.onTop_congr h4.same]
      exact Alike.reload (T := [e.data.onTop R]) g2 h4
    · rw [InternalLayer.stack_child]
      simp only [List.length_cons]
      omega
  | .rollup i o op, h => by
    obtain ⟨h0, h1, S, h2, h3⟩ := h
    exact ⟨S, h2, by rw [InternalLayer.stack_rollup]; exact h3⟩

theorem LayerOk.reachable (ho : Ok st) {l : InternalLayer K V} (h : LayerOk st l) :
    Reachable l.stack := by
  obtain ⟨S, _, h, _⟩ := h.stands ho
  exact h.right

/-- Every layer below a loaded layer stands for the name it reports. -/
theorem LayerOk.below (ho : Ok st) : ∀ {l : InternalLayer K V}, LayerOk st l →
    ∀ {T rest : List (Name × LayerData K V)} {m : Name} {d : LayerData K V},
      l.levels = T ++ (m, d) :: rest →
      ∃ S, Raw st m S ∧ Alike S (((m, d) :: rest).map Prod.snd)
  | .base n d, h, T, rest, m, d', he => by
    cases T with
    | nil =>
      obtain ⟨S, h1, h2, _⟩ := h.stands ho
      simp only [InternalLayer.levels, List.nil_append] at he
      cases he
      exact ⟨S, h1, h2⟩
    | cons x T =>
      simp [InternalLayer.levels] at he
  | .child n d p, h, T, rest, m, d', he => by
    cases T with
    | nil =>
      obtain ⟨S, h1, h2, _⟩ := h.stands ho
      simp only [InternalLayer.levels, List.nil_append] at he
      cases he
      exact ⟨S, h1, h2⟩
    | cons x T =>
      simp only [InternalLayer.levels, List.cons_append, List.cons.injEq] at he
      exact LayerOk.below ho h.1 he.2
  | .rollup i o op, h, T, rest, m, d', he => by
    cases T with
    | nil =>
      obtain ⟨S, h1, h2, _⟩ := h.stands ho
      simp only [InternalLayer.levels, List.nil_append, List.cons.injEq] at he
      obtain ⟨e1, e2⟩ := he
      cases e1
      refine ⟨S, h1, ?_⟩
      rw [← e2]
      exact h2
    | cons x T =>
      simp only [InternalLayer.levels, List.cons_append, List.cons.injEq] at he
      obtain ⟨r, hr⟩ := InternalLayer.levels_eq i
      refine LayerOk.below ho h.1 (T := (i.name, i.data) :: T) ?_
      rw [hr, List.cons_append]
      rw [hr] at he
      simp only [List.tail_cons] at he
      rw [he.2]

/-! ### Loading -/

/-- What a pending element stands for. -/
structure QOk (st : Store K V) (q : Pending) : Prop where
  alike : AlikeN st q.1 q.current
  par : ∀ r op, q.2 = some (r, op) → st.parent? q.1 = op

/-- `Need st n qs p`: given a layer that stands for `p`, the elements `qs` can be loaded,
ending with a layer that stands for `n`. -/
def Need (st : Store K V) (n : Name) : List Pending → Name → Prop
  | [], p => p = n
  | q :: rest, p => QOk st q ∧ st.parent? q.current = some p ∧
      ∃ p', Need st n rest p' ∧ AlikeN st p' q.1

/-- The invariant of the list of pending elements. -/
def PendOk (st : Store K V) (n : Name) : List Pending → Prop
  | [] => False
  | q :: rest => QOk st q ∧ ∃ p', Need st n rest p' ∧ AlikeN st p' q.1

/-- What the search for a cached ancestor returns. -/
def FoundOk (st : Store K V) (n : Name) : Option (InternalLayer K V) × List Pending → Prop
  | (some l, rest) => LayerOk st l ∧ ∃ p, Need st n rest p ∧ Stands st p l
  | (none, qs) => ∃ q rest, qs = q :: rest ∧ QOk st q ∧ st.parent? q.current = none ∧
      ∃ p', Need st n rest p' ∧ AlikeN st p' q.1

/-- The invariant of a cache. -/
def CacheOk (st : Store K V) (c : Cache K V) : Prop :=
  ∀ n l, c n = some l → LayerOk st l ∧ l.name = n

theorem CacheOk.ext (hx : Ext st st') {c : Cache K V} (h : CacheOk st c) : CacheOk st' c :=
  fun n l hl => ⟨(h n l hl).1.ext hx, (h n l hl).2⟩

theorem parent_ext (hx : Ext st st') {n p : Name} (h : st.parent? n = some p) :
    st'.parent? n = some p := by
  unfold parent? at *
  cases hg : st.get? n with
  | none => simp [hg] at h
  | some e =>
    obtain ⟨e', k1, k2, k3⟩ := hx _ _ hg
    simp only [hg, Option.bind_some] at h
    simp [k1, k2, h]

theorem parent_ext_of_has (hx : Ext st st') {n : Name} (h : st.has n = true) :
    st'.parent? n = st.parent? n := by
  unfold parent?
  cases hg : st.get? n with
  | none => simp [Store.has, hg] at h
  | some e =>
    obtain ⟨e', k1, k2, k3⟩ := hx _ _ hg
    simp [k1, k2]

theorem Raw.has_of_ext (hx : Ext st st') {n : Name} {S : List (LayerData K V)} (h : Raw st n S) :
    st'.has n = true := (h.ext hx).has

theorem QOk.wrap {q : Pending} (h : QOk st q) {layer : InternalLayer K V}
    (hl : LayerOk st layer) (hn : layer.name = q.current) (ho : Ok st) :
    ∃ l, wrapCached layer q = .ok l ∧ LayerOk st l ∧ Stands st q.1 l := by
  have hs := hl.stands ho
  rw [hn] at hs
  have hst := h.alike.stands hs
  obtain ⟨n, ro⟩ := q
  cases ro with
  | none => exact ⟨layer, rfl, hl, hst⟩
  | some ro =>
    obtain ⟨r, op⟩ := ro
    have hp := h.par r op rfl
    simp only at hst hp
    refine ⟨.rollup layer n op, ?_, ⟨hl, hp, hst⟩, ?_⟩
    · unfold wrapCached
      by_cases hc : layer.immediateParent.isSome = true
      · simp only [hc, if_true]
        cases op with
        | some p => rfl
        | none =>
          exfalso
          have hlen := (InternalLayer.immediateParent_length layer).1 hc
          obtain ⟨S, h1, h2, h3⟩ := hst
          rcases Raw.parent h1 with ⟨_, hlS⟩ | ⟨p, _, _, hp', _⟩
          · omega
          · rw [hp] at hp'
            cases hp'
      · simp only [hc]
        rfl
    · obtain ⟨S, h1, h2⟩ := hst
      exact ⟨S, h1, by rw [InternalLayer.stack_rollup]; exact h2⟩

theorem AlikeN.rollup_parent {a b : Name} (h : AlikeN st a b) {p : Name}
    (hp : st.parent? b = some p) : ∃ q, st.parent? a = some q := by
  obtain ⟨S, R, h1, h2, h3, h4⟩ := h
  rcases h2.parent with ⟨e, _⟩ | ⟨p', e, R', g1, g2, g3, rfl⟩
  · rw [hp] at e; cases e
  · rcases h1.parent with ⟨_, hl⟩ | ⟨p', _, _, hp', _⟩
    · have : 1 ≤ R'.length := by cases g3 <;> simp
      simp only [List.length_cons] at h4
      omega
    · exact ⟨_, hp'⟩

theorem AlikeN.self (ho : Ok st) {n : Name} (h : st.has n = true) : AlikeN st n n := by
  unfold Store.has at h
  cases hg : st.get? n with
  | none => simp [hg] at h
  | some e =>
    obtain ⟨S, h1, h2, _⟩ := ho.raw hg
    exact ⟨S, S, h1, h1, h2, Nat.le_refl _⟩

theorem Raw.parent_has {n p : Name} {S : List (LayerData K V)} (h : Raw st n S)
    (hp : st.parent? n = some p) : st.has p = true := by
  rcases h.parent with ⟨e, _⟩ | ⟨p', e, R', g1, g2, g3, rfl⟩
  · rw [hp] at e; cases e
  · rw [hp] at g1; cases g1; exact g3.has

theorem loadChild_ok (ho : Ok st) {anc : InternalLayer K V} (ha : LayerOk st anc) {p : Name}
    (hs : Stands st p anc) {q : Pending} (hq : QOk st q) (hp : st.parent? q.current = some p) :
    ∃ l cs, loadChild st anc q = .ok (l, cs) ∧ LayerOk st l ∧ Stands st q.1 l ∧
      ∀ c ∈ cs, LayerOk st c := by
  have key : ∀ m, st.parent? m = some p → ∃ e, load st m = .ok e ∧
      LayerOk st (.child m (e.onTop anc.stack) anc) := by
    intro m hm
    unfold parent? at hm
    cases hg : st.get? m with
    | none => simp [hg] at hm
    | some e =>
      simp only [hg, Option.bind_some] at hm
      exact ⟨e.data, by simp [load, hg], ha, e, p, hg, hm, rfl, hs⟩
  obtain ⟨n, ro⟩ := q
  cases ro with
  | none =>
    obtain ⟨e, h1, h2⟩ := key n hp
    refine ⟨.child n (e.onTop anc.stack) anc, [.child n (e.onTop anc.stack) anc], ?_, h2,
      h2.stands ho, by simpa using h2⟩
    simp only [loadChild, h1, Out.ok_bind, Out.pure_eq]
  | some ro =>
    obtain ⟨r, op⟩ := ro
    obtain ⟨e, h1, h2⟩ := key r hp
    obtain ⟨q', hq'⟩ := hq.alike.rollup_parent hp
    have hop := hq.par r op rfl
    simp only at hop hq'
    rw [hq'] at hop
    subst hop
    have hst := hq.alike.stands (h2.stands ho)
    have h3 : LayerOk st (.rollup (.child r (e.onTop anc.stack) anc) n (some q')) :=
      ⟨h2, hq', hst⟩
    refine ⟨.rollup (.child r (e.onTop anc.stack) anc) n (some q'),
      [.child r (e.onTop anc.stack) anc, .rollup (.child r (e.onTop anc.stack) anc) n (some q')],
      ?_, h3, h3.stands ho, ?_⟩
    · simp only [loadChild, h1, Out.ok_bind, Out.pure_eq]
    · intro c hc
      simp only [List.mem_cons, List.not_mem_nil, or_false] at hc
      rcases hc with rfl | rfl
      · exact h2
      · exact h3

theorem loadBase_ok (ho : Ok st) {q : Pending} (hq : QOk st q)
    (hp : st.parent? q.current = none) :
    ∃ l cs, loadBase st q = .ok (l, cs) ∧ LayerOk st l ∧ Stands st q.1 l ∧
      ∀ c ∈ cs, LayerOk st c := by
  have key : ∀ m S, Raw st m S → st.parent? m = none → ∃ e, load st m = .ok e ∧
      LayerOk st (.base m (e.onTop [])) := by
    intro m S hS hm
    cases hS with
    | base g1 g2 => exact ⟨_, by simp [load, g1], _, g1, g2, rfl⟩
    | child g1 g2 g3 => simp [parent?, g1, g2] at hm
  obtain ⟨S, R, hS, hR, hal, hlen⟩ := hq.alike
  obtain ⟨n, ro⟩ := q
  cases ro with
  | none =>
    obtain ⟨e, h1, h2⟩ := key n _ hR hp
    refine ⟨.base n (e.onTop []), [.base n (e.onTop [])], ?_, h2, h2.stands ho, by simpa using h2⟩
    simp only [loadBase, h1, Out.ok_bind, Out.pure_eq]
  | some ro =>
    obtain ⟨r, op⟩ := ro
    obtain ⟨e, h1, h2⟩ := key r _ hR hp
    have hop := hq.par r op rfl
    have hst := hq.alike.stands (h2.stands ho)
    have h3 : LayerOk st (.rollup (.base r (e.onTop [])) n op) := ⟨h2, hop, hst⟩
    refine ⟨.rollup (.base r (e.onTop [])) n op,
      [.base r (e.onTop []), .rollup (.base r (e.onTop [])) n op], ?_, h3, h3.stands ho, ?_⟩
    · simp only [loadBase, h1, Out.ok_bind, Out.pure_eq]
    · intro c hc
      simp only [List.mem_cons, List.not_mem_nil, or_false] at hc
      rcases hc with rfl | rfl
      · exact h2
      · exact h3

theorem loadChildren_ok (ho : Ok st) {n : Name} : ∀ (qs : List Pending) {anc : InternalLayer K V}
    (_ : LayerOk st anc) {p : Name} (_ : Stands st p anc) (_ : Need st n qs p)
    (cs : List (InternalLayer K V)) (_ : ∀ c ∈ cs, LayerOk st c),
    ∃ l cs', loadChildren st anc qs cs = .ok (l, cs') ∧ LayerOk st l ∧ Stands st n l ∧
      ∀ c ∈ cs', LayerOk st c
  | [], anc, ha, p, hs, hn, cs, hcs => by
    simp only [Need] at hn
    subst hn
    exact ⟨anc, cs, rfl, ha, hs, hcs⟩
  | q :: qs, anc, ha, p, hs, hn, cs, hcs => by
    obtain ⟨h1, h2, p', h3, h4⟩ := hn
    obtain ⟨l, c, g1, g2, g3, g4⟩ := loadChild_ok ho ha hs h1 h2
    obtain ⟨l', c', k1, k2⟩ := loadChildren_ok ho qs g2 (h4.stands g3) h3 (cs ++ c) (by
      intro x hx
      rcases List.mem_append.1 hx with hx | hx
      · exact hcs x hx
      · exact g4 x hx)
    exact ⟨l', c', by simp only [loadChildren, g1, Out.ok_bind]; exact k1, k2⟩

theorem loadAll_ok (ho : Ok st) {n : Name} {found : Option (InternalLayer K V)}
    {qs : List Pending} (h : FoundOk st n (found, qs)) :
    ∃ l cs, loadAll st found qs = .ok (l, cs) ∧ LayerOk st l ∧ Stands st n l ∧
      ∀ c ∈ cs, LayerOk st c := by
  cases found with
  | some anc =>
    obtain ⟨h1, p, h2, h3⟩ := h
    exact loadChildren_ok ho qs h1 h3 h2 [] (by simp)
  | none =>
    obtain ⟨q, rest, rfl, h1, h2, p', h3, h4⟩ := h
    obtain ⟨l, cs, g1, g2, g3, g4⟩ := loadBase_ok ho h1 h2
    obtain ⟨l', c', k1, k2⟩ := loadChildren_ok ho rest g2 (h4.stands g3) h3 cs g4
    exact ⟨l', c', by simp only [loadAll, g1, Out.ok_bind]; exact k1, k2⟩

/-- One round of the search keeps the invariant of the pending elements. -/
theorem QOk.toRollup {q : Pending} (hq : QOk st q) (ho : Ok st') (hx : Ext st' st) {r : Name}
    (hr : st'.rollup? q.current = some r) :
    QOk st (q.current, some (r, st'.parent? q.current)) := by
  have h1 := ho.rollup hr
  refine ⟨h1.ext hx, ?_⟩
  intro r' op' e
  simp only [Option.some.injEq, Prod.mk.injEq] at e
  obtain ⟨S, _, hS, _⟩ := h1
  rw [← e.2]
  exact parent_ext_of_has hx hS.has

/-- Partial correctness of the search while other tasks run. -/
theorem findAncestor_sound {v : Nat → View K V} {last : Store K V} (hl : Ok last)
    (hv : ∀ t, Ok (v t).store ∧ CacheOk (v t).store (v t).cache ∧ Ext (v t).store last) {n : Name} :
    ∀ (f t : Nat) (qs : List Pending), PendOk last n qs →
      (∀ q ∈ qs.head?, (v t).store.has q.current = true) → (∀ t', Ext (v t').store (v (t' + 1)).store) →
      ∀ res, findAncestor v f t qs = .ok res → FoundOk last n res
  | 0, _, _, _, _, _, res, hres => by simp [findAncestor] at hres
  | _ + 1, _, [], hp, _, _, _, _ => hp.elim
  | f + 1, t, q :: rest, hp, hh, hm, res, hres => by
    obtain ⟨hq, p', hneed, hal⟩ := hp
    obtain ⟨hok, hc, hx⟩ := hv t
    have hhas : (v t).store.has q.current = true := hh q (by simp)
    unfold findAncestor at hres
    cases hca : (v t).cache q.current with
    | some layer =>
      simp only [hca] at hres
      obtain ⟨g1, g2⟩ := hc _ _ hca
      obtain ⟨l, k1, k2, k3⟩ := hq.wrap (g1.ext hx) g2 hl
      simp only [k1, Out.ok_bind, Out.pure_eq, Out.ok.injEq] at hres
      subst hres
      exact ⟨k2, p', hneed, hal.stands k3⟩
    | none =>
      simp only [hca] at hres
      cases hr : (v t).store.rollup? q.current with
      | some r =>
        simp only [hr] at hres
        by_cases hrc : r = q.current
        · simp [hrc] at hres
        · simp only [hrc, if_false] at hres
          refine findAncestor_sound hl hv f (t + 1)
            ((q.current, some (r, (v t).store.parent? q.current)) :: rest)
            ⟨hq.toRollup hok hx hr, p', hneed, hal.trans hq.alike⟩ ?_ hm res hres
          · intro q' hq'
            simp only [List.head?_cons, Option.mem_def, Option.some.injEq] at hq'
            subst hq'
            obtain ⟨_, R, _, hR, _⟩ := hok.rollup hr
            exact (hR.ext (hm t)).has
      | none =>
        simp only [hr] at hres
        cases hpa : (v t).store.parent? q.current with
        | some p =>
          simp only [hpa] at hres
          have hself : AlikeN (v t).store p p := by
            obtain ⟨S, _, hS, _⟩ := AlikeN.self hok hhas
            exact AlikeN.self hok (hS.parent_has hpa)
          have hsome : QOk last (p, none) := ⟨hself.ext hx, by intro r op e; cases e⟩
          refine findAncestor_sound hl hv f (t + 1) ((p, none) :: q :: rest)
            ⟨hsome, p, ⟨hq, parent_ext hx hpa, p', hneed, hal⟩, hself.ext hx⟩ ?_ hm res hres
          · intro q' hq'
            simp only [List.head?_cons, Option.mem_def, Option.some.injEq] at hq'
            subst hq'
            obtain ⟨S, _, hS, _⟩ := hself
            exact (hS.ext (hm t)).has
        | none =>
          simp only [hpa, Out.ok.injEq] at hres
          subst hres
          refine ⟨q, rest, rfl, hq, ?_, p', hneed, hal⟩
          rw [parent_ext_of_has hx hhas, hpa]

/-- Loading while other tasks run: whatever is returned stands for the name asked for. -/
theorem getLayerView_sound {v : Nat → View K V} {last : Store K V} (hl : Ok last)
    (hv : ∀ t, Ok (v t).store ∧ CacheOk (v t).store (v t).cache ∧ Ext (v t).store last)
    (hm : ∀ t, Ext (v t).store (v (t + 1)).store) {n : Name} {f : Nat}
    {res : Option (InternalLayer K V) × List (InternalLayer K V)}
    (h : getLayerView v f last n = .ok res) :
    (∀ l, res.1 = some l → LayerOk last l ∧ Stands last n l) ∧ (∀ c ∈ res.2, LayerOk last c) ∧
      (res.1 = none → (v 0).store.has n = false) := by
  unfold getLayerView at h
  obtain ⟨hok, hc, hx⟩ := hv 0
  cases hca : (v 0).cache n with
  | some l =>
    simp only [hca, Out.ok.injEq] at h
    subst h
    refine ⟨?_, by simp, by simp⟩
    intro l' e
    cases e
    obtain ⟨g1, g2⟩ := hc _ _ hca
    have := g1.ext hx
    refine ⟨this, ?_⟩
    rw [← g2]
    exact this.stands hl
  | none =>
    simp only [hca] at h
    by_cases hh : (v 0).store.has n = true
    · simp only [hh, if_true] at h
      obtain ⟨r, h1, h2⟩ := Out.bind_eq_ok.1 h
      obtain ⟨q, h3, h4⟩ := Out.bind_eq_ok.1 h2
      simp only [Out.pure_eq, Out.ok.injEq] at h4
      subst h4
      have hself := (AlikeN.self hok hh).ext hx
      have hf := findAncestor_sound hl hv f 1 [(n, none)]
        ⟨⟨hself, by intro r op e; cases e⟩, n, rfl, hself⟩ (by
          intro q hq
          simp only [List.head?_cons, Option.mem_def, Option.some.injEq] at hq
          subst hq
          obtain ⟨S, _, hS, _⟩ := AlikeN.self hok hh
          exact (hS.ext (hm 0)).has) hm r h1
      obtain ⟨l, cs, k1, k2, k3, k4⟩ := loadAll_ok hl hf
      rw [h3] at k1
      cases k1
      refine ⟨?_, k4, by simp⟩
      intro l' e
      cases e
      exact ⟨k2, k3⟩
    · simp only [hh, Bool.false_eq_true, if_false, Out.ok.injEq] at h
      subst h
      exact ⟨by simp, by simp, fun _ => by simpa using hh⟩

theorem index_lt : ∀ {st : Store K V} {n : Name}, st.has n = true → st.index n < st.length
  | [], n, h => by simp [Store.has, get?] at h
  | (m, e) :: st, n, h => by
    unfold index
    by_cases hm : m = n
    · simp [hm]
    · simp only [hm, if_false, List.length_cons]
      have : Store.has st n = true := by simpa [Store.has, get?, hm] using h
      exact Nat.lt_succ_of_lt (index_lt this)

/-- The rounds the search still needs. -/
def Bound (st : Store K V) (rank : Name → Nat) (n : Name) (f : Nat) : Prop :=
  ∃ S, Raw st n S ∧ S.length * (st.length + 1) + (st.length - rank n) < f

theorem findAncestor_total {st : Store K V} {c : Cache K V} (ho : Ok st) (hc : CacheOk st c)
    {rank : Name → Nat} (hr1 : ∀ n r, st.rollup? n = some r → rank n < rank r)
    (hr2 : ∀ n, st.has n = true → rank n < st.length) {n : Name} :
    ∀ (f t : Nat) (q : Pending) (rest : List Pending), PendOk st n (q :: rest) →
      Bound st rank q.current f →
      ∃ res, findAncestor (fun _ => ⟨st, c⟩) f t (q :: rest) = .ok res
  | 0, _, q, rest, _, hb => by obtain ⟨S, _, h⟩ := hb; omega
  | f + 1, t, q, rest, hp, hb => by
    obtain ⟨S, hS, hlt⟩ := hb
    obtain ⟨hq, p', hneed, hal⟩ := hp
    cases hca : c q.current with
    | some layer =>
      obtain ⟨g1, g2⟩ := hc _ _ hca
      obtain ⟨l, k1, k2, k3⟩ := hq.wrap g1 g2 ho
      exact ⟨(some l, rest), by simp only [findAncestor, hca, k1, Out.ok_bind, Out.pure_eq]⟩
    | none =>
      cases hr : st.rollup? q.current with
      | some r =>
        have hrank := hr1 _ _ hr
        have hrc : r ≠ q.current := by rintro rfl; omega
        simp only [findAncestor, hca, hr, hrc, if_false]
        obtain ⟨S', R, h1, h2, h3, h4⟩ := ho.rollup hr
        cases hS.unique h1
        refine findAncestor_total ho hc hr1 hr2 f (t + 1) _ _
          ⟨hq.toRollup ho (Ext.refl st) hr, p', hneed, hal.trans hq.alike⟩ ⟨R, h2, ?_⟩
        have := hr2 r h2.has
        have hm : R.length * (st.length + 1) ≤ S.length * (st.length + 1) :=
          Nat.mul_le_mul_right _ h4
        simp only [Pending.current]
        omega
      | none =>
        cases hpa : st.parent? q.current with
        | some p =>
          simp only [findAncestor, hca, hr, hpa]
          have hself : AlikeN st p p := AlikeN.self ho (hS.parent_has hpa)
          have hsome : QOk st (p, none) := ⟨hself, by intro r op e; cases e⟩
          refine findAncestor_total ho hc hr1 hr2 f (t + 1) (p, none) (q :: rest)
            ⟨hsome, p, ⟨hq, hpa, p', hneed, hal⟩, hself⟩ ?_
          rcases hS.parent with ⟨e, _⟩ | ⟨p'', e, R, g1, g2, g3, rfl⟩
          · rw [hpa] at e; cases e
          · rw [hpa] at g1
            cases g1
            refine ⟨R, g3, ?_⟩
            simp only [Pending.current]
            simp only [List.length_cons, Nat.succ_mul] at hlt
            omega
        | none => exact ⟨(none, q :: rest), by simp only [findAncestor, hca, hr, hpa]⟩

/-- Loading with nothing else running always succeeds. -/
theorem getLayer_total {st : Store K V} {c : Cache K V} (ho : Ok st) (hc : CacheOk st c) (n : Name) :
    ∃ res, st.getLayer c n = .ok res ∧ (res.1.isSome = true ↔ st.has n = true) := by
  unfold getLayer getLayerView
  cases hca : c n with
  | some l =>
    refine ⟨(some l, []), by simp only [hca], ?_⟩
    obtain ⟨g1, g2⟩ := hc _ _ hca
    obtain ⟨S, hS, _⟩ := g1.stands ho
    rw [g2] at hS
    simp [hS.has]
  | none =>
    simp only
    by_cases hh : st.has n = true
    · simp only [hh, if_true]
      have hr1 : ∀ n r, st.rollup? n = some r → st.index n < st.index r := fun _ _ => ho.order
      have hr2 : ∀ n, st.has n = true → st.index n < st.length := fun _ => index_lt
      have hself := AlikeN.self ho hh
      obtain ⟨S, _, hS, _⟩ := AlikeN.self ho hh
      have hpend : PendOk st n [(n, none)] := ⟨⟨hself, by intro r op e; cases e⟩, n, rfl, hself⟩
      have hlen : S.length ≤ st.length := by
        have : ∃ e, st.get? n = some e := by
          cases hS with
          | base g1 _ => exact ⟨_, g1⟩
          | child g1 _ _ => exact ⟨_, g1⟩
        obtain ⟨e, he⟩ := this
        obtain ⟨S', k1, _, k3⟩ := ho.raw he
        cases hS.unique k1
        exact k3
      obtain ⟨res, h1⟩ := findAncestor_total ho hc hr1 hr2 st.loadFuel 1 (n, none) [] hpend
        ⟨S, hS, by
          unfold loadFuel
          have := Nat.mul_le_mul_right (st.length + 1) hlen
          rw [Nat.succ_mul]
          omega⟩
      have hf := findAncestor_sound ho (v := fun _ => ⟨st, c⟩) (fun t => ⟨ho, hc, Ext.refl st⟩)
        st.loadFuel 1 [(n, none)] hpend (by
          intro q hq
          simp only [List.head?_cons, Option.mem_def, Option.some.injEq] at hq
          subst hq
          exact hh) (fun _ => Ext.refl st) res h1
      obtain ⟨l, cs, k1, k2⟩ := loadAll_ok ho hf
      exact ⟨(some l, cs), by simp only [hca, h1, Out.ok_bind, k1, Out.pure_eq], by simp⟩
    · simp only [hh, Bool.false_eq_true, if_false]
      exact ⟨(none, []), by simp only [hca], by simp⟩

theorem getLayer_ok {st : Store K V} {c : Cache K V} (ho : Ok st) (hc : CacheOk st c) {n : Name}
    {res : Option (InternalLayer K V) × List (InternalLayer K V)} (h : st.getLayer c n = .ok res) :
    (∀ l, res.1 = some l → LayerOk st l ∧ Stands st n l) ∧ (∀ c ∈ res.2, LayerOk st c) ∧
      (res.1 = none → st.has n = false) :=
  getLayerView_sound ho (v := fun _ => ⟨st, c⟩) (fun t => ⟨ho, hc, Ext.refl st⟩)
    (fun _ => Ext.refl st) h

end Store

end Verif
