import Verif.Lemmas.StoreInv

/-!
The operations of the layer store keep its invariant.
-/

set_option linter.unusedSectionVars false
set_option linter.unusedVariables false

namespace Verif

variable {K V : Type} [LinearOrder K] [LinearOrder V]

namespace Store

variable {st st' : Store K V}

theorem has_iff {n : Name} : st.has n = true ↔ ∃ e, st.get? n = some e := by
  unfold Store.has
  cases st.get? n <;> simp

theorem Raw.get {n : Name} {S : List (LayerData K V)} (h : Raw st n S) : ∃ e, st.get? n = some e :=
  has_iff.1 h.has

theorem Ok.raw' (ho : Ok st) {n : Name} (h : st.has n = true) :
    ∃ S, Raw st n S ∧ Reachable S ∧ S.length ≤ st.length := by
  obtain ⟨e, he⟩ := has_iff.1 h
  exact ho.raw he

theorem Raw.reachable (ho : Ok st) {n : Name} {S : List (LayerData K V)} (h : Raw st n S) :
    Reachable S := by
  obtain ⟨S', h1, h2, _⟩ := ho.raw' h.has
  cases h.unique h1
  exact h2

theorem Raw.length_pos {n : Name} {S : List (LayerData K V)} (h : Raw st n S) : 1 ≤ S.length := by
  cases h <;> simp

/-- In a good store the stored stack consists of the stored contents. -/
theorem Ok.cases (ho : Ok st) {n : Name} {e : Entry K V} {S : List (LayerData K V)}
    (he : st.get? n = some e) (hS : Raw st n S) :
    (e.parent = none ∧ S = [e.data]) ∨ ∃ p R, e.parent = some p ∧ Raw st p R ∧ S = e.data :: R := by
  have hown := ho.own he hS
  cases hS with
  | base g1 g2 =>
    rw [he] at g1
    cases g1
    simp only [List.head?_cons, Option.some.injEq] at hown
    left
    exact ⟨g2, by rw [hown]⟩
  | child g1 g2 g3 =>
    rw [he] at g1
    cases g1
    simp only [List.head?_cons, Option.some.injEq] at hown
    right
    exact ⟨_, _, g2, g3, by rw [hown]⟩

/-! ### Writing a new layer -/

theorem Below.ext (hx : Ext st st') {e : Entry K V} {S : List (LayerData K V)}
    (h : Below st e S) : Below st' e S := by
  unfold Below at *
  cases hp : e.parent with
  | none => rw [hp] at h; exact h
  | some p => rw [hp] at h; exact Raw.ext hx h

/-- What makes an entry fit to be written. -/
def Fit (st : Store K V) (e : Entry K V) : Prop :=
  e.rollup = none ∧ ∃ S, Below st e S ∧ e.data.onTop S = e.data ∧ Reachable (e.data :: S)

theorem Fit.ext (hx : Ext st st') {e : Entry K V} (h : Fit st e) : Fit st' e := by
  obtain ⟨h1, S, h2, h3⟩ := h
  exact ⟨h1, S, h2.ext hx, h3⟩

theorem Ext.cons {n : Name} (h : st.get? n = none) (e : Entry K V) : Ext st ((n, e) :: st) := by
  intro m e' he
  have : n ≠ m := by rintro rfl; rw [h] at he; cases he
  exact ⟨e', by simp [get?, this, he], rfl, rfl⟩

theorem get?_cons_self (n : Name) (e : Entry K V) : get? ((n, e) :: st) n = some e := by
  simp [get?]

theorem get?_cons_ne {n m : Name} (h : n ≠ m) (e : Entry K V) :
    get? ((n, e) :: st) m = st.get? m := by
  simp [get?, h]

/-- The stored stack of a newly written layer. -/
theorem Below.raw {n : Name} {e : Entry K V} {S : List (LayerData K V)}
    (hn : st.get? n = none) (hb : Below st e S) (hd : e.data.onTop S = e.data) :
    Raw ((n, e) :: st) n (e.data :: S) := by
  have hx := Ext.cons hn e
  unfold Below at hb
  cases hp : e.parent with
  | none =>
    rw [hp] at hb
    subst hb
    rw [← hd]
    exact Raw.base (get?_cons_self n e) hp
  | some p =>
    rw [hp] at hb
    rw [← hd]
    exact Raw.child (get?_cons_self n e) hp (Raw.ext hx hb)

theorem Below.length (ho : Ok st) {e : Entry K V} {S : List (LayerData K V)}
    (hb : Below st e S) : S.length ≤ st.length := by
  unfold Below at hb
  cases hp : e.parent with
  | none => rw [hp] at hb; subst hb; simp
  | some p =>
    rw [hp] at hb
    obtain ⟨S', h1, _, h3⟩ := ho.raw' (Raw.has hb)
    cases Raw.unique hb h1
    exact h3

theorem index_cons_ne {n m : Name} (h : n ≠ m) (e : Entry K V) :
    index ((n, e) :: st) m = st.index m := by
  simp [index, h]

theorem Ok.write (ho : Ok st) {n : Name} (hn : st.get? n = none) {e : Entry K V} (hf : Fit st e) :
    Ok ((n, e) :: st) := by
  obtain ⟨hro, S, hb, hd, hr⟩ := hf
  have hx := Ext.cons hn e
  have hroll : ∀ {m r}, rollup? ((n, e) :: st) m = some r → st.rollup? m = some r := by
    intro m r h
    unfold rollup? at *
    by_cases hm : n = m
    · subst hm
      simp [get?_cons_self, hro] at h
    · rwa [get?_cons_ne hm] at h
  have hself := hb.raw hn hd
  refine ⟨?_, ?_, ?_, ?_⟩
  · intro m e' he
    by_cases hm : n = m
    · subst hm
      exact ⟨_, hself, hr, by simpa using hb.length ho⟩
    · rw [get?_cons_ne hm] at he
      obtain ⟨S', h1, h2, h3⟩ := ho.raw he
      exact ⟨S', h1.ext hx, h2, h3.trans (by simp)⟩
  · intro m r h
    exact (ho.rollup (hroll h)).ext hx
  · intro m r h
    have h' := hroll h
    obtain ⟨_, _, g1, g2, _⟩ := ho.rollup h'
    have hne : ∀ {m S}, Raw st m S → n ≠ m := by
      intro m S hS he
      subst he
      obtain ⟨e, he⟩ := hS.get
      rw [hn] at he
      cases he
    rw [index_cons_ne (hne g1), index_cons_ne (hne g2)]
    exact ho.order h'
  · intro m e' S' he hS'
    by_cases hm : n = m
    · subst hm
      rw [get?_cons_self] at he
      cases he
      rw [hS'.unique hself]
      rfl
    · rw [get?_cons_ne hm] at he
      obtain ⟨S'', h1, _⟩ := ho.raw he
      rw [hS'.unique (h1.ext hx)]
      exact ho.own he h1

/-! ### Registering a rollup -/

theorem get?_setRollup (st : Store K V) (n r m : Name) :
    (st.setRollup n r).get? m =
      if m = n then (st.get? m).map (fun e => { e with rollup := some r }) else st.get? m := by
  induction st with
  | nil => simp [setRollup, get?]
  | cons q st ih =>
    obtain ⟨k, e⟩ := q
    simp only [setRollup] at ih
    by_cases hk : k = n
    · subst hk
      by_cases hm : k = m
      · subst hm
        simp [setRollup, get?]
      · have hm' : m ≠ k := fun h => hm h.symm
        simp only [setRollup, List.map_cons, if_true, get?, hm, if_false, ih, hm']
    · by_cases hm : k = m
      · subst hm
        simp [setRollup, get?, hk]
      · simp only [setRollup, List.map_cons, hk, if_false, get?, hm, ih]

theorem index_setRollup (st : Store K V) (n r m : Name) :
    (st.setRollup n r).index m = st.index m := by
  induction st with
  | nil => rfl
  | cons q st ih =>
    obtain ⟨k, e⟩ := q
    have hl : (List.map (fun q : Name × Entry K V =>
        if q.1 = n then (q.1, { q.2 with rollup := some r }) else q) st).length = st.length := by simp
    simp only [setRollup] at ih
    by_cases hk : k = n
    · simp only [setRollup, List.map_cons, hk, if_true, index, hl, ih]
    · simp only [setRollup, List.map_cons, hk, if_false, index, hl, ih]

theorem length_setRollup (st : Store K V) (n r : Name) :
    List.length (st.setRollup n r) = List.length st := by simp [setRollup]

theorem Ext.setRollup (st : Store K V) (n r : Name) : Ext st (st.setRollup n r) := by
  intro m e he
  rw [get?_setRollup]
  by_cases hm : m = n
  · exact ⟨{ e with rollup := some r }, by subst hm; simp [he], rfl, rfl⟩
  · exact ⟨e, by simp [hm, he], rfl, rfl⟩

theorem Ext.setRollup' (st : Store K V) (n r : Name) : Ext (st.setRollup n r) st := by
  intro m e he
  rw [get?_setRollup] at he
  by_cases hm : m = n
  · simp only [hm, if_true] at he
    cases hg : st.get? n with
    | none => simp [hg] at he
    | some e' =>
      simp only [hg, Option.map_some, Option.some.injEq] at he
      subst he
      exact ⟨e', by rw [hm, hg], rfl, rfl⟩
  · simp only [hm, if_false] at he
    exact ⟨e, he, rfl, rfl⟩

theorem Ok.setRollup (ho : Ok st) {n r : Name} (ha : AlikeN st n r) (hi : st.index n < st.index r) :
    Ok (st.setRollup n r) := by
  have hx := Ext.setRollup st n r
  have hx' := Ext.setRollup' st n r
  have hroll : ∀ {m r'}, (st.setRollup n r).rollup? m = some r' →
      (m = n ∧ r' = r) ∨ st.rollup? m = some r' := by
    intro m r' h
    unfold rollup? at *
    rw [get?_setRollup] at h
    by_cases hm : m = n
    · simp only [hm, if_true] at h
      cases hg : st.get? n with
      | none => simp [hg] at h
      | some e =>
        simp only [hg, Option.map_some, Option.bind_some, Option.some.injEq] at h
        exact Or.inl ⟨hm, h.symm⟩
    · simp only [hm, if_false] at h
      exact Or.inr h
  refine ⟨?_, ?_, ?_, ?_⟩
  · intro m e he
    obtain ⟨e', he', _⟩ := hx' _ _ he
    obtain ⟨S, h1, h2, h3⟩ := ho.raw he'
    exact ⟨S, h1.ext hx, h2, by rw [length_setRollup]; exact h3⟩
  · intro m r' h
    rcases hroll h with ⟨rfl, rfl⟩ | h
    · exact ha.ext hx
    · exact (ho.rollup h).ext hx
  · intro m r' h
    rw [index_setRollup, index_setRollup]
    rcases hroll h with ⟨rfl, rfl⟩ | h
    · exact hi
    · exact ho.order h
  · intro m e S he hS
    obtain ⟨e', he', _, h3⟩ := hx' _ _ he
    rw [← h3]
    exact ho.own he' (hS.ext hx')

theorem Ok.nil : Ok ([] : Store K V) :=
  ⟨by intro n e h; simp [get?] at h, by intro n r h; simp [rollup?, get?] at h,
   by intro n r h; simp [rollup?, get?] at h, by intro n e S h; simp [get?] at h⟩

/-! ### Walks along the parents -/

/-- The names of a layer and its ancestors, topmost first. -/
inductive Chain (st : Store K V) : Name → List Name → Prop
  | base {n} : st.has n = true → st.parent? n = none → Chain st n [n]
  | child {n p ns} : st.parent? n = some p → Chain st p ns → Chain st n (n :: ns)

theorem Chain.unique {n : Name} {ns ms : List Name} (h : Chain st n ns) (h' : Chain st n ms) :
    ns = ms := by
  induction h generalizing ms with
  | base g1 g2 =>
    cases h' with
    | base k1 k2 => rfl
    | child k1 k2 => rw [g2] at k1; cases k1
  | child g1 g2 ih =>
    cases h' with
    | base k1 k2 => rw [g1] at k2; cases k2
    | child k1 k2 => rw [g1] at k1; cases k1; rw [ih k2]

theorem Raw.chain {n : Name} {S : List (LayerData K V)} (h : Raw st n S) :
    ∃ ns, Chain st n ns ∧ ns.length = S.length := by
  induction h with
  | base g1 g2 => exact ⟨_, .base (by simp [Store.has, g1]) (by simp [parent?, g1, g2]), rfl⟩
  | child g1 g2 g3 ih =>
    obtain ⟨ns, h1, h2⟩ := ih
    exact ⟨_, .child (by simp [parent?, g1, g2]) h1, by simp [h2]⟩

theorem Chain.ext (hx : Ext st st') {n : Name} {ns : List Name} (h : Chain st n ns) :
    Chain st' n ns := by
  induction h with
  | base g1 g2 =>
    refine .base ?_ ?_
    · obtain ⟨e, he⟩ := has_iff.1 g1
      obtain ⟨e', h1, _⟩ := hx _ _ he
      exact has_iff.2 ⟨e', h1⟩
    · rw [parent_ext_of_has hx g1, g2]
  | child g1 g2 ih => exact .child (parent_ext hx g1) ih

theorem Chain.has {n : Name} {ns : List Name} (h : Chain st n ns) : ∀ m ∈ ns, st.has m = true := by
  induction h with
  | base g1 g2 => simpa using g1
  | child g1 g2 ih =>
    intro m hm
    rcases List.mem_cons.1 hm with rfl | hm
    · unfold parent? at g1
      cases hg : st.get? m with
      | none => simp [hg] at g1
      | some e => simp [Store.has, hg]
    · exact ih m hm

theorem Chain.head {n : Name} {ns : List Name} (h : Chain st n ns) : ns.head? = some n := by
  cases h <;> rfl

theorem Chain.mem {n : Name} {ns : List Name} (h : Chain st n ns) : n ∈ ns := by
  cases h <;> simp

/-- The chain of an ancestor is the end of the chain. -/
theorem Chain.suffix {n : Name} {ns : List Name} (h : Chain st n ns) :
    ∀ {m}, m ∈ ns → ∃ ms, Chain st m ms ∧ ms <:+ ns := by
  induction h with
  | base g1 g2 =>
    intro m hm
    simp only [List.mem_singleton] at hm
    subst hm
    exact ⟨_, .base g1 g2, List.suffix_refl _⟩
  | child g1 g2 ih =>
    intro m hm
    rcases List.mem_cons.1 hm with rfl | hm
    · exact ⟨_, .child g1 g2, List.suffix_refl _⟩
    · obtain ⟨ms, h1, h2⟩ := ih hm
      exact ⟨ms, h1, h2.trans (List.suffix_cons _ _)⟩

theorem Chain.nodup {n : Name} {ns : List Name} (h : Chain st n ns) : ns.Nodup := by
  induction h with
  | base g1 g2 => simp
  | @child n p ns g1 g2 ih =>
    refine List.nodup_cons.2 ⟨?_, ih⟩
    intro hm
    obtain ⟨ms, h1, h2⟩ := g2.suffix hm
    have := h1.unique (.child g1 g2)
    subst this
    have := h2.length_le
    simp only [List.length_cons] at this
    omega

theorem stackNamesLoop_eq {n : Name} {ns : List Name} (h : Chain st n ns) :
    ∀ f, ns.length ≤ f → stackNamesLoop st f n = .ok ns := by
  induction h with
  | base g1 g2 =>
    intro f hf
    obtain ⟨f, rfl⟩ : ∃ g, f = g + 1 := ⟨f - 1, by simp at hf; omega⟩
    simp only [stackNamesLoop, g2]
  | child g1 g2 ih =>
    intro f hf
    simp only [List.length_cons] at hf
    obtain ⟨f, rfl⟩ : ∃ g, f = g + 1 := ⟨f - 1, by omega⟩
    simp only [stackNamesLoop, g1, ih f (by omega), Out.ok_bind, Out.pure_eq]

theorem Ok.chain (ho : Ok st) {n : Name} (h : st.has n = true) :
    ∃ ns, Chain st n ns ∧ ns.length ≤ st.length := by
  obtain ⟨S, h1, _, h3⟩ := ho.raw' h
  obtain ⟨ns, g1, g2⟩ := h1.chain
  exact ⟨ns, g1, by omega⟩

theorem stackNames_eq (ho : Ok st) {n : Name} (h : st.has n = true) :
    ∃ ns, Chain st n ns ∧ st.stackNames n = .ok ns.reverse := by
  obtain ⟨ns, h1, h2⟩ := ho.chain h
  exact ⟨ns, h1, by
    simp only [stackNames, stackNamesLoop_eq h1 st.fuel (by unfold fuel; omega), Out.ok_bind,
      Out.pure_eq]⟩

theorem isAncestorLoop_eq {n : Name} {ns : List Name} (a : Name) (h : Chain st n ns) :
    ∀ f, ns.length ≤ f → isAncestorLoop st a f n = .ok (decide (a ∈ ns)) := by
  induction h with
  | @base n g1 g2 =>
    intro f hf
    obtain ⟨f, rfl⟩ : ∃ g, f = g + 1 := ⟨f - 1, by simp at hf; omega⟩
    simp only [isAncestorLoop, g2]
    by_cases ha : a = n <;> simp [ha]
  | @child n p ns g1 g2 ih =>
    intro f hf
    simp only [List.length_cons] at hf
    obtain ⟨f, rfl⟩ : ∃ g, f = g + 1 := ⟨f - 1, by omega⟩
    simp only [isAncestorLoop, g1, ih f (by omega)]
    by_cases ha : a = n <;> simp [ha]

theorem isAncestor_eq (ho : Ok st) {n : Name} (h : st.has n = true) (a : Name) :
    ∃ ns, Chain st n ns ∧ st.isAncestor n a = .ok (decide (a ∈ ns)) := by
  obtain ⟨ns, h1, h2⟩ := ho.chain h
  exact ⟨ns, h1, isAncestorLoop_eq a h1 st.fuel (by unfold fuel; omega)⟩

/-- `stackNamesUpto` returns the names above `upto`. -/
theorem stackNamesUptoLoop_sound {upto : Name} : ∀ {f : Nat} {n : Name} {ns : List Name},
    stackNamesUptoLoop st upto f n = .ok ns →
    ∀ {ms : List Name}, Chain st n ms → ∃ us, Chain st upto us ∧ ms = ns ++ us ∧ ns ≠ [] ∧
      upto ∉ ns.tail
  | 0, _, _, h, _, _ => by simp [stackNamesUptoLoop] at h
  | f + 1, n, ns, h, ms, hc => by
    unfold stackNamesUptoLoop at h
    cases hc with
    | base g1 g2 => simp [g2] at h
    | @child _ p ps g1 g2 =>
      simp only [g1] at h
      by_cases hp : p = upto
      · simp only [hp, if_true, Out.ok.injEq] at h
        subst h
        exact ⟨ps, hp ▸ g2, rfl, by simp, by simp⟩
      · simp only [hp, if_false] at h
        obtain ⟨r, h1, h2⟩ := Out.bind_eq_ok.1 h
        simp only [Out.pure_eq, Out.ok.injEq] at h2
        subst h2
        obtain ⟨us, k1, k2, k3, k4⟩ := stackNamesUptoLoop_sound h1 g2
        refine ⟨us, k1, by rw [k2]; rfl, by simp, ?_⟩
        simp only [List.tail_cons]
        intro hm
        cases r with
        | nil => simp at hm
        | cons x r =>
          simp only [List.tail_cons] at k4
          rcases List.mem_cons.1 hm with rfl | hm
          · have := g2.head
            rw [k2] at this
            simp only [List.cons_append, List.head?_cons, Option.some.injEq] at this
            exact hp this.symm
          · exact k4 hm

theorem stackNamesUpto_sound {upto n : Name} {ns ms : List Name}
    (h : st.stackNamesUpto n upto = .ok ns) (hc : Chain st n ms) :
    ∃ us, Chain st upto us ∧ ms = ns.reverse ++ us ∧ ns ≠ [] := by
  unfold stackNamesUpto at h
  obtain ⟨r, h1, h2⟩ := Out.bind_eq_ok.1 h
  simp only [Out.pure_eq, Out.ok.injEq] at h2
  subst h2
  obtain ⟨us, k1, k2, k3, _⟩ := stackNamesUptoLoop_sound h1 hc
  exact ⟨us, k1, by simpa using k2, by simpa using k3⟩

theorem diskLevels_sound (ho : Ok st) {upto : Name} : ∀ {f : Nat} {n : Name}
    {D : List (LayerData K V)}, diskLevels st upto f n = .ok D →
    ∀ {S : List (LayerData K V)}, Raw st n S → ∃ R, Raw st upto R ∧ S = D ++ R
  | 0, _, _, h, _, _ => by simp [diskLevels] at h
  | f + 1, n, D, h, S, hS => by
    unfold diskLevels at h
    by_cases hn : n = upto
    · simp only [hn, if_true, Out.ok.injEq] at h
      subst h
      exact ⟨S, hn ▸ hS, rfl⟩
    · simp only [hn, if_false] at h
      obtain ⟨e, he⟩ := hS.get
      simp only [he] at h
      rcases ho.cases he hS with ⟨hp, rfl⟩ | ⟨p, R, hp, hR, rfl⟩
      · simp [hp] at h
      · simp only [hp] at h
        obtain ⟨r, h1, h2⟩ := Out.bind_eq_ok.1 h
        simp only [Out.pure_eq, Out.ok.injEq] at h2
        subst h2
        obtain ⟨Q, k1, k2⟩ := diskLevels_sound ho h1 hR
        exact ⟨Q, k1, by rw [k2]; rfl⟩

theorem loadNames_sound (ho : Ok st) : ∀ {ns us : List Name} {n upto : Name}
    {T : List (LayerData K V)}, st.loadNames ns = .ok T → Chain st n (ns ++ us) →
    Chain st upto us → ∀ {S : List (LayerData K V)}, Raw st n S → ∃ R, Raw st upto R ∧ S = T ++ R
  | [], us, n, upto, T, h, hc, hu, S, hS => by
    simp only [loadNames, Out.ok.injEq] at h
    subst h
    have : n = upto := by
      have h1 := hc.head
      have h2 := hu.head
      rw [List.nil_append, h2] at h1
      exact (Option.some.inj h1).symm
    subst this
    exact ⟨S, hS, rfl⟩
  | k :: ns, us, n, upto, T, h, hc, hu, S, hS => by
    unfold loadNames at h
    obtain ⟨d, h1, h2⟩ := Out.bind_eq_ok.1 h
    obtain ⟨r, h3, h4⟩ := Out.bind_eq_ok.1 h2
    simp only [Out.pure_eq, Out.ok.injEq] at h4
    subst h4
    have hk : k = n := by
      have := hc.head
      simpa using this
    subst hk
    unfold load at h1
    obtain ⟨e, he⟩ := hS.get
    simp only [he, Out.ok.injEq] at h1
    subst h1
    rw [List.cons_append] at hc
    rcases ho.cases he hS with ⟨hp, rfl⟩ | ⟨p, R, hp, hR, rfl⟩
    · have hp' : st.parent? k = none := by simp [parent?, he, hp]
      have hn : ns ++ us = [] := by
        generalize hx : k :: (ns ++ us) = xs at hc
        cases hc with
        | base _ _ => simpa using hx
        | child g1 _ => rw [hp'] at g1; cases g1
      have : us = [] := (List.append_eq_nil_iff.1 hn).2
      subst this
      have := hu.head
      simp at this
    · have hp' : st.parent? k = some p := by simp [parent?, he, hp]
      have hc' : Chain st p (ns ++ us) := by
        generalize hx : k :: (ns ++ us) = xs at hc
        cases hc with
        | base _ g2 => rw [hp'] at g2; cases g2
        | child g1 g2 =>
          rw [hp'] at g1
          cases g1
          simp only [List.cons.injEq, true_and] at hx
          rw [hx]
          exact g2
      obtain ⟨Q, k1, k2⟩ := loadNames_sound ho h3 hc' hu hR
      exact ⟨Q, k1, by rw [k2]; rfl⟩

theorem countsLoop_eq {n : Name} {S : List (LayerData K V)} (h : Raw st n S) :
    ∀ f, S.length ≤ f → countsLoop st f n = .ok (Stack.nvCount S, Stack.pCount S) := by
  induction h with
  | base g1 g2 =>
    intro f hf
    obtain ⟨f, rfl⟩ : ∃ g, f = g + 1 := ⟨f - 1, by simp at hf; omega⟩
    simp only [countsLoop, g1, g2, Out.ok_bind, Out.pure_eq]
    simp [Stack.nvCount, Stack.pCount, LayerData.onTop]
  | child g1 g2 g3 ih =>
    intro f hf
    simp only [List.length_cons] at hf
    obtain ⟨f, rfl⟩ : ∃ g, f = g + 1 := ⟨f - 1, by omega⟩
    simp only [countsLoop, g1, g2, ih f (by omega), Out.ok_bind, Out.pure_eq]
    simp [Stack.nvCount, Stack.pCount, LayerData.onTop, Nat.add_assoc]

theorem layersUpto_sound {bound : Name} : ∀ {L : List (Name × LayerData K V)}
    {mem : List (LayerData K V)}, layersUpto bound L = .ok mem →
    ∃ T d rest, L = T ++ (bound, d) :: rest ∧ mem = T.map Prod.snd
  | [], _, h => by simp [layersUpto] at h
  | (n, d) :: rest, mem, h => by
    unfold layersUpto at h
    by_cases hn : n = bound
    · simp only [hn, if_true, Out.ok.injEq] at h
      subst h
      exact ⟨[], d, rest, by rw [hn]; rfl, rfl⟩
    · simp only [hn, if_false] at h
      obtain ⟨r, h1, h2⟩ := Out.bind_eq_ok.1 h
      simp only [Out.pure_eq, Out.ok.injEq] at h2
      subst h2
      obtain ⟨T, d', rest', k1, k2⟩ := layersUpto_sound h1
      exact ⟨(n, d) :: T, d', rest', by rw [k1]; rfl, by rw [k2]; rfl⟩

end Store

end Verif
