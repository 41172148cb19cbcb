import Verif.Model.Getters
import Verif.Lemmas.WorldMore

/-!
The getters of the cached store answer from the files of the layer, and the walks of the
change iterators collect the layers between two names.
-/

set_option linter.unusedSectionVars false
set_option linter.unusedVariables false

namespace Verif

open SimpleBuilder Spec

variable {K V : Type} [LinearOrder K] [LinearOrder V]

namespace Store

variable {st st' : Store K V}

/-- A loaded layer that is not a rollup has the contents of the files. -/
theorem LayerOk.own {l : InternalLayer K V} (h : LayerOk st l) (hr : l.isRollup = false) :
    ∃ e S, st.get? l.name = some e ∧ l.data = e.data.onTop S := by
  cases l with
  | base n d =>
    obtain ⟨e, h1, h2, h3⟩ := h
    exact ⟨e, [], h1, h3⟩
  | child n d p =>
    obtain ⟨_, e, q, h1, h2, h3, _⟩ := h
    exact ⟨e, _, h1, h3⟩
  | rollup i o op => cases hr

theorem LayerOk.has (ho : Ok st) {l : InternalLayer K V} (h : LayerOk st l) :
    st.has l.name = true := by
  obtain ⟨S, h1, _⟩ := h.stands ho
  exact h1.has

namespace View

variable {v : View K V} {n : Name}

/-- A question about the files of a layer has the same answer with and without the cache. -/
theorem via_eq {α : Type} (hc : CacheOk v.store v.cache) {e : Entry K V}
    (he : v.store.get? n = some e) {F : LayerData K V → α} {inner : Store K V → α}
    (hF : ∀ d S, F (d.onTop S) = F d) (hi : inner v.store = F e.data) :
    v.via n (fun l => F l.data) inner = F e.data := by
  unfold via
  cases hn : v.cache n with
  | none => exact hi
  | some l =>
    obtain ⟨h1, h2⟩ := hc n l hn
    show (if l.isRollup = true then inner v.store else F l.data) = F e.data
    cases hr : l.isRollup with
    | true => exact hi
    | false =>
      obtain ⟨e', S, g1, g2⟩ := h1.own hr
      rw [h2, he] at g1
      cases g1
      show F l.data = F e.data
      rw [g2, hF]

theorem cache_none (ho : Ok v.store) (hc : CacheOk v.store v.cache)
    (he : v.store.get? n = none) : v.cache n = none := by
  cases hn : v.cache n with
  | none => rfl
  | some l =>
    obtain ⟨h1, h2⟩ := hc n l hn
    have := h1.has ho
    rw [h2] at this
    simp [Store.has, he] at this

theorem via_none {α : Type} (ho : Ok v.store) (hc : CacheOk v.store v.cache)
    (he : v.store.get? n = none) (cached : InternalLayer K V → α) (inner : Store K V → α) :
    v.via n cached inner = inner v.store := by
  unfold via
  rw [cache_none ho hc he]

theorem changes_eq {α : Type} (hc : CacheOk v.store v.cache) {e : Entry K V}
    (he : v.store.get? n = some e) {f : LayerData K V → Option α}
    (hf : ∀ d S, f (d.onTop S) = f d) : v.changes n f = Out.ofOption (f e.data) := by
  unfold changes
  refine via_eq (F := fun d => Out.ofOption (f d)) hc he (fun d S => by rw [hf]) ?_
  unfold onStored
  rw [he]

theorem changes_none {α : Type} (ho : Ok v.store) (hc : CacheOk v.store v.cache)
    (he : v.store.get? n = none) (f : LayerData K V → Option α) : v.changes n f = .err := by
  unfold changes
  rw [via_none ho hc he]
  unfold onStored
  rw [he]

theorem parentName_eq (hc : CacheOk v.store v.cache)
    (hn : ∀ m l, v.cache m = some l → Named v.store l) {e : Entry K V}
    (he : v.store.get? n = some e) : v.parentName n = .ok e.parent := by
  unfold parentName
  cases h : v.cache n with
  | none =>
    show v.store.layerParent n = _
    unfold layerParent
    rw [he]
  | some l =>
    obtain ⟨h1, h2⟩ := hc n l h
    show Out.ok l.parentName = _
    rw [(hn n l h).parentName h1, h2]
    unfold Store.parent?
    rw [he]
    rfl

end View

/-! ### The walks -/

/-- The iterators of a layer. -/
def parts (d : LayerData K V) : Option SubjIter × Option SubjIter :=
  (some d.pos.iter, d.neg.map (·.iter))

/-- A view shows what the store `st` has, as far as the layer is there. -/
structure Shows (st : Store K V) (v : View K V) : Prop where
  ext : Ext v.store st
  cache : CacheOk v.store v.cache
  parent : ∀ n e, v.store.get? n = some e → v.parentName n = .ok e.parent

theorem changeParts_eq {v : Nat → View K V} (hv : ∀ t, Shows st (v t)) {t : Nat} {n : Name}
    {e : Entry K V} (he : st.get? n = some e) (h1 : (v (3 * t)).store.has n = true)
    (h2 : (v (3 * t + 1)).store.has n = true) : changeParts v t n = .ok (parts e.data) := by
  have key : ∀ k, (v k).store.has n = true → ∃ e', (v k).store.get? n = some e' ∧
      e'.data = e.data := by
    intro k hk
    obtain ⟨e', he'⟩ := has_iff.1 hk
    obtain ⟨e2, g1, _, g3⟩ := (hv k).ext n e' he'
    rw [he] at g1
    cases g1
    exact ⟨e', he', g3.symm⟩
  obtain ⟨a, a1, a2⟩ := key _ h1
  obtain ⟨b, b1, b2⟩ := key _ h2
  unfold changeParts
  rw [View.changes_eq (hv _).cache a1 (fun _ _ => rfl),
    View.changes_eq (hv _).cache b1 (fun _ _ => rfl), a2, b2]
  rfl

theorem parent_shows {v : View K V} (hv : Shows st v) {n : Name} {e : Entry K V}
    (he : st.get? n = some e) (h : v.store.has n = true) : v.parentName n = .ok e.parent := by
  obtain ⟨e', he'⟩ := has_iff.1 h
  obtain ⟨e2, g1, g2, _⟩ := hv.ext n e' he'
  rw [he] at g1
  cases g1
  rw [hv.parent n e' he', g2]

theorem mono_views {v : Nat → View K V} (hm : ∀ t, Ext (v t).store (v (t + 1)).store) {a b : Nat}
    (h : a ≤ b) : Ext (v a).store (v b).store := by
  induction h with
  | refl => exact Ext.refl _
  | step _ ih => exact ih.trans (hm _)

theorem view_parent_has {v : Nat → View K V} (hv : ∀ t, Shows st (v t)) (hok : ∀ t, Ok (v t).store)
    {n p : Name} {e : Entry K V} (he : st.get? n = some e) (hp : e.parent = some p) {k : Nat}
    (h : (v k).store.has n = true) : (v k).store.has p = true := by
  obtain ⟨e', he'⟩ := has_iff.1 h
  obtain ⟨e2, g1, g2, _⟩ := (hv k).ext n e' he'
  rw [he] at g1
  cases g1
  obtain ⟨S, hS, _⟩ := (hok k).raw he'
  refine hS.parent_has (p := p) ?_
  unfold Store.parent?
  rw [he']
  exact g2.symm.trans hp

/-- The walk of `layer_changes_upto` collects the layers above the bound. -/
theorem changesUptoLoop_eq (ho : Ok st) {log : History (VTriple K V)}
    (hp : ∀ n, st.parent? n = log.parent n) {v : Nat → View K V} (hv : ∀ t, Shows st (v t))
    (hok : ∀ t, Ok (v t).store) (hm : ∀ t, Ext (v t).store (v (t + 1)).store) {upto : Name} :
    ∀ (f t : Nat) (n : Name) {S : List (LayerData K V)}, Raw st n S →
      (v (3 * t)).store.has n = true → S.length < f →
      (log.Ancestor upto n → ∃ T R, S = T ++ R ∧ Raw st upto R ∧
        changesUptoLoop v upto f t n = .ok (T.map parts)) ∧
      (¬ log.Ancestor upto n → changesUptoLoop v upto f t n = .err)
  | 0, _, _, _, _, _, hf => by omega
  | f + 1, t, n, S, hS, hh, hf => by
    by_cases hn : n = upto
    · subst hn
      refine ⟨fun _ => ⟨[], S, rfl, hS, ?_⟩, fun h => absurd (History.Ancestor.self n) h⟩
      unfold changesUptoLoop
      rw [if_pos rfl]
      rfl
    · obtain ⟨e, he⟩ := hS.get
      have h1 : (v (3 * t + 1)).store.has n = true := has_mono (hm _) hh
      have h2 : (v (3 * t + 2)).store.has n = true := has_mono (hm _) h1
      have hparts := changeParts_eq hv he hh h1
      have hpar := parent_shows (hv (3 * t + 2)) he h2
      have hpe : log.parent n = e.parent := by
        rw [← hp]
        unfold Store.parent?
        rw [he]
        rfl
      have hstep : changesUptoLoop v upto (f + 1) t n = (match e.parent with
          | none => Out.err
          | some p => do
            let r ← changesUptoLoop v upto f (t + 1) p
            return parts e.data :: r) := by
        rw [changesUptoLoop.eq_2, if_neg hn, hparts, Out.ok_bind, hpar, Out.ok_bind]
        cases e.parent <;> rfl
      rw [hstep]
      rcases ho.cases he hS with ⟨e1, rfl⟩ | ⟨p, R, e1, hR, rfl⟩
      · rw [e1]
        refine ⟨fun ha => ?_, fun _ => rfl⟩
        cases ha with
        | self => exact absurd rfl hn
        | up g _ => rw [hpe, e1] at g; cases g
      · have hph := view_parent_has hv hok he e1 h2
        have hph' : (v (3 * (t + 1))).store.has p = true := has_mono (hm _) hph
        obtain ⟨i1, i2⟩ := changesUptoLoop_eq ho hp hv hok hm f (t + 1) p hR hph'
          (by simp only [List.length_cons] at hf; omega)
        rw [e1]
        constructor
        · intro ha
          cases ha with
          | self => exact absurd rfl hn
          | up g k =>
            rw [hpe, e1] at g
            cases g
            obtain ⟨T, R', rfl, k2, k3⟩ := i1 k
            refine ⟨e.data :: T, R', rfl, k2, ?_⟩
            show (do let r ← changesUptoLoop v upto f (t + 1) p; return parts e.data :: r) = _
            rw [k3]
            rfl
        · intro ha
          have := i2 (fun k => ha (.up (hpe.trans e1) k))
          show (do let r ← changesUptoLoop v upto f (t + 1) p; return parts e.data :: r) = _
          rw [this]
          rfl

/-- The walk of `layer_changes` collects the topmost layer as often as there are layers. -/
theorem changesLoop_eq (ho : Ok st) {v : Nat → View K V} (hv : ∀ t, Shows st (v t))
    (hok : ∀ t, Ok (v t).store) (hm : ∀ t, Ext (v t).store (v (t + 1)).store) {n : Name}
    {d : Entry K V} (hd : st.get? n = some d) :
    ∀ (f t : Nat) (m : Name) {S : List (LayerData K V)}, Raw st m S →
      (v (3 * t)).store.has n = true → (v (3 * t)).store.has m = true → S.length ≤ f →
      changesLoop v n f t m = .ok (List.replicate S.length (parts d.data))
  | 0, _, m, S, hS, _, _, hf => by have := hS.length_pos; omega
  | f + 1, t, m, S, hS, hn, hh, hf => by
    obtain ⟨e, he⟩ := hS.get
    have n1 : (v (3 * t + 1)).store.has n = true := has_mono (hm _) hn
    have n2 : (v (3 * t + 2)).store.has n = true := has_mono (hm _) n1
    have n3 : (v (3 * (t + 1))).store.has n = true := has_mono (hm _) n2
    have h1 : (v (3 * t + 1)).store.has m = true := has_mono (hm _) hh
    have h2 : (v (3 * t + 2)).store.has m = true := has_mono (hm _) h1
    have hparts := changeParts_eq hv hd hn n1
    have hpar := parent_shows (hv (3 * t + 2)) he h2
    have hstep : changesLoop v n (f + 1) t m = (match e.parent with
        | none => Out.ok [parts d.data]
        | some p => do
          let r ← changesLoop v n f (t + 1) p
          return parts d.data :: r) := by
      rw [changesLoop.eq_2, hparts, Out.ok_bind, hpar, Out.ok_bind]
      rfl
    rw [hstep]
    rcases ho.cases he hS with ⟨e1, rfl⟩ | ⟨p, R, e1, hR, rfl⟩
    · rw [e1]
      rfl
    · have hph' : (v (3 * (t + 1))).store.has p = true :=
        has_mono (hm _) (view_parent_has hv hok he e1 h2)
      have ih := changesLoop_eq ho hv hok hm hd f (t + 1) p hR n3 hph'
        (by simp only [List.length_cons] at hf; omega)
      rw [e1]
      show (do let r ← changesLoop v n f (t + 1) p; return parts d.data :: r) = _
      rw [ih]
      rfl

/-! ### The changes -/

theorem partsFuel_lt {T : List (LayerData K V)} {Ps Ns : List (List Triple)}
    (h : StackRep T Ps Ns) : total Ps + total Ns < partsFuel (T.map parts) := by
  induction h with
  | nil => simp [total, partsFuel]
  | @cons d S P N Ps Ns h1 h2 h3 ih =>
    have hP := h1.length_le
    simp only [total, List.map_cons, List.sum_cons] at ih ⊢
    cases hd : d.neg with
    | none =>
      rw [hd] at h2
      simp only [NegStored] at h2
      subst h2
      simp only [parts, hd, partsFuel, TripleIndex.iter, SubjIter.new, Option.map_some,
        Option.map_none, Option.getD_some, Option.getD_none, List.length_nil]
      omega
    | some x =>
      rw [hd] at h2
      have hN := Stored.length_le h2
      simp only [parts, hd, partsFuel, TripleIndex.iter, SubjIter.new, Option.map_some,
        Option.getD_some]
      omega

theorem total_reverse (Ps : List (List Triple)) : total Ps.reverse = total Ps := by
  unfold total
  rw [List.map_reverse]
  exact (List.reverse_perm _).sum_nat

/-- The changes of some layers, whatever the order of the iterators. -/
theorem fromParts_changes {T : List (LayerData K V)} {Ps Ns : List (List Triple)}
    (h : StackRep T Ps Ns) :
    ∃ cs, (fromParts (T.map parts)).changes subjOps (partsFuel (T.map parts)) = some cs ∧
      (∀ u, cs.count (.addition, u) = Ps.flatten.count u - Ns.flatten.count u ∧
        cs.count (.removal, u) = Ns.flatten.count u - Ps.flatten.count u) ∧
      cs.Pairwise (fun a b => a.2 ≤ b.2) := by
  have hp : List.Forall₂ (Behaves subjOps) (fromParts (T.map parts)).positives Ps.reverse := by
    have := List.forall₂_reverse_iff.2 h.subj_positives
    simpa only [fromParts, List.map_map, Function.comp_def, parts] using this
  have hn : List.Forall₂ (Behaves subjOps) (fromParts (T.map parts)).negatives Ns.reverse := by
    have := List.forall₂_reverse_iff.2 h.subj_negatives
    simpa only [fromParts, List.map_map, Function.comp_def, parts] using this
  obtain ⟨cs, h1, h2⟩ := Merged.changes_spec (I := subjOps) (fuel := partsFuel (T.map parts)) hp hn
    (by rw [total_reverse, total_reverse]; exact partsFuel_lt h)
  obtain ⟨g1, g2⟩ := h2.spec (fun P hP => h.sortedP P (List.mem_reverse.1 hP))
    (fun P hP => h.sortedN P (List.mem_reverse.1 hP))
  have hc : ∀ (L : List (List Triple)) u, L.reverse.flatten.count u = L.flatten.count u := by
    intro L u
    exact ((List.reverse_perm L).flatten).count_eq u
  refine ⟨cs, h1, fun u => ?_, g2⟩
  rw [(g1 u).1, (g1 u).2, hc, hc]
  exact ⟨rfl, rfl⟩

end Store

end Verif
