import Verif.Lemmas.StoreNamed

/-!
A layer without rollup that is not in the cache is loaded from its own files.
-/

namespace Verif

variable {K V : Type}

namespace Store

theorem findAncestor_keeps {v : Nat → View K V} : ∀ (f t : Nat) (q : Pending) (rest : List Pending)
    (res : Option (InternalLayer K V) × List Pending),
    findAncestor v f t (q :: rest) = .ok res → ∃ pre, res.2 = pre ++ rest ∧
      (res.1 = none → pre ≠ [])
  | 0, _, _, _, res, h => by simp [findAncestor] at h
  | f + 1, t, q, rest, res, h => by
    unfold findAncestor at h
    cases hca : (v t).cache q.current with
    | some layer =>
      simp only [hca] at h
      obtain ⟨l, _, h2⟩ := Out.bind_eq_ok.1 h
      simp only [Out.pure_eq, Out.ok.injEq] at h2
      subst h2
      exact ⟨[], rfl, fun h => by cases h⟩
    | none =>
      simp only [hca] at h
      cases hr : (v t).store.rollup? q.current with
      | some r =>
        simp only [hr] at h
        by_cases hrc : r = q.current
        · simp [hrc] at h
        · simp only [hrc, if_false] at h
          exact findAncestor_keeps f (t + 1) _ rest res h
      | none =>
        simp only [hr] at h
        cases hpa : (v t).store.parent? q.current with
        | some p =>
          simp only [hpa] at h
          obtain ⟨pre, h1, _⟩ := findAncestor_keeps f (t + 1) _ (q :: rest) res h
          exact ⟨pre ++ [q], by rw [h1]; simp, fun _ => by simp⟩
        | none =>
          simp only [hpa, Out.ok.injEq] at h
          subst h
          exact ⟨[q], rfl, fun _ => by simp⟩

theorem loadChildren_last {st : Store K V} {n : Name} : ∀ (qs : List Pending)
    {anc l : InternalLayer K V} {cs cs' : List (InternalLayer K V)},
    loadChildren st anc (qs ++ [(n, none)]) cs = .ok (l, cs') → l.name = n
  | [], anc, l, cs, cs', h => by
    simp only [List.nil_append, loadChildren, loadChild] at h
    obtain ⟨r, h1, h2⟩ := Out.bind_eq_ok.1 h
    obtain ⟨d, _, h3⟩ := Out.bind_eq_ok.1 h1
    simp only [Out.pure_eq, Out.ok.injEq] at h2 h3
    subst h3
    simp only [Prod.mk.injEq] at h2
    obtain ⟨rfl, _⟩ := h2
    rfl
  | q :: qs, anc, l, cs, cs', h => by
    simp only [List.cons_append, loadChildren] at h
    obtain ⟨r, _, h2⟩ := Out.bind_eq_ok.1 h
    exact loadChildren_last qs h2

/-- A layer that is neither rolled up nor cached is loaded under its name, and without parent
if it has none. -/
theorem getLayer_plain {st : Store K V} {c : Cache K V} {n : Name} (hc : c n = none)
    (hr : st.rollup? n = none) {l : InternalLayer K V} {cs : List (InternalLayer K V)}
    (h : st.getLayer c n = .ok (some l, cs)) :
    l.name = n ∧ (st.parent? n = none → l.parentName = none) := by
  unfold getLayer getLayerView at h
  simp only [hc] at h
  split at h
  case isFalse => simp at h
  case isTrue =>
    obtain ⟨r, h1, h2⟩ := Out.bind_eq_ok.1 h
    obtain ⟨q, h3, h4⟩ := Out.bind_eq_ok.1 h2
    simp only [Out.pure_eq, Out.ok.injEq, Prod.mk.injEq, Option.some.injEq] at h4
    obtain ⟨rfl, _⟩ := h4
    obtain ⟨f, hf⟩ : ∃ f, st.loadFuel = f + 1 := ⟨st.loadFuel - 1, by
      unfold loadFuel
      have : 0 < (st.length + 1) * (st.length + 1) := Nat.mul_pos (by omega) (by omega)
      omega⟩
    rw [hf] at h1
    unfold findAncestor at h1
    simp only [Pending.current, hc, hr] at h1
    cases hp : st.parent? n with
    | none =>
      simp only [hp, Out.ok.injEq] at h1
      subst h1
      simp only [loadAll, loadBase, loadChildren] at h3
      obtain ⟨x, h5, h6⟩ := Out.bind_eq_ok.1 h3
      obtain ⟨d, _, h7⟩ := Out.bind_eq_ok.1 h5
      simp only [Out.pure_eq, Out.ok.injEq] at h6 h7
      subst h7
      subst h6
      exact ⟨rfl, fun _ => rfl⟩
    | some p =>
      simp only [hp] at h1
      obtain ⟨pre, k1, k2⟩ := findAncestor_keeps _ _ _ _ _ h1
      refine ⟨?_, fun h => by cases h⟩
      unfold loadAll at h3
      rw [k1] at h3
      cases hfnd : r.1 with
      | some anc =>
        simp only [hfnd] at h3
        exact loadChildren_last pre h3
      | none =>
        simp only [hfnd] at h3
        cases pre with
        | nil => exact absurd rfl (k2 hfnd)
        | cons a pre =>
          simp only [List.cons_append] at h3
          obtain ⟨x, _, h6⟩ := Out.bind_eq_ok.1 h3
          exact loadChildren_last pre h6

end Store

end Verif
