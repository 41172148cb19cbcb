import Verif.Lemmas.LabelAtomic
import Verif.Model.Named

/-!
What the operations of named graphs do in a history of label calls.
-/

namespace Verif

open Spec

set_option linter.unusedSectionVars false

variable {L N : Type} [DecidableEq L] {same : LabelData N → LabelData N → Bool}
  {h : LabelHistory L N} {G : List (LabelEvent L N)}

/-- The event of a call that was answered. -/
theorem Spec.LinearizedBy.event (hG : LinearizedBy same h G) {i t0 t1 : Nat} {op : LabelOp L N}
    {r : LabelRes N} (hi : h i = some ⟨op, t0, some (r, t1)⟩) (hr : r ≠ .unreadable) :
    ∃ A e B, G = A ++ e :: B ∧ e.id = i ∧ e.op = op ∧ e.res = r ∧ t0 ≤ e.time ∧ e.time ≤ t1 ∧
      r = (callOn same (labelsAfter same A) op).1 ∧
      labelsAfter same (A ++ [e]) = (callOn same (labelsAfter same A) op).2 := by
  obtain ⟨e, he, hid⟩ := hG.complete i _ r t1 hi rfl hr
  obtain ⟨c, c1, c2, c3, c4⟩ := hG.sound e he
  rw [hid, hi] at c1
  cases c1
  obtain ⟨c5, c6⟩ := c4 r t1 rfl
  obtain ⟨A, B, hAB⟩ := List.append_of_mem he
  have ha := hG.answered
  rw [hAB, answered_append] at ha
  refine ⟨A, e, B, hAB, hid, c2.symm, c5.symm, c3, c6, ?_, ?_⟩
  · rw [c5, ha.2.1]
    show (callOn same (labelsAfter same A) e.op).1 = _
    rw [← c2]
  · rw [Spec.labelsAfter, stored_append]
    show (callOn same (labelsAfter same A) e.op).2 = _
    rw [← c2]

/-- The position of an event is determined by its call. -/
theorem split_unique (ho : G.Pairwise (fun a b => a.id ≠ b.id)) {A A' B B' : List (LabelEvent L N)}
    {e e' : LabelEvent L N} (h1 : G = A ++ e :: B) (h2 : G = A' ++ e' :: B') (hid : e.id = e'.id) :
    A = A' ∧ e = e' ∧ B = B' := by
  rw [h1] at ho h2
  rw [List.pairwise_append] at ho
  rcases List.append_eq_append_iff.1 h2 with ⟨C, c1, c2⟩ | ⟨C, c1, c2⟩
  · cases C with
    | nil =>
      simp only [List.nil_append, List.cons.injEq] at c2
      exact ⟨by simpa using c1.symm, c2.1, c2.2⟩
    | cons y C =>
      simp only [List.cons_append, List.cons.injEq] at c2
      have h3 := List.pairwise_cons.1 ho.2.1
      refine absurd hid (h3.1 e' ?_)
      rw [c2.2]
      simp
  · cases C with
    | nil =>
      simp only [List.nil_append, List.cons.injEq] at c2
      exact ⟨by simpa using c1, c2.1.symm, c2.2.symm⟩
    | cons y C =>
      simp only [List.cons_append, List.cons.injEq] at c2
      refine absurd hid.symm (ho.2.2 e' ?_ e (by simp))
      rw [c1, c2.1]
      simp

/-- A call that had no effect. -/
def Quiet (h : LabelHistory L N) (i : Nat) : Prop :=
  ∃ op t0 r t1, h i = some ⟨op, t0, some (r, t1)⟩ ∧
    ((∃ n, op = .get n) ∨ r = .unreadable ∨
      ∃ n old layer, op = .set n old layer ∧ ∀ l, r ≠ .set (some l))

theorem Quiet.unchanged (hG : LinearizedBy same h G) {i : Nat} (hq : Quiet h i)
    {A B : List (LabelEvent L N)} {e : LabelEvent L N} (hs : G = A ++ e :: B) (hid : e.id = i) :
    labelsAfter same (A ++ [e]) = labelsAfter same A := by
  obtain ⟨op, t0, r, t1, hi, hc⟩ := hq
  have he : e ∈ G := by rw [hs]; simp
  have hne : r ≠ .unreadable := by
    intro hr
    obtain ⟨c, c1, c2, c3, c4⟩ := hG.sound e he
    rw [hid, hi] at c1
    cases c1
    have ha := hG.answered
    rw [hs, answered_append] at ha
    have h1 := (c4 r t1 rfl).1
    rw [ha.2.1, hr] at h1
    cases ho : e.op with
    | create n => rw [ho] at h1; simp only [callOn] at h1; split at h1 <;> cases h1
    | get n => rw [ho] at h1; cases h1
    | set n old layer =>
      rw [ho] at h1; simp only [callOn] at h1
      split at h1
      · cases h1
      · split at h1 <;> cases h1
    | delete n => rw [ho] at h1; cases h1
  obtain ⟨A', e', B', h1, h2, h3, h4, _, _, h5, h6⟩ := hG.event hi hne
  obtain ⟨rfl, rfl, rfl⟩ := split_unique hG.once hs h1 (hid.trans h2.symm)
  rw [h6]
  rcases hc with ⟨n, rfl⟩ | hr | ⟨n, old, layer, rfl, hr⟩
  · rfl
  · exact absurd hr hne
  · simp only [callOn] at h5 ⊢
    split
    · rfl
    · rename_i cur hcur
      rw [hcur] at h5
      split
      · rename_i hs'
        simp only [hs', if_true] at h5
        exact absurd h5 (hr _)
      · rfl

theorem noEffect_of_quiet (hG : LinearizedBy same h G) {ids : List Nat}
    (hq : ∀ i ∈ ids, Quiet h i) : NoEffect same G ids :=
  fun _ e _ hs hid => (hq e.id hid).unchanged hG hs rfl

/-- The comparison of labels finds out any change of the label since it was read. -/
def Exact (same : LabelData N → LabelData N → Bool) (G : List (LabelEvent L N)) (n : L) : Prop :=
  (∀ a b, same a b = true → a = b) ∨
    ((∀ a b, same a b = true → a.version = b.version) ∧ ∀ e ∈ G, e.op ≠ .delete n)

/-- A successful update. -/
theorem Spec.LinearizedBy.updated (hG : LinearizedBy same h G) {i t0 t1 : Nat} {n : L}
    {old new : LabelData N} {layer : Option N}
    (hi : h i = some ⟨.set n old layer, t0, some (.set (some new), t1)⟩) :
    ∃ A e B cur, G = A ++ e :: B ∧ e.id = i ∧ t0 ≤ e.time ∧ e.time ≤ t1 ∧
      labelsAfter same A n = some cur ∧ same cur old = true ∧ new = ⟨layer, old.version + 1⟩ ∧
      labelsAfter same (A ++ [e]) = (labelsAfter same A).put n (some ⟨layer, old.version + 1⟩) := by
  obtain ⟨A, e, B, h1, h2, _, _, h3, h4, h5, h6⟩ := hG.event hi (by simp)
  simp only [callOn] at h5 h6
  cases hc : labelsAfter same A n with
  | none =>
    rw [hc] at h5
    cases h5
  | some cur =>
    rw [hc] at h5 h6
    by_cases hs : same cur old = true
    · simp only [hs, if_true] at h5 h6
      refine ⟨A, e, B, cur, h1, h2, h3, h4, hc, hs, ?_, h6⟩
      cases h5
      rfl
    · simp only [hs] at h5
      cases h5

/-- A read. -/
theorem Spec.LinearizedBy.got (hG : LinearizedBy same h G) {i t0 t1 : Nat} {n : L}
    {l : Option (LabelData N)} (hi : h i = some ⟨.get n, t0, some (.got l, t1)⟩) :
    ∃ A e B, G = A ++ e :: B ∧ e.id = i ∧ t0 ≤ e.time ∧ e.time ≤ t1 ∧
      labelsAfter same A n = l ∧ labelsAfter same (A ++ [e]) = labelsAfter same A := by
  obtain ⟨A, e, B, h1, h2, _, _, h3, h4, h5, h6⟩ := hG.event hi (by simp)
  refine ⟨A, e, B, h1, h2, h3, h4, ?_, h6⟩
  simp only [callOn] at h5
  cases h5
  rfl

/-- Events in the order of their times. -/
theorem between (hso : G.Pairwise (fun a b => a.time ≤ b.time)) {A A' B B' : List (LabelEvent L N)}
    {e e' : LabelEvent L N} (h1 : G = A ++ e :: B) (h2 : G = A' ++ e' :: B')
    (ht : e.time < e'.time) : ∃ C, A' = A ++ e :: C ∧ B = C ++ e' :: B' := by
  rw [h1] at hso h2
  rw [List.pairwise_append] at hso
  rcases List.append_eq_append_iff.1 h2 with ⟨C, c1, c2⟩ | ⟨C, c1, c2⟩
  · cases C with
    | nil =>
      simp only [List.nil_append, List.cons.injEq] at c2
      rw [c2.1] at ht
      omega
    | cons y C =>
      simp only [List.cons_append, List.cons.injEq] at c2
      exact ⟨C, by rw [c1, c2.1], c2.2⟩
  · have : e'.time ≤ e.time := by
      cases C with
      | nil =>
        simp only [List.nil_append, List.cons.injEq] at c2
        rw [c2.1]
        exact Nat.le_refl _
      | cons y C =>
        simp only [List.cons_append, List.cons.injEq] at c2
        exact hso.2.2 e' (by rw [c1, c2.1]; simp) e (by simp)
    omega

/-- The label that an update replaces is the one that was read. -/
theorem Exact.same_label (hG : LinearizedBy same h G) {n : L} (hx : Exact same G n)
    {i j t0 t1 t2 t3 : Nat} {l new : LabelData N} {layer : Option N}
    (hi : h i = some ⟨.get n, t0, some (.got (some l), t1)⟩)
    (hj : h j = some ⟨.set n l layer, t2, some (.set (some new), t3)⟩) (ht : t1 < t2) :
    ∃ A e B, G = A ++ e :: B ∧ e.id = j ∧ t2 ≤ e.time ∧ e.time ≤ t3 ∧ labelsAfter same A n = some l ∧
      labelsAfter same (A ++ [e]) = (labelsAfter same A).put n (some ⟨layer, l.version + 1⟩) := by
  obtain ⟨A, e, B, cur, h1, h2, h3, h4, h5, h6, _, h7⟩ := hG.updated hj
  refine ⟨A, e, B, h1, h2, h3, h4, ?_, h7⟩
  rcases hx with hx | ⟨hv, hd⟩
  · rw [h5, hx _ _ h6]
  · obtain ⟨A0, e0, B0, g1, g2, g3, g4, g5, g6⟩ := hG.got hi
    obtain ⟨C, c1, c2⟩ := between hG.sorted g1 h1 (by omega)
    obtain ⟨l', k1, _, k2⟩ := version_grows (same := same) hv (m := labelsAfter same (A0 ++ [e0]))
      (by rw [g6]; exact g5) C (fun x hx => hd x (by rw [g1, c2]; simp [hx]))
    rw [Spec.labelsAfter, ← stored_append] at k1
    have e1 : A = A0 ++ [e0] ++ C := by rw [c1]; simp
    rw [← e1] at k1
    have : cur = l' := by
      have := h5.symm.trans k1
      cases this
      rfl
    subst this
    rw [h5, (k2 (hv _ _ h6)).1]

/-- If an update fails, the label changed since it was read. -/
theorem changed_between (hG : LinearizedBy same h G) {n : L}
    {i j t0 t1 t2 t3 : Nat} {l : LabelData N} {layer : Option N}
    (hi : h i = some ⟨.get n, t0, some (.got (some l), t1)⟩)
    (hj : h j = some ⟨.set n l layer, t2, some (.set none, t3)⟩) (ht : t1 < t2) :
    ∃ A e0 B e1 C, G = A ++ e0 :: B ++ e1 :: C ∧ e0.id = i ∧ e1.id = j ∧
      t0 ≤ e0.time ∧ e1.time ≤ t3 ∧
      labelsAfter same (A ++ [e0]) n = some l ∧
      ∃ cur, labelsAfter same (A ++ e0 :: B) n = some cur ∧ same cur l = false := by
  obtain ⟨A, e, B, h1, h2, _, _, h3, h4, h5, _⟩ := hG.event hj (by simp)
  obtain ⟨A0, e0, B0, g1, g2, g3, g4, g5, g6⟩ := hG.got hi
  obtain ⟨C, c1, c2⟩ := between hG.sorted g1 h1 (by omega)
  refine ⟨A0, e0, C, e, B, by rw [h1, c1], g2, h2, g3, h4, by rw [g6]; exact g5, ?_⟩
  simp only [callOn] at h5
  rw [c1] at h5
  cases hc : labelsAfter same (A0 ++ e0 :: C) n with
  | none =>
    rw [hc] at h5
    cases h5
  | some cur =>
    rw [hc] at h5
    refine ⟨cur, rfl, ?_⟩
    cases hs : same cur l with
    | false => rfl
    | true =>
      simp only [hs, if_true] at h5
      cases h5

/-- A state that changes is changed by an event. -/
theorem exists_change {m : Labels L N} {n : L} {l : Option (LabelData N)} (hm : m n = l)
    (B : List (LabelEvent L N)) (hB : stored same m B n ≠ l) :
    ∃ B1 x B2, B = B1 ++ x :: B2 ∧ stored same m B1 n = l ∧ stored same m (B1 ++ [x]) n ≠ l := by
  induction B generalizing m with
  | nil => exact absurd hm hB
  | cons e B ih =>
    by_cases he : (callOn same m e.op).2 n = l
    · obtain ⟨B1, x, B2, b1, b2, b3⟩ := ih he hB
      exact ⟨e :: B1, x, B2, by rw [b1]; rfl, b2, b3⟩
    · exact ⟨[], e, B, rfl, hm, he⟩

variable {anc : N → N → Out Bool → Prop}

/-- One update after a read. -/
theorem trySet_performs {n : L} {layer : N} {t1 : Nat} {l : LabelData N} {t u : Nat} {ids : List Nat} {a : Out Bool} (htt : t1 ≤ t)
    (hp : Performs h anc (NamedGraph.trySet n l layer) t ids a u) :
    (a = .ok true ∧ ∃ j t2 t3 new, ids = [j] ∧ t1 < t2 ∧ t3 ≤ u ∧
      h j = some ⟨.set n l (some layer), t2, some (.set (some new), t3)⟩) ∨
    (a = .ok false ∧ ∃ j t2 t3, ids = [j] ∧ t1 < t2 ∧ t3 ≤ u ∧
      h j = some ⟨.set n l (some layer), t2, some (.set none, t3)⟩) ∨
    (a = .err ∧ ∀ j ∈ ids, Quiet h j) := by
  cases hp with
  | @call op k t t2 t3 u j r ids a hj hlt hk =>
    have hq : (∀ l', r ≠ .set (some l')) → Quiet h j := fun hr =>
      ⟨_, _, _, _, hj, Or.inr (Or.inr ⟨n, l, some layer, rfl, hr⟩)⟩
    cases r with
    | set o =>
      cases o with
      | some new =>
        cases hk with
        | ret => exact Or.inl ⟨rfl, j, t2, _, new, rfl, by omega, Nat.le_refl _, hj⟩
      | none =>
        cases hk with
        | ret => exact Or.inr (Or.inl ⟨rfl, j, t2, _, rfl, by omega, Nat.le_refl _, hj⟩)
    | created | «exists» | got _ | missing | deleted _ | unreadable =>
      cases hk with
      | ret =>
        refine Or.inr (Or.inr ⟨rfl, fun x hx => ?_⟩)
        rw [List.mem_singleton] at hx
        subst hx
        exact hq (by simp)

theorem quiet_get {n : L} {i t0 t1 : Nat} {r : LabelRes N}
    (hi : h i = some ⟨.get n, t0, some (r, t1)⟩) : Quiet h i :=
  ⟨_, _, _, _, hi, Or.inl ⟨n, rfl⟩⟩

theorem quiet_set {n : L} {i t0 t1 : Nat} {l : LabelData N} {layer : Option N}
    (hi : h i = some ⟨.set n l layer, t0, some (.set none, t1)⟩) : Quiet h i :=
  ⟨_, _, _, _, hi, Or.inr (Or.inr ⟨n, l, layer, rfl, by simp⟩)⟩

/-- An update after a read, and other calls without effect. -/
theorem setsHead_of (hG : LinearizedBy same h G) {n : L} (hx : Exact same G n) {layer : N}
    {i j t0 t1 t2 t3 : Nat} {l new : LabelData N}
    (hi : h i = some ⟨.get n, t0, some (.got (some l), t1)⟩)
    (hj : h j = some ⟨.set n l (some layer), t2, some (.set (some new), t3)⟩) (ht : t1 < t2)
    {ids : List Nat} {t u : Nat} (h1 : j ∈ ids) (h2 : ∀ k ∈ ids, k ≠ j → Quiet h k)
    (h3 : t ≤ t2) (h4 : t3 ≤ u) : SetsHead same G ids t u n layer l := by
  obtain ⟨A, e, B, g1, g2, g3, g4, g5, g6⟩ := hx.same_label hG hi hj ht
  refine ⟨A, e, B, g1, by rw [g2]; exact h1, by omega, by omega, g5, g6, ?_⟩
  intro A' e' B' hs hid hne
  exact (h2 e'.id hid (by rw [← g2]; exact hne)).unchanged hG hs rfl

/-- `set_head`. -/
theorem setHead_performs (hG : LinearizedBy same h G) {n : L} {layer : N} {t u : Nat}
    {ids : List Nat} {a : Out Bool} (hp : Performs h anc (NamedGraph.setHead n layer) t ids a u) :
    (a = .ok true → Exact same G n → ∃ l, SetsHead same G ids t u n layer l ∧
      ∀ r, l.layer = some r → anc layer r (.ok true)) ∧
    (a ≠ .ok true → ∀ i ∈ ids, Quiet h i) := by
  cases hp with
  | @call op k t t0 t1 u i r ids a hi hlt hk =>
    have hqi : Quiet h i := quiet_get hi
    have herr : ∀ (ids' : List Nat) (a' : Out Bool) (u' : Nat),
        Performs h anc (.ret .err : Prog L N Bool) t1 ids' a' u' →
        a' = .err ∧ ids' = [] := by
      intro ids' a' u' hp
      cases hp
      exact ⟨rfl, rfl⟩
    have hdone : ∀ {l : LabelData N} {t' : Nat} {ids' : List Nat} {a' : Out Bool} {u' : Nat},
        r = .got (some l) → t1 ≤ t' → (∀ x, l.layer = some x → anc layer x (.ok true)) →
        Performs h anc (NamedGraph.trySet n l layer) t' ids' a' u' →
        (a' = .ok true → Exact same G n → ∃ l, SetsHead same G (i :: ids') t u' n layer l ∧
          ∀ r, l.layer = some r → anc layer r (.ok true)) ∧
        (a' ≠ .ok true → ∀ k ∈ i :: ids', Quiet h k) := by
      intro l t' ids' a' u' hr htt hanc hp'
      subst hr
      rcases trySet_performs htt hp' with ⟨rfl, j, t2, t3, new, rfl, b1, b2, b3⟩ |
        ⟨rfl, j, t2, t3, rfl, b1, b2, b3⟩ | ⟨rfl, b1⟩
      · refine ⟨fun _ hx => ⟨l, setsHead_of hG hx hi b3 b1 (by simp) ?_ ?_ b2, hanc⟩,
          fun hc => absurd rfl hc⟩
        · intro k hk hne
          rcases List.mem_cons.1 hk with rfl | hk
          · exact hqi
          · exact absurd (List.mem_singleton.1 hk) hne
        · obtain ⟨_, _, _, _, _, f3, f4, _⟩ := hG.got hi
          omega
      · refine ⟨(fun hc => by cases hc), fun _ k hk => ?_⟩
        rcases List.mem_cons.1 hk with rfl | hk
        · exact hqi
        · rw [List.mem_singleton] at hk
          subst hk
          exact quiet_set b3
      · refine ⟨(fun hc => by cases hc), fun _ k hk => ?_⟩
        rcases List.mem_cons.1 hk with rfl | hk
        · exact hqi
        · exact b1 k hk
    have hquiet : ∀ a', a' ≠ Out.ok true →
        (a' = .ok true → Exact same G n → ∃ l, SetsHead same G [i] t u n layer l ∧
          ∀ r, l.layer = some r → anc layer r (.ok true)) ∧
        (a' ≠ .ok true → ∀ k ∈ [i], Quiet h k) := by
      intro a' ha'
      refine ⟨fun hc => absurd hc ha', fun _ k hk => ?_⟩
      rw [List.mem_singleton] at hk
      subst hk
      exact hqi
    cases r with
    | got o =>
      cases o with
      | none =>
        obtain ⟨rfl, rfl⟩ := herr _ _ _ hk
        exact hquiet _ (by simp)
      | some l =>
        dsimp only at hk
        cases hl : l.layer with
        | none =>
          rw [hl] at hk
          exact hdone rfl (Nat.le_refl _) (fun x hx => by rw [hl] at hx; cases hx) hk
        | some x =>
          rw [hl] at hk
          cases hk with
          | @ask _ _ _ _ t' _ b _ _ ha htt hk =>
            cases b with
            | ok v =>
              cases v with
              | true =>
                refine hdone rfl htt (fun y hy => ?_) hk
                rw [hl] at hy
                cases hy
                exact ha
              | false =>
                cases hk
                exact hquiet _ (by simp)
            | err =>
              cases hk
              exact hquiet _ (by simp)
            | panic =>
              cases hk
              exact hquiet _ (by simp)
    | created | «exists» | set _ | missing | deleted _ | unreadable =>
      obtain ⟨rfl, rfl⟩ := herr _ _ _ hk
      exact hquiet _ (by simp)

/-- `force_set_head_version`. -/
theorem forceSetHeadVersion_performs
    {n : L} {layer : N} {version t u : Nat} {ids : List Nat}
    {a : Out Bool} (hp : Performs h anc (NamedGraph.forceSetHeadVersion n layer version) t ids a u) :
    (a = .ok true ∧ ∃ i t0 t1 j t2 t3 l new, ids = [i, j] ∧ t < t0 ∧ t1 < t2 ∧ t3 ≤ u ∧
      l.version = version ∧ h i = some ⟨.get n, t0, some (.got (some l), t1)⟩ ∧
      h j = some ⟨.set n l (some layer), t2, some (.set (some new), t3)⟩) ∨
    (a = .ok false ∧ (∀ i ∈ ids, Quiet h i) ∧
      ((∃ i t0 t1 l, t < t0 ∧ t1 ≤ u ∧ l.version ≠ version ∧
        h i = some ⟨.get n, t0, some (.got (some l), t1)⟩) ∨
      ∃ i t0 t1 j t2 t3 l, t < t0 ∧ t1 < t2 ∧ t3 ≤ u ∧ l.version = version ∧
        h i = some ⟨.get n, t0, some (.got (some l), t1)⟩ ∧
        h j = some ⟨.set n l (some layer), t2, some (.set none, t3)⟩)) ∨
    (a = .err ∧ ∀ i ∈ ids, Quiet h i) := by
  cases hp with
  | @call op k t t0 t1 u i r ids a hi hlt hk =>
    have hqi : Quiet h i := quiet_get hi
    have hq1 : ∀ k ∈ [i], Quiet h k := by
      intro k hk
      rw [List.mem_singleton] at hk
      subst hk
      exact hqi
    cases r with
    | got o =>
      cases o with
      | none =>
        cases hk
        exact Or.inr (Or.inr ⟨rfl, hq1⟩)
      | some l =>
        dsimp only at hk
        by_cases hv : l.version = version
        · rw [if_neg (by simpa using hv)] at hk
          rcases trySet_performs (Nat.le_refl _) hk with ⟨rfl, j, t2, t3, new, rfl, b1, b2, b3⟩ |
            ⟨rfl, j, t2, t3, rfl, b1, b2, b3⟩ | ⟨rfl, b1⟩
          · exact Or.inl ⟨rfl, i, t0, t1, j, t2, t3, l, new, rfl, hlt, b1, b2, hv, hi, b3⟩
          · refine Or.inr (Or.inl ⟨rfl, ?_, Or.inr ⟨i, t0, t1, j, t2, t3, l, hlt, b1, b2, hv, hi, b3⟩⟩)
            intro k hk
            rcases List.mem_cons.1 hk with rfl | hk
            · exact hqi
            · rw [List.mem_singleton] at hk
              subst hk
              exact quiet_set b3
          · refine Or.inr (Or.inr ⟨rfl, ?_⟩)
            intro k hk
            rcases List.mem_cons.1 hk with rfl | hk
            · exact hqi
            · exact b1 k hk
        · rw [if_pos hv] at hk
          cases hk
          exact Or.inr (Or.inl ⟨rfl, hq1, Or.inl ⟨i, t0, _, l, hlt, Nat.le_refl _, hv, hi⟩⟩)
    | created | «exists» | set _ | missing | deleted _ | unreadable =>
      cases hk
      exact Or.inr (Or.inr ⟨rfl, hq1⟩)

/-- `force_set_head`. -/
theorem forceSetHead_performs (hG : LinearizedBy same h G) {n : L} {layer : N} {fuel t u : Nat}
    {ids : List Nat} {a : Out Unit}
    (hp : Performs h anc (NamedGraph.forceSetHead fuel n layer) t ids a u) :
    (a = .ok () → ∃ i t0 t1 j t2 t3 l new, i ∈ ids ∧ j ∈ ids ∧ t < t0 ∧ t1 < t2 ∧ t3 ≤ u ∧
      t < t2 ∧ (∀ k ∈ ids, k ≠ j → Quiet h k) ∧
      h i = some ⟨.get n, t0, some (.got (some l), t1)⟩ ∧
      h j = some ⟨.set n l (some layer), t2, some (.set (some new), t3)⟩) ∧
    (a ≠ .ok () → ∀ i ∈ ids, Quiet h i) ∧
    ∀ pre i j post op t2 t3, ids = pre ++ i :: j :: post →
      h j = some ⟨op, t2, some (.set none, t3)⟩ →
      ∃ t0 t1 l, h i = some ⟨.get n, t0, some (.got (some l), t1)⟩ ∧ op = .set n l (some layer) ∧
        t1 < t2 := by
  induction fuel generalizing t ids with
  | zero =>
    cases hp
    refine ⟨(fun hc => by cases hc), (fun _ i hi => by cases hi), ?_⟩
    intro pre i j post op t2 t3 he
    have := congrArg List.length he
    simp at this
  | succ fuel ih =>
    cases hp with
    | @call op k t t0 t1 u i r ids a hi hlt hk =>
      have hqi : Quiet h i := quiet_get hi
      have hq1 : ∀ k ∈ [i], Quiet h k := by
        intro k hk
        rw [List.mem_singleton] at hk
        subst hk
        exact hqi
      have hshort : ∀ pre x y post, [i] ≠ pre ++ x :: y :: post := by
        intro pre x y post he
        have := congrArg List.length he
        simp at this
        omega
      cases r with
      | got o =>
        cases o with
        | none =>
          cases hk
          exact ⟨(fun hc => by cases hc), (fun _ => hq1),
            fun pre x y post op t2 t3 he => absurd he (hshort pre x y post)⟩
        | some l =>
          dsimp only at hk
          obtain ⟨_, e0, _, _, _, f3, f4, _⟩ := hG.got hi
          cases hk with
          | @call op k t' t2 t3 u j r ids a hj hlt2 hk =>
            have hpair : ∀ (pre : List Nat) x y (post : List Nat), [i, j] = pre ++ x :: y :: post →
                x = i ∧ y = j := by
              intro pre x y post he
              cases pre with
              | nil =>
                simp only [List.nil_append, List.cons.injEq] at he
                exact ⟨he.1.symm, he.2.1.symm⟩
              | cons p pre =>
                have := congrArg List.length he
                simp at this
                omega
            have hend : (∀ l', r ≠ .set (some l')) → r ≠ .set none → ∀ k ∈ [i, j], Quiet h k := by
              intro hr _ k hk
              rcases List.mem_cons.1 hk with rfl | hk
              · exact hqi
              · rw [List.mem_singleton] at hk
                subst hk
                exact ⟨_, _, _, _, hj, Or.inr (Or.inr ⟨n, l, some layer, rfl, hr⟩)⟩
            cases r with
            | set o =>
              cases o with
              | some new =>
                cases hk
                refine ⟨fun _ => ⟨i, t0, t1, j, t2, _, l, new, by simp, by simp, hlt, hlt2,
                  Nat.le_refl _, by omega, ?_, hi, hj⟩, fun hc => absurd rfl hc, ?_⟩
                · intro k hk hne
                  rcases List.mem_cons.1 hk with rfl | hk
                  · exact hqi
                  · exact absurd (List.mem_singleton.1 hk) hne
                · intro pre x y post op t2' t3' he hy
                  obtain ⟨rfl, rfl⟩ := hpair pre x y post he
                  rw [hj] at hy
                  cases hy
              | none =>
                obtain ⟨ih1, ih2, ih3⟩ := ih hk
                obtain ⟨_, e1, _, _, _, _, _, f5, f6, _⟩ := hG.event hj (by simp)
                have hqj : Quiet h j := quiet_set hj
                refine ⟨?_, ?_, ?_⟩
                · intro ha
                  obtain ⟨i', s0, s1, j', s2, s3, l', new, b1, b2, b3, b4, b5, b6, b7, b8, b9⟩ :=
                    ih1 ha
                  refine ⟨i', s0, s1, j', s2, s3, l', new, by simp [b1], by simp [b2], by omega, b4,
                    b5, by omega, ?_, b8, b9⟩
                  intro k hk hne
                  rcases List.mem_cons.1 hk with rfl | hk
                  · exact hqi
                  · rcases List.mem_cons.1 hk with rfl | hk
                    · exact hqj
                    · exact b7 k hk hne
                · intro ha k hk
                  rcases List.mem_cons.1 hk with rfl | hk
                  · exact hqi
                  · rcases List.mem_cons.1 hk with rfl | hk
                    · exact hqj
                    · exact ih2 ha k hk
                · intro pre x y post op t2' t3' he hy
                  cases pre with
                  | nil =>
                    simp only [List.nil_append, List.cons.injEq] at he
                    obtain ⟨rfl, rfl, _⟩ := he
                    rw [hj] at hy
                    cases hy
                    exact ⟨t0, t1, l, hi, rfl, hlt2⟩
                  | cons p pre =>
                    cases pre with
                    | nil =>
                      simp only [List.cons_append, List.nil_append, List.cons.injEq] at he
                      obtain ⟨_, rfl, he⟩ := he
                      -- `y` begins the next round, so it is a read
                      cases fuel with
                      | zero =>
                        cases hk
                        cases he
                      | succ fuel =>
                        cases hk with
                        | call hz _ _ =>
                          simp only [List.cons.injEq] at he
                          rw [he.1, hy] at hz
                          cases hz
                          obtain ⟨_, _, _, _, _, _, _, _, _, f7, _⟩ := hG.event hy (by simp)
                          cases f7
                    | cons p' pre =>
                      simp only [List.cons_append, List.cons.injEq] at he
                      exact ih3 pre x y post op t2' t3' he.2.2 hy
            | created | «exists» | got _ | missing | deleted _ | unreadable =>
              cases hk
              refine ⟨(fun hc => by cases hc), fun _ => hend (by simp) (by simp), ?_⟩
              intro pre x y post op t2' t3' he hy
              obtain ⟨rfl, rfl⟩ := hpair pre x y post he
              rw [hj] at hy
              cases hy
      | created | «exists» | set _ | missing | deleted _ | unreadable =>
        cases hk
        exact ⟨(fun hc => by cases hc), (fun _ => hq1),
          fun pre x y post op t2 t3 he => absurd he (hshort pre x y post)⟩

/-- In `force_set_head` the successful update comes after all others. -/
theorem forceSetHead_order (hG : LinearizedBy same h G) {n : L} {layer : N} {fuel t u : Nat}
    {ids : List Nat} {a : Out Unit}
    (hp : Performs h anc (NamedGraph.forceSetHead fuel n layer) t ids a u) :
    (∀ k ∈ ids, ∀ op t2 t3 new, h k = some ⟨op, t2, some (.set (some new), t3)⟩ → t < t2) ∧
    ∀ j ∈ ids, ∀ k ∈ ids, ∀ op t2 t3 op' t4 t5 new,
      h j = some ⟨op, t2, some (.set none, t3)⟩ →
      h k = some ⟨op', t4, some (.set (some new), t5)⟩ → t3 < t4 := by
  induction fuel generalizing t ids with
  | zero =>
    cases hp
    exact ⟨(fun k hk => by cases hk), fun k hk => by cases hk⟩
  | succ fuel ih =>
    cases hp with
    | @call op k t t0 t1 u i r ids a hi hlt hk =>
      have hget : ∀ op t2 t3 o, h i ≠ some ⟨op, t2, some (.set o, t3)⟩ := by
        intro op t2 t3 o he
        obtain ⟨A, _, _, _, _, _, _, _, _, f7, _⟩ := hG.event he (by simp)
        rw [hi] at he
        cases he
        cases f7
      have hone : (∀ k ∈ [i], ∀ op t2 t3 new, h k = some ⟨op, t2, some (.set (some new), t3)⟩ → t < t2) ∧
          ∀ j ∈ [i], ∀ k ∈ [i], ∀ op t2 t3 op' t4 t5 new,
            h j = some ⟨op, t2, some (.set none, t3)⟩ →
            h k = some ⟨op', t4, some (.set (some new), t5)⟩ → t3 < t4 := by
        constructor
        · intro k hk op t2 t3 new he
          rw [List.mem_singleton] at hk
          subst hk
          exact absurd he (hget _ _ _ _)
        · intro j hj k hk op t2 t3 op' t4 t5 new he
          rw [List.mem_singleton] at hj
          subst hj
          exact absurd he (hget _ _ _ _)
      cases r with
      | got o =>
        cases o with
        | none =>
          cases hk
          exact hone
        | some l =>
          dsimp only at hk
          obtain ⟨_, e0, _, _, _, f3, f4, _⟩ := hG.got hi
          cases hk with
          | @call op k t' t2 t3 u j r ids a hj hlt2 hk =>
            have htwo : r ≠ .set none →
                (∀ k ∈ [i, j], ∀ op t2 t3 new, h k = some ⟨op, t2, some (.set (some new), t3)⟩ → t < t2) ∧
                ∀ j' ∈ [i, j], ∀ k ∈ [i, j], ∀ op t2 t3 op' t4 t5 new,
                  h j' = some ⟨op, t2, some (.set none, t3)⟩ →
                  h k = some ⟨op', t4, some (.set (some new), t5)⟩ → t3 < t4 := by
              intro hr
              constructor
              · intro k hk op t2' t3' new he
                rcases List.mem_cons.1 hk with rfl | hk
                · exact absurd he (hget _ _ _ _)
                · rw [List.mem_singleton] at hk
                  subst hk
                  rw [hj] at he
                  cases he
                  omega
              · intro j' hj' k hk op t2' t3' op' t4 t5 new he
                rcases List.mem_cons.1 hj' with rfl | hj'
                · exact absurd he (hget _ _ _ _)
                · rw [List.mem_singleton] at hj'
                  subst hj'
                  rw [hj] at he
                  cases he
                  exact absurd rfl hr
            cases r with
            | set o =>
              cases o with
              | some new =>
                cases hk
                exact htwo (by simp)
              | none =>
                obtain ⟨ih1, ih2⟩ := ih hk
                obtain ⟨_, e1, _, _, _, _, _, f5, f6, _⟩ := hG.event hj (by simp)
                have hnot : ∀ op t2' t3' new, h j ≠ some ⟨op, t2', some (.set (some new), t3')⟩ := by
                  intro op t2' t3' new he
                  rw [hj] at he
                  cases he
                constructor
                · intro k hk op t2' t3' new he
                  rcases List.mem_cons.1 hk with rfl | hk
                  · exact absurd he (hget _ _ _ _)
                  · rcases List.mem_cons.1 hk with rfl | hk
                    · exact absurd he (hnot _ _ _ _)
                    · have := ih1 k hk op t2' t3' new he
                      omega
                · intro j' hj' k hk op t2' t3' op' t4 t5 new he he'
                  rcases List.mem_cons.1 hk with rfl | hk1
                  · exact absurd he' (hget _ _ _ _)
                  rcases List.mem_cons.1 hk1 with rfl | hk2
                  · exact absurd he' (hnot _ _ _ _)
                  rcases List.mem_cons.1 hj' with rfl | hj'
                  · exact absurd he (hget _ _ _ _)
                  rcases List.mem_cons.1 hj' with rfl | hj'
                  · rw [hj] at he
                    cases he
                    exact ih1 k hk2 _ _ _ _ he'
                  · exact ih2 j' hj' k hk2 _ _ _ _ _ _ _ he he'
            | created | «exists» | got _ | missing | deleted _ | unreadable =>
              cases hk
              exact htwo (by simp)
      | created | «exists» | set _ | missing | deleted _ | unreadable =>
        cases hk
        exact hone

end Verif
