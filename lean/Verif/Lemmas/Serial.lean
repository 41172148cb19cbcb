import Verif.Lemmas.Transactions

/-!
Transactions on a graph are serializable.
-/

set_option linter.unusedSectionVars false

namespace Verif

open Spec

variable {L N T : Type} [DecidableEq L] {same : LabelData N → LabelData N → Bool}
  {h : LabelHistory L N} {G : List (LabelEvent L N)} {anc : N → N → Out Bool → Prop}

/-! ### The calls of a transaction -/

theorem Performs.begun {α : Type} {p : Prog L N α} {t u : Nat} {ids : List Nat} {a : Out α}
    (hp : Performs h anc p t ids a u) : Begun h anc p t ids := by
  induction hp with
  | ret => exact .idle
  | call h1 h2 _ ih => exact .call h1 h2 ih
  | ask h1 h2 _ ih => exact .ask h1 h2 ih

theorem Begun.ret_nil {α : Type} {a : Out α} {t : Nat} {ids : List Nat}
    (hp : Begun h anc (.ret a : Prog L N α) t ids) : ids = [] := by
  cases hp
  rfl

theorem Begun.trySet {n : L} {layer : N} {l : LabelData N} {t : Nat} {ids : List Nat}
    (hp : Begun h anc (NamedGraph.trySet n l layer) t ids) :
    ids = [] ∨ ∃ j c, ids = [j] ∧ h j = some c ∧ c.op = .set n l (some layer) ∧ t < c.start := by
  cases hp with
  | idle => exact Or.inl rfl
  | waits h1 h2 => exact Or.inr ⟨_, _, rfl, h1, rfl, h2⟩
  | @call _ _ _ t0 t1 i r ids h1 h2 h3 =>
    have : ids = [] := by
      revert h3
      cases r with
      | set o => cases o <;> exact fun h3 => h3.ret_nil
      | created | «exists» | got _ | missing | deleted _ | unreadable => exact fun h3 => h3.ret_nil
    subst this
    exact Or.inr ⟨_, _, rfl, h1, rfl, h2⟩

/-- The calls that `set_head` makes. -/
theorem Begun.setHead {n : L} {layer : N} {t : Nat} {ids : List Nat}
    (hp : Begun h anc (NamedGraph.setHead n layer) t ids) :
    ∃ i rest, (ids = [] ∨ ids = i :: rest) ∧
      (∀ c, ids ≠ [] → h i = some c → c.op = .get n) ∧
      (ids ≠ [] → (h i).isSome) ∧
      (rest = [] ∨ ∃ j c l t0 t1, rest = [j] ∧ h j = some c ∧ c.op = .set n l (some layer) ∧
        h i = some ⟨.get n, t0, some (.got (some l), t1)⟩ ∧ t < t0 ∧ t1 < c.start ∧
        ∀ r, l.layer = some r → anc layer r (.ok true)) := by
  cases hp with
  | idle => exact ⟨0, [], Or.inl rfl, fun _ h => absurd rfl h, fun h => absurd rfl h, Or.inl rfl⟩
  | @waits _ _ _ t0 i h1 h2 =>
    refine ⟨i, [], Or.inr rfl, fun c _ hc => ?_, fun _ => by rw [h1]; rfl, Or.inl rfl⟩
    rw [h1] at hc
    cases hc
    rfl
  | @call _ _ _ t0 t1 i r ids h1 h2 h3 =>
    refine ⟨i, ids, Or.inr rfl, fun c _ hc => ?_, fun _ => by rw [h1]; rfl, ?_⟩
    · rw [h1] at hc
      cases hc
      rfl
    · revert h3
      cases r with
      | created | «exists» | missing | deleted _ | unreadable | set _ =>
        exact fun h3 => Or.inl h3.ret_nil
      | got o =>
        cases o with
        | none => exact fun h3 => Or.inl h3.ret_nil
        | some l =>
          obtain ⟨lay, ver⟩ := l
          cases lay with
          | none =>
            intro h3
            rcases Begun.trySet h3 with h3 | ⟨j, c, g1, g2, g3, g4⟩
            · exact Or.inl h3
            · exact Or.inr ⟨j, c, _, t0, t1, g1, g2, g3, h1, h2, g4, fun r hr => by cases hr⟩
          | some x =>
            intro h3
            cases h3 with
            | idle => exact Or.inl rfl
            | @ask _ _ _ _ t2 b _ k1 k2 k3 =>
              revert k3 k1
              cases b with
              | ok b =>
                cases b with
                | true =>
                  intro k1 k3
                  rcases Begun.trySet k3 with k3 | ⟨j, c, g1, g2, g3, g4⟩
                  · exact Or.inl k3
                  · refine Or.inr ⟨j, c, _, t0, t1, g1, g2, g3, h1, h2, by omega, fun r hr => ?_⟩
                    cases hr
                    exact k1
                | false => exact fun _ k3 => Or.inl k3.ret_nil
              | err | panic => exact fun _ k3 => Or.inl k3.ret_nil

/-- What `head_version` does. -/
theorem Performs.headVersion {n : L} {t u : Nat} {ids : List Nat} {x : Option N} {v : Nat}
    (hp : Performs h anc (NamedGraph.headVersion n) t ids (.ok (x, v)) u) :
    ∃ i t0, h i = some ⟨.get n, t0, some (.got (some ⟨x, v⟩), u)⟩ ∧ t < t0 := by
  cases hp with
  | @call _ _ _ t0 t1 _ i r ids a h1 h2 h3 =>
    revert h3
    cases r with
    | created | «exists» | missing | deleted _ | unreadable | set _ =>
      intro h3
      cases h3
    | got o =>
      cases o with
      | none =>
        intro h3
        cases h3
      | some l =>
        intro h3
        cases h3
        exact ⟨i, t0, h1, h2⟩

/-! ### The updates among the events -/

/-- An update of `n` that succeeds. -/
def wins (n : L) (e : LabelEvent L N) : Bool :=
  match e.op, e.res with
  | .set m _ _, .set (some _) => decide (m = n)
  | _, _ => false

/-- The layer that an update puts in place. -/
def wonLayer (e : LabelEvent L N) : Option N :=
  match e.op with
  | .set _ _ x => x
  | _ => none

theorem wins_iff {n : L} {e : LabelEvent L N} :
    wins n e = true ↔ ∃ old x new, e.op = .set n old x ∧ e.res = .set (some new) := by
  obtain ⟨id, time, op, res⟩ := e
  constructor
  · intro hw
    simp only [wins] at hw
    split at hw
    · rename_i m old x new
      have : m = n := by simpa using hw
      subst this
      exact ⟨_, _, _, rfl, rfl⟩
    · cases hw
  · rintro ⟨old, x, new, h1, h2⟩
    simp only at h1 h2
    subst h1 h2
    simp [wins]

/-- Induction from the end of a list. -/
theorem snoc_induction {α : Type} {P : List α → Prop} (hnil : P [])
    (hsnoc : ∀ A e, P A → P (A ++ [e])) (A : List α) : P A := by
  have : ∀ B : List α, P B.reverse := by
    intro B
    induction B with
    | nil => exact hnil
    | cons e B ih => rw [List.reverse_cons]; exact hsnoc _ _ ih
  have h1 := this A.reverse
  rwa [List.reverse_reverse] at h1

theorem filter_snoc_pos {α : Type} {p : α → Bool} {e : α} (he : p e = true) (A : List α) :
    (A ++ [e]).filter p = A.filter p ++ [e] := by
  simp [List.filter_append, he]

theorem filter_snoc_neg {α : Type} {p : α → Bool} {e : α} (he : p e = false) (A : List α) :
    (A ++ [e]).filter p = A.filter p := by
  simp [List.filter_append, he]

theorem labelsAfter_snoc (A : List (LabelEvent L N)) (e : LabelEvent L N) :
    labelsAfter same (A ++ [e]) = (callOn same (labelsAfter same A) e.op).2 := by
  rw [Spec.labelsAfter, stored_append]
  rfl

theorem put_same (m : Labels L N) (n : L) (l : Option (LabelData N)) : m.put n l n = l := by
  simp [Labels.put]

theorem put_other (m : Labels L N) {n k : L} (hk : k ≠ n) (l : Option (LabelData N)) :
    m.put n l k = m k := by
  simp [Labels.put, hk]

/-- The label tells the last update and how many there were. -/
theorem label_counts (hv : ∀ a b, same a b = true → a.version = b.version) (n : L)
    (A : List (LabelEvent L N)) : Answered same (fun _ => none) A → (∀ e ∈ A, e.op ≠ .delete n) →
      (labelsAfter same A n = none → A.filter (wins n) = []) ∧
      ∀ l, labelsAfter same A n = some l →
        l.layer = ((A.filter (wins n)).getLast?).bind wonLayer ∧
        l.version = (A.filter (wins n)).length := by
  induction A using snoc_induction with
  | hnil => exact fun _ _ => ⟨fun _ => rfl, fun l hl => by cases hl⟩
  | hsnoc A e ih =>
    intro ha hd
    rw [answered_append] at ha
    obtain ⟨g1, g2⟩ := ih ha.1 (fun x hx => hd x (by simp [hx]))
    have hres : e.res = (callOn same (labelsAfter same A) e.op).1 := ha.2.1
    have hkeep : labelsAfter same (A ++ [e]) n = labelsAfter same A n → wins n e = false →
        (labelsAfter same (A ++ [e]) n = none → (A ++ [e]).filter (wins n) = []) ∧
        ∀ l, labelsAfter same (A ++ [e]) n = some l →
          l.layer = (((A ++ [e]).filter (wins n)).getLast?).bind wonLayer ∧
          l.version = ((A ++ [e]).filter (wins n)).length := by
      intro k1 k2
      rw [k1, filter_snoc_neg k2]
      exact ⟨g1, g2⟩
    have hother : e.op.name ≠ n → wins n e = false := by
      intro hne
      cases hw : wins n e with
      | false => rfl
      | true =>
        obtain ⟨_, _, _, h1, _⟩ := wins_iff.1 hw
        exact absurd (by rw [h1]; rfl) hne
    cases ho : e.op with
    | create m =>
      have hw : wins n e = false := by simp [wins, ho]
      by_cases hm : m = n
      · subst hm
        cases hc : labelsAfter same A m with
        | some l =>
          refine hkeep ?_ hw
          rw [labelsAfter_snoc, ho]
          simp only [callOn, hc]
        | none =>
          have hl : labelsAfter same (A ++ [e]) m = some ⟨none, 0⟩ := by
            rw [labelsAfter_snoc, ho]
            simp only [callOn, hc, put_same]
          rw [hl, filter_snoc_neg hw, g1 hc]
          refine ⟨fun h => by simp at h, fun l hl' => ?_⟩
          cases hl'
          exact ⟨rfl, rfl⟩
      · refine hkeep ?_ hw
        rw [labelsAfter_snoc, ho]
        simp only [callOn]
        split
        · rfl
        · exact put_other _ (fun h => hm h.symm) _
    | get m =>
      refine hkeep ?_ (by simp [wins, ho])
      rw [labelsAfter_snoc, ho]
      rfl
    | delete m =>
      refine hkeep ?_ (by simp [wins, ho])
      rw [labelsAfter_snoc, ho]
      have hm : n ≠ m := by
        rintro rfl
        exact hd e (by simp) ho
      exact put_other _ hm _
    | set m old x =>
      rw [ho] at hres
      by_cases hm : m = n
      · subst hm
        cases hc : labelsAfter same A m with
        | none =>
          simp only [callOn, hc] at hres
          refine hkeep ?_ (by simp [wins, ho, hres])
          rw [labelsAfter_snoc, ho]
          simp only [callOn, hc]
        | some cur =>
          by_cases hs : same cur old = true
          · simp only [callOn, hc, hs, if_true] at hres
            have hw : wins m e = true := wins_iff.2 ⟨_, _, _, ho, hres⟩
            have hl : labelsAfter same (A ++ [e]) m = some (updated old x) := by
              rw [labelsAfter_snoc, ho]
              simp only [callOn, hc, hs, if_true, put_same]
            rw [hl, filter_snoc_pos hw]
            refine ⟨fun h => by simp at h, fun l hl' => ?_⟩
            cases hl'
            constructor
            · simp [updated, wonLayer, ho]
            · simp only [updated, List.length_append, List.length_singleton]
              rw [← hv _ _ hs, (g2 _ hc).2]
          · simp only [callOn, hc, hs] at hres
            refine hkeep ?_ (by simp [wins, ho, hres])
            rw [labelsAfter_snoc, ho]
            simp only [callOn, hc, hs]
            simp [hc]
      · refine hkeep ?_ (hother (by rw [ho]; exact hm))
        rw [labelsAfter_snoc, ho]
        simp only [callOn]
        split
        · rfl
        · split
          · exact put_other _ (fun h => hm h.symm) _
          · rfl

/-- A successful update replaces the label that was read before, if the comparison finds out
changes. -/
theorem wins_exact (hG : LinearizedBy same h G) {n : L} (hx : Exact same G n)
    {i t0 t1 : Nat} {l : LabelData N} {x : Option N}
    (hi : h i = some ⟨.get n, t0, some (.got (some l), t1)⟩)
    {A B : List (LabelEvent L N)} {e : LabelEvent L N} (hs : G = A ++ e :: B)
    (hop : e.op = .set n l x) (hw : wins n e = true) (ht : t1 < e.time) :
    labelsAfter same A n = some l := by
  obtain ⟨_, _, new, h1, h2⟩ := wins_iff.1 hw
  have ha := hG.answered
  rw [hs, answered_append] at ha
  have hres : e.res = (callOn same (labelsAfter same A) e.op).1 := ha.2.1
  rw [h2, hop] at hres
  simp only [callOn] at hres
  cases hc : labelsAfter same A n with
  | none => rw [hc] at hres; cases hres
  | some cur =>
    rw [hc] at hres
    by_cases hsame : same cur l = true
    · rcases hx with hx | ⟨hv, hd⟩
      · rw [hx _ _ hsame]
      · obtain ⟨A0, e0, B0, g1, g2, g3, g4, g5, g6⟩ := hG.got hi
        obtain ⟨C, c1, c2⟩ := between hG.sorted g1 hs (by omega)
        obtain ⟨l', k1, _, k2⟩ := version_grows (same := same) hv (m := labelsAfter same (A0 ++ [e0]))
          (by rw [g6]; exact g5) C (fun x hx => hd x (by rw [g1, c2]; simp [hx]))
        rw [Spec.labelsAfter, ← stored_append] at k1
        have e1 : A = A0 ++ [e0] ++ C := by rw [c1]; simp
        rw [← e1] at k1
        have : cur = l' := by
          have := hc.symm.trans k1
          cases this
          rfl
        subst this
        rw [(k2 (hv _ _ hsame)).1]
    · simp only [hsame] at hres
      cases hres

/-! ### Updates and transactions -/

/-- A successful update changes the label. -/
theorem wins_changes (hG : LinearizedBy same h G)
    (hv : ∀ a b, same a b = true → a.version = b.version) {n : L}
    {A B : List (LabelEvent L N)} {e : LabelEvent L N} (hs : G = A ++ e :: B)
    (hw : wins n e = true) : labelsAfter same (A ++ [e]) ≠ labelsAfter same A := by
  obtain ⟨old, x, new, h1, h2⟩ := wins_iff.1 hw
  have ha := hG.answered
  rw [hs, answered_append] at ha
  have hres : e.res = (callOn same (labelsAfter same A) e.op).1 := ha.2.1
  intro he
  replace he := congrFun he n
  rw [labelsAfter_snoc] at he
  rw [h1] at hres he
  simp only [callOn] at hres he
  cases hc : labelsAfter same A n with
  | none => rw [hc, h2] at hres; cases hres
  | some cur =>
    simp only [hc] at hres he
    by_cases hsame : same cur old = true
    · simp only [hsame, if_true, put_same] at he
      cases he
      have := hv _ _ hsame
      simp only [updated] at this
      omega
    · simp only [hsame, h2] at hres
      cases hres

/-- An update that changes the label is successful. -/
theorem wins_of_changes (hG : LinearizedBy same h G) {n : L} {old : LabelData N} {x : Option N}
    {A B : List (LabelEvent L N)} {e : LabelEvent L N} (hs : G = A ++ e :: B)
    (hop : e.op = .set n old x) (hne : labelsAfter same (A ++ [e]) ≠ labelsAfter same A) :
    wins n e = true := by
  have ha := hG.answered
  rw [hs, answered_append] at ha
  have hres : e.res = (callOn same (labelsAfter same A) e.op).1 := ha.2.1
  rw [labelsAfter_snoc] at hne
  rw [hop] at hres hne
  simp only [callOn] at hres hne
  cases hc : labelsAfter same A n with
  | none => simp only [hc] at hne; exact absurd rfl hne
  | some cur =>
    simp only [hc] at hres hne
    by_cases hsame : same cur old = true
    · simp only [hsame, if_true] at hres
      exact wins_iff.2 ⟨_, _, _, hop, hres⟩
    · simp only [hsame] at hne
      exact absurd rfl hne

variable {log : History T} {code : N → Nat} {n : L} {txs : Transaction N T → Prop}
  {tx : Transaction N T}

/-- The calls of a transaction after it has read the head. -/
theorem Transacts.ids_ops (ht : Transacts h anc log code n tx) {i : Nat} (hi : i ∈ tx.ids)
    {c : LabelCall L N} (hc : h i = some c) :
    c.op = .get n ∨ ∃ l, c.op = .set n l (some tx.layer) := by
  obtain ⟨v, t1, t2, ids, _, _, h3, _⟩ := ht.sets
  obtain ⟨i0, rest, g1, g2, g3, g4⟩ := h3.setHead
  rcases g1 with g1 | g1
  · rw [g1] at hi
    cases hi
  · rw [g1] at hi
    rcases List.mem_cons.1 hi with rfl | hi
    · exact Or.inl (g2 c (by rw [g1]; simp) hc)
    · rcases g4 with g4 | ⟨j, c', l, t0, t1, k1, k2, k3, _⟩
      · rw [g4] at hi
        cases hi
      · rw [k1, List.mem_singleton] at hi
        subst hi
        rw [k2] at hc
        cases hc
        exact Or.inr ⟨l, k3⟩

theorem OnlyTransactions.no_delete (hx : OnlyTransactions h anc log code n txs) {k : Nat}
    {c : LabelCall L N} (hk : h k = some c) : c.op ≠ .delete n := by
  intro hd
  rcases hx.only k c hk (by rw [hd]; rfl) with h1 | h1 | ⟨tx, h1, h2⟩
  · rw [hd] at h1; cases h1
  · rw [hd] at h1; cases h1
  · rcases (hx.each tx h1).ids_ops h2 hk with h3 | ⟨l, h3⟩
    · rw [hd] at h3; cases h3
    · rw [hd] at h3; cases h3

/-- A successful update belongs to a transaction. -/
def Owns (txs : Transaction N T → Prop) (tx : Transaction N T) (e : LabelEvent L N) : Prop :=
  txs tx ∧ e.id ∈ tx.ids

theorem OnlyTransactions.owner (hx : OnlyTransactions h anc log code n txs)
    (hG : LinearizedBy same h G) {e : LabelEvent L N} (he : e ∈ G) (hw : wins n e = true) :
    ∃ tx, Owns txs tx e := by
  obtain ⟨old, x, new, h1, h2⟩ := wins_iff.1 hw
  obtain ⟨c, c1, c2, _, _⟩ := hG.sound e he
  rcases hx.only e.id c c1 (by rw [c2, h1]; rfl) with g | g | ⟨tx, g1, g2⟩
  · rw [c2, h1] at g; cases g
  · rw [c2, h1] at g; cases g
  · exact ⟨tx, g1, g2⟩

/-- What is known about a successful update of a transaction. -/
theorem Transacts.update (ht : Transacts h anc log code n tx)
    (hG : LinearizedBy same h G) {e : LabelEvent L N} (he : e ∈ G) (hid : e.id ∈ tx.ids)
    (hw : wins n e = true) :
    (∃ i t0 t1 l, h i = some ⟨.get n, t0, some (.got (some l), t1)⟩ ∧
      e.op = .set n l (some tx.layer) ∧ tx.start ≤ t0 ∧ t1 < e.time ∧
      ∀ r, l.layer = some r → anc tx.layer r (.ok true)) ∧
    (∃ i t0 t1 v, h i = some ⟨.get n, t0, some (.got (some ⟨tx.read, v⟩), t1)⟩ ∧
      tx.start ≤ t0 ∧ t1 < e.time) ∧
    ∀ e' ∈ G, e'.id ∈ tx.ids → wins n e' = true → e'.id = e.id := by
  obtain ⟨v, t1, t2, ids, h1, h2, h3, _⟩ := ht.sets
  obtain ⟨i0, rest, g1, g2, g3, g4⟩ := h3.setHead
  obtain ⟨i1, s0, k1, k2⟩ := h1.headVersion
  obtain ⟨_, e1, _, f1, f2, f3, f4, _, _⟩ := hG.got k1
  have last : ∀ e ∈ G, e.id ∈ tx.ids → wins n e = true → rest = [e.id] := by
    intro e he hid hw
    obtain ⟨old, x, new, w1, w2⟩ := wins_iff.1 hw
    obtain ⟨c, c1, c2, _, _⟩ := hG.sound e he
    rcases g1 with g1 | g1
    · rw [g1] at hid
      cases hid
    · rw [g1] at hid
      rcases List.mem_cons.1 hid with hid | hid
      · rw [hid] at c1
        have := g2 c (by rw [g1]; simp) c1
        rw [c2, w1] at this
        cases this
      · rcases g4 with g4 | ⟨j, c', l, t0, t1, k1, _⟩
        · rw [g4] at hid
          cases hid
        · rw [k1, List.mem_singleton] at hid
          rw [k1, hid]
  have hr := last e he hid hw
  refine ⟨?_, ?_, fun e' he' hid' hw' => ?_⟩
  · rcases g4 with g4 | ⟨j, c', l, u0, u1, m1, m2, m3, m4, m5, m6, m7⟩
    · rw [g4] at hr
      cases hr
    · rw [hr] at m1
      cases m1
      obtain ⟨c, c1, c2, c3, _⟩ := hG.sound e he
      rw [m2] at c1
      cases c1
      refine ⟨i0, u0, u1, l, m4, by rw [← c2, m3], by omega, by omega, m7⟩
  · refine ⟨i1, s0, t1, v, k1, by omega, ?_⟩
    rcases g4 with g4 | ⟨j, c', l, u0, u1, m1, m2, m3, m4, m5, m6, m7⟩
    · rw [g4] at hr
      cases hr
    · rw [hr] at m1
      cases m1
      obtain ⟨c, c1, c2, c3, _⟩ := hG.sound e he
      rw [m2] at c1
      cases c1
      obtain ⟨_, e2, _, q1, q2, q3, q4, _, _⟩ := hG.got m4
      omega
  · have := last e' he' hid' hw'
    rw [hr] at this
    simpa using this.symm

/-- A transaction that has ended with a successful update reports success afterwards. -/
theorem Transacts.reported (ht : Transacts h anc log code n tx)
    (hG : LinearizedBy same h G) (hx : Exact same G n)
    (hv : ∀ a b, same a b = true → a.version = b.version)
    {e : LabelEvent L N} (he : e ∈ G) (hid : e.id ∈ tx.ids)
    (hw : wins n e = true) {r : Bool} {u : Nat} (ho : tx.outcome = some (r, u)) :
    r = true ∧ e.time ≤ u := by
  obtain ⟨v, t1, t2, ids, h1, h2, h3, h4⟩ := ht.sets
  obtain ⟨a, g1, g2⟩ := h4 r u ho
  obtain ⟨k1, k2⟩ := setHead_performs hG g1
  obtain ⟨A, B, hs⟩ := List.append_of_mem he
  have hc := wins_changes hG hv hs hw
  by_cases ha : a = .ok true
  · refine ⟨g2.2 ha, ?_⟩
    obtain ⟨l, ⟨A', e', B', m1, m2, m3, m4, m5, m6, m7⟩, _⟩ := k1 ha hx
    by_cases hee : e.id = e'.id
    · obtain ⟨_, rfl, _⟩ := split_unique hG.once hs m1 hee
      exact m4
    · exact absurd (m7 A e B hs hid hee) hc
  · exact absurd (noEffect_of_quiet hG (k2 ha) A e B hs hid) hc

/-- A transaction that reports success has made a successful update. -/
theorem Transacts.effect (ht : Transacts h anc log code n tx)
    (hG : LinearizedBy same h G) (hx : Exact same G n)
    {u : Nat} (ho : tx.outcome = some (true, u)) :
    ∃ e ∈ G, e.id ∈ tx.ids ∧ wins n e = true := by
  obtain ⟨v, t1, t2, ids, h1, h2, h3, h4⟩ := ht.sets
  obtain ⟨a, g1, g2⟩ := h4 true u ho
  obtain ⟨k1, k2⟩ := setHead_performs hG g1
  obtain ⟨l, ⟨A, e, B, m1, m2, m3, m4, m5, m6, m7⟩, _⟩ := k1 (g2.1 rfl) hx
  have he : e ∈ G := by rw [m1]; simp
  have hne : labelsAfter same (A ++ [e]) ≠ labelsAfter same A := by
    intro hc
    have := congrFun hc n
    rw [m6, put_same, m5] at this
    obtain ⟨x, v⟩ := l
    simp at this
  obtain ⟨c, c1, c2, _, _⟩ := hG.sound e he
  refine ⟨e, he, m2, ?_⟩
  rcases ht.ids_ops m2 c1 with hop | ⟨l', hop⟩
  · refine absurd ?_ hne
    rw [labelsAfter_snoc, ← c2, hop]
    rfl
  · exact wins_of_changes hG m1 (c2.symm.trans hop) hne

/-! ### The order -/

/-- The transactions of the successful updates. -/
def txsOf (n : L) (f : LabelEvent L N → Transaction N T) (A : List (LabelEvent L N)) :
    List (Transaction N T) := (A.filter (wins n)).map f

theorem txsOf_append (f : LabelEvent L N → Transaction N T) (A B : List (LabelEvent L N)) :
    txsOf n f (A ++ B) = txsOf n f A ++ txsOf n f B := by
  simp [txsOf]

theorem txsOf_snoc_pos (f : LabelEvent L N → Transaction N T) {e : LabelEvent L N}
    (he : wins n e = true) (A : List (LabelEvent L N)) :
    txsOf n f (A ++ [e]) = txsOf n f A ++ [f e] := by
  simp [txsOf, he]

theorem txsOf_snoc_neg (f : LabelEvent L N → Transaction N T) {e : LabelEvent L N}
    (he : wins n e = false) (A : List (LabelEvent L N)) :
    txsOf n f (A ++ [e]) = txsOf n f A := by
  simp [txsOf, he]

theorem mem_txsOf {f : LabelEvent L N → Transaction N T} {A : List (LabelEvent L N)} :
    tx ∈ txsOf n f A ↔ ∃ e ∈ A, wins n e = true ∧ f e = tx := by
  simp [txsOf, and_assoc]

theorem headOf_snoc (P : List (Transaction N T)) (tx : Transaction N T) :
    headOf (P ++ [tx]) = some tx.layer := by
  simp [headOf]

/-- A place in the order is a place among the events. -/
theorem txsOf_split {f : LabelEvent L N → Transaction N T} {P S : List (Transaction N T)}
    (ho : txsOf n f G = P ++ tx :: S) :
    ∃ A e B, G = A ++ e :: B ∧ wins n e = true ∧ f e = tx ∧ txsOf n f A = P ∧ txsOf n f B = S := by
  unfold txsOf at ho
  obtain ⟨F1, F2, h1, h2, h3⟩ := List.map_eq_append_iff.1 ho
  obtain ⟨e, F3, h4, h5, h6⟩ := List.map_eq_cons_iff.1 h3
  obtain ⟨A1, B1, g1, g2, g3⟩ := List.filter_eq_append_iff.1 h1
  rw [h4] at g3
  obtain ⟨C1, C2, k1, k2, k3, k4⟩ := List.filter_eq_cons_iff.1 g3
  refine ⟨A1 ++ C1, e, C2, by rw [g1, k1]; simp, k3, h5, ?_, by unfold txsOf; rw [k4, h6]⟩
  have : C1.filter (wins n) = [] := List.filter_eq_nil_iff.2 k2
  simp only [txsOf, List.filter_append, this, g2, List.append_nil, h2]

theorem txsOf_split' {f : LabelEvent L N → Transaction N T} {P S : List (Transaction N T)}
    (ho : txsOf n f G = P ++ S) : ∃ A B, G = A ++ B ∧ txsOf n f A = P ∧ txsOf n f B = S := by
  cases S with
  | nil => exact ⟨G, [], by simp, by simpa using ho, rfl⟩
  | cons tx S =>
    obtain ⟨A, e, B, h1, h2, h3, h4, h5⟩ := txsOf_split ho
    refine ⟨A, e :: B, h1, h4, ?_⟩
    have : txsOf n f (e :: B) = f e :: txsOf n f B := by simp [txsOf, h2]
    rw [this, h3, h5]

theorem serialized [Inhabited N] (hG : LinearizedBy same h G) (hx : Exact same G n)
    (hv : ∀ a b, same a b = true → a.version = b.version)
    (hanc : ∀ x y, anc x y (.ok true) → log.Ancestor (code y) (code x))
    (hline : ∀ x, ∃ ns, log.Line x ns) (hord : log.Ordered) (hcode : Function.Injective code)
    (ht : OnlyTransactions h anc log code n txs) :
    ∃ order, Serialized h log code n txs order := by
  have hdel : ∀ e ∈ G, e.op ≠ .delete n := by
    intro e he
    obtain ⟨c, c1, c2, _⟩ := hG.sound e he
    rw [← c2]
    exact ht.no_delete c1
  have hf : ∀ e, ∃ tx, e ∈ G → wins n e = true → Owns txs tx e := by
    intro e
    by_cases he : e ∈ G ∧ wins n e = true
    · obtain ⟨tx, h1⟩ := ht.owner hG he.1 he.2
      exact ⟨tx, fun _ _ => h1⟩
    · exact ⟨default, fun h1 h2 => absurd ⟨h1, h2⟩ he⟩
  obtain ⟨f, hf⟩ := Classical.axiomOfChoice hf
  have hlayer : ∀ e ∈ G, wins n e = true → wonLayer e = some (f e).layer := by
    intro e he hw
    obtain ⟨⟨_, _, _, l, _, h2, _⟩, _⟩ := (ht.each _ (hf e he hw).1).update hG he (hf e he hw).2 hw
    simp [wonLayer, h2]
  have hinj : ∀ e ∈ G, ∀ e' ∈ G, wins n e = true → wins n e' = true →
      (f e).layer = (f e').layer → e.id = e'.id := by
    intro e he e' he' hw hw' hl
    have heq := ht.own _ _ (hf e he hw).1 (hf e' he' hw').1 hl
    exact ((ht.each _ (hf e' he' hw').1).update hG he' (hf e' he' hw').2 hw').2.2 e he
      (heq ▸ (hf e he hw).2) hw
  -- What the label tells.
  have hstate : ∀ A B, G = A ++ B → ∀ l, labelsAfter same A n = some l →
      l = ⟨headOf (txsOf n f A), (txsOf n f A).length⟩ := by
    intro A B hAB l hl
    have ha := hG.answered
    rw [hAB, answered_append] at ha
    obtain ⟨h1, h2⟩ := (label_counts hv n A ha.1 (fun e he => hdel e (by rw [hAB]; simp [he]))).2 l hl
    obtain ⟨x, v⟩ := l
    simp only at h1 h2
    rw [h1, h2]
    simp only [headOf, txsOf, List.getLast?_map, List.length_map, LabelData.mk.injEq, and_true]
    cases hlast : (A.filter (wins n)).getLast? with
    | none => rfl
    | some e =>
      obtain ⟨g1, g2⟩ := List.mem_filter.1 (List.mem_of_getLast? hlast)
      simp only [Option.bind_some, Option.map_some]
      exact hlayer e (by rw [hAB]; simp [g1]) g2
  have hread : ∀ {i t0 t1 l}, h i = some ⟨.get n, t0, some (.got (some l), t1)⟩ →
      ∃ A e B, G = A ++ e :: B ∧ wins n e = false ∧ t0 ≤ e.time ∧ e.time ≤ t1 ∧
        l = ⟨headOf (txsOf n f A), (txsOf n f A).length⟩ := by
    intro i t0 t1 l hi
    obtain ⟨A, e, B, h1, h2, h3, h4, h5, h6⟩ := hG.got hi
    refine ⟨A, e, B, h1, ?_, h3, h4, hstate A (e :: B) h1 l h5⟩
    cases hw : wins n e with
    | false => rfl
    | true => exact absurd h6 (wins_changes hG hv h1 hw)
  have hparent : ∀ e ∈ G, wins n e = true →
      log.parent (code (f e).layer) = (f e).read.map code := by
    intro e he hw
    exact (hord.commit (ht.each _ (hf e he hw).1).made).1
  -- The layers of earlier updates are ancestors.
  have hold : ∀ A C D, G = A ++ C ++ D →
      (∀ A' e B', A ++ C = A' ++ e :: B' → wins n e = true → (f e).read = headOf (txsOf n f A')) →
      ∀ x, headOf (txsOf n f A) = some x → ∃ y, headOf (txsOf n f (A ++ C)) = some y ∧
        log.Ancestor (code x) (code y) := by
    intro A C
    induction C using snoc_induction with
    | hnil =>
      intro D _ _ x hx
      exact ⟨x, by rw [List.append_nil]; exact hx, .self _⟩
    | hsnoc C e ih =>
      intro D hD hch x hx
      obtain ⟨y, h1, h2⟩ := ih (e :: D) (by rw [hD]; simp)
        (fun A' e' B' hs => hch A' e' (B' ++ [e]) (by rw [← List.append_assoc, hs]; simp)) x hx
      cases hw : wins n e with
      | false =>
        refine ⟨y, ?_, h2⟩
        rw [← List.append_assoc, txsOf_snoc_neg f hw]
        exact h1
      | true =>
        refine ⟨(f e).layer, ?_, ?_⟩
        · rw [← List.append_assoc, txsOf_snoc_pos f hw, headOf_snoc]
        · refine .up ?_ h2
          have he : e ∈ G := by rw [hD]; simp
          rw [hparent e he hw, hch (A ++ C) e [] (by simp) hw, h1]
          rfl
  -- Each transaction has read what the one before has left.
  have hreads : ∀ (k : Nat) A e B, A.length = k → G = A ++ e :: B → wins n e = true →
      (f e).read = headOf (txsOf n f A) := by
    intro k
    induction k using Nat.strongRecOn with
    | _ k ih =>
      intro A e B hk hs hw
      have he : e ∈ G := by rw [hs]; simp
      have hch : ∀ A' e' B', A = A' ++ e' :: B' → wins n e' = true →
          (f e').read = headOf (txsOf n f A') := by
        intro A' e' B' hA hw'
        refine ih A'.length (by rw [← hk, hA]; simp) A' e' (B' ++ e :: B) rfl ?_ hw'
        rw [hs, hA]
        simp
      obtain ⟨⟨i, t0, t1, l, g1, g2, g3, g4, g5⟩, ⟨i', s0, s1, v, k1, k2, k3⟩, _⟩ :=
        (ht.each _ (hf e he hw).1).update hG he (hf e he hw).2 hw
      have hcur := hstate A (e :: B) hs l (wins_exact hG hx g1 hs g2 hw g4)
      obtain ⟨A0, e0, B0, m1, m2, m3, m4, m5⟩ := hread k1
      obtain ⟨C, c1, c2⟩ := between hG.sorted m1 hs (by omega)
      have hr : (f e).read = headOf (txsOf n f A0) := congrArg LabelData.layer m5
      have hAC : A = A0 ++ e0 :: C := c1
      -- Either nothing happened since the read, or there would be a cycle.
      cases hC : txsOf n f C with
      | nil =>
        rw [hr, hAC, show A0 ++ e0 :: C = A0 ++ [e0] ++ C by simp, txsOf_append, hC,
          txsOf_snoc_neg f m2, List.append_nil]
      | cons tx0 rest =>
        exfalso
        have hne : txsOf n f A ≠ [] := by
          rw [hAC, show A0 ++ e0 :: C = A0 ++ [e0] ++ C by simp, txsOf_append, hC]
          simp
        obtain ⟨y, hy⟩ : ∃ y, headOf (txsOf n f A) = some y := by
          unfold headOf
          cases hq : (txsOf n f A).getLast? with
          | none => exact absurd (List.getLast?_eq_none_iff.1 hq) hne
          | some q => exact ⟨q.layer, rfl⟩
        -- The head is the layer of an update after the read.
        obtain ⟨C', e1, C2, q1, q2, q3, q4⟩ : ∃ C' e1 C2, C = C' ++ e1 :: C2 ∧ wins n e1 = true ∧
            (f e1).layer = y ∧ e1 ∈ C := by
          have hlast : headOf (txsOf n f C) = some y := by
            rw [hAC, show A0 ++ e0 :: C = A0 ++ [e0] ++ C by simp, txsOf_append] at hy
            unfold headOf at hy ⊢
            rwa [List.getLast?_append_of_ne_nil _ (by rw [hC]; simp)] at hy
          unfold headOf at hlast
          cases hq : (txsOf n f C).getLast? with
          | none => rw [hq] at hlast; cases hlast
          | some q =>
            rw [hq] at hlast
            obtain ⟨e1, n1, n2, n3⟩ := mem_txsOf.1 (List.mem_of_getLast? hq)
            obtain ⟨C', C2, hCC⟩ := List.append_of_mem n1
            refine ⟨C', e1, C2, hCC, n2, ?_, n1⟩
            rw [n3]
            simpa using hlast
        have he1 : e1 ∈ G := by rw [hs, hAC]; simp [q4]
        have hid : e1.id ≠ e.id := by
          have ho := hG.once
          rw [hs, hAC, List.pairwise_append] at ho
          exact ho.2.2 e1 (by simp [q4]) e (by simp)
        have hlay : y ≠ (f e).layer := by
          rintro hyl
          exact hid (hinj e1 he1 e he q2 hw (by rw [q3, hyl]))
        have hup : log.Ancestor (code y) (code (f e).layer) :=
          hanc _ _ (g5 y (by rw [hcur]; exact hy))
        have hpar := hparent e he hw
        have hup' : ∃ p, (f e).read = some p ∧ log.Ancestor (code y) (code p) := by
          revert hup
          generalize hz : code (f e).layer = z at hpar
          intro hup
          cases hup with
          | self => exact absurd (hcode hz.symm) hlay
          | up hp hp' =>
            rw [hpar] at hp
            cases hrd : (f e).read with
            | none => rw [hrd] at hp; cases hp
            | some p =>
              rw [hrd] at hp
              cases hp
              exact ⟨p, rfl, hp'⟩
        obtain ⟨p, p1, p2⟩ := hup'
        obtain ⟨y', y1, y2⟩ := hold A0 (e0 :: C) (e :: B) (by rw [← hAC, hs]) (by
          intro A' e' B' hA hw'
          exact hch A' e' B' (by rw [hAC]; exact hA) hw') p (by rw [← hr]; exact p1)
        rw [← hAC, hy] at y1
        cases y1
        obtain ⟨ns, hns⟩ := hline (code p)
        have heq := hcode (p2.antisymm hns y2)
        subst heq
        -- The layer that was read is that of an earlier update.
        have hA0 : headOf (txsOf n f A0) = some y := by rw [← hr]; exact p1
        unfold headOf at hA0
        cases hq : (txsOf n f A0).getLast? with
        | none => rw [hq] at hA0; cases hA0
        | some q =>
          rw [hq] at hA0
          obtain ⟨e2, n1, n2, n3⟩ := mem_txsOf.1 (List.mem_of_getLast? hq)
          have he2 : e2 ∈ G := by rw [m1]; simp [n1]
          have hid2 : e2.id ≠ e1.id := by
            have ho := hG.once
            rw [m1, List.pairwise_append] at ho
            exact ho.2.2 e2 n1 e1 (by rw [c2]; simp [q4])
          refine hid2 (hinj e2 he2 e1 he1 n2 q2 ?_)
          rw [n3, q3]
          simpa using hA0
  refine ⟨txsOf n f G, ?_, ?_, ?_, ?_, ?_, ?_, ?_, ?_⟩
  · intro tx htx
    obtain ⟨e, h1, h2, rfl⟩ := mem_txsOf.1 htx
    exact (hf e h1 h2).1
  · unfold txsOf
    rw [List.Nodup, List.pairwise_map]
    refine List.Pairwise.imp_of_mem ?_ (List.Pairwise.filter (wins n) hG.once)
    intro a b ha hb hab heq
    obtain ⟨a1, a2⟩ := List.mem_filter.1 ha
    obtain ⟨b1, b2⟩ := List.mem_filter.1 hb
    exact hab (hinj a a1 b b1 a2 b2 (by rw [heq]))
  · intro tx u htx ho
    obtain ⟨e, h1, h2, h3⟩ := (ht.each tx htx).effect hG hx ho
    refine mem_txsOf.2 ⟨e, h1, h3, ?_⟩
    obtain ⟨⟨_, _, _, l, _, g2, _⟩, _⟩ := (ht.each tx htx).update hG h1 h2 h3
    refine ht.own _ _ (hf e h1 h3).1 htx ?_
    have := hlayer e h1 h3
    simp only [wonLayer, g2] at this
    simpa using this.symm
  · intro tx u htx ho hm
    obtain ⟨e, h1, h2, rfl⟩ := mem_txsOf.1 hm
    have := ((ht.each _ htx).reported hG hx hv h1 (hf e h1 h2).2 h2 ho).1
    cases this
  · unfold txsOf
    rw [List.pairwise_map]
    refine List.Pairwise.imp_of_mem ?_ (List.Pairwise.filter (wins n) hG.sorted)
    intro a b ha hb hab r u ho
    obtain ⟨a1, a2⟩ := List.mem_filter.1 ha
    obtain ⟨b1, b2⟩ := List.mem_filter.1 hb
    have h1 := ((ht.each _ (hf b b1 b2).1).reported hG hx hv b1 (hf b b1 b2).2 b2 ho).2
    obtain ⟨_, ⟨i, t0, t1, v, k1, k2, k3⟩, _⟩ :=
      (ht.each _ (hf a a1 a2).1).update hG a1 (hf a a1 a2).2 a2
    obtain ⟨_, _, _, _, _, m3, m4, _⟩ := hread k1
    omega
  · intro P tx S ho
    obtain ⟨A, e, B, h1, h2, h3, h4, _⟩ := txsOf_split ho
    rw [← h3, ← h4]
    exact hreads A.length A e B rfl h1 h2
  · intro i t0 t1 l hi
    obtain ⟨A, e, B, m1, m2, m3, m4, m5⟩ := hread hi
    refine ⟨txsOf n f A, txsOf n f B, ?_, m5, ?_, ?_⟩
    · rw [m1, show A ++ e :: B = A ++ [e] ++ B by simp, txsOf_append, txsOf_snoc_neg f m2]
    · intro tx htx
      obtain ⟨a, a1, a2, rfl⟩ := mem_txsOf.1 htx
      have a3 : a ∈ G := by rw [m1]; simp [a1]
      obtain ⟨_, ⟨i, t0, t1, v, k1, k2, k3⟩, _⟩ :=
        (ht.each _ (hf a a3 a2).1).update hG a3 (hf a a3 a2).2 a2
      obtain ⟨_, _, _, _, _, p3, p4, _⟩ := hread k1
      have hso := hG.sorted
      rw [m1, List.pairwise_append] at hso
      have := hso.2.2 a a1 e (by simp)
      omega
    · intro tx htx u ho
      obtain ⟨b, b1, b2, rfl⟩ := mem_txsOf.1 htx
      have b3 : b ∈ G := by rw [m1]; simp [b1]
      have h1 := ((ht.each _ (hf b b3 b2).1).reported hG hx hv b3 (hf b b3 b2).2 b2 ho).2
      have hso := hG.sorted
      rw [m1, List.pairwise_append] at hso
      have := (List.pairwise_cons.1 hso.2.1).1 b b1
      omega
  · intro P
    induction P using snoc_induction with
    | hnil => exact fun S _ t => Iff.rfl
    | hsnoc P tx ih =>
      intro S ho t
      have ho' : txsOf n f G = P ++ tx :: S := by rw [ho]; simp
      obtain ⟨A, e, B, h1, h2, h3, h4, _⟩ := txsOf_split ho'
      have he : e ∈ G := by rw [h1]; simp
      have hr := hreads A.length A e B rfl h1 h2
      have hm := (hord.commit (ht.each _ (hf e he h2).1).made).2 t
      rw [h3, h4] at hr
      rw [h3] at hm
      rw [headOf_snoc]
      show log.triples (code tx.layer) t ↔ _
      rw [hm, hr]
      have hb := ih (tx :: S) ho' t
      simp only [applied, List.foldl_append, List.foldl_cons, List.foldl_nil]
      unfold after
      rw [hb]
      rfl

/-! ### Heads that only move forward -/

/-- A call of `set_head`. -/
theorem Begun.setHead_op {layer : N} {t : Nat} {ids : List Nat}
    (hp : Begun h anc (NamedGraph.setHead n layer) t ids) {i : Nat} (hi : i ∈ ids)
    {c : LabelCall L N} (hc : h i = some c) :
    c.op = .get n ∨ ∃ k l t0 t1, c.op = .set n l (some layer) ∧
      h k = some ⟨.get n, t0, some (.got (some l), t1)⟩ ∧ t1 < c.start ∧
      ∀ r, l.layer = some r → anc layer r (.ok true) := by
  obtain ⟨i0, rest, g1, g2, g3, g4⟩ := hp.setHead
  rcases g1 with g1 | g1
  · rw [g1] at hi
    cases hi
  · rw [g1] at hi
    rcases List.mem_cons.1 hi with rfl | hi
    · exact Or.inl (g2 c (by rw [g1]; simp) hc)
    · rcases g4 with g4 | ⟨j, c', l, t0, t1, k1, k2, k3, k4, k5, k6, k7⟩
      · rw [g4] at hi
        cases hi
      · rw [k1, List.mem_singleton] at hi
        subst hi
        rw [k2] at hc
        cases hc
        exact Or.inr ⟨i0, l, t0, t1, k3, k4, k6, k7⟩

theorem OnlySetHead.no_delete (hx : OnlySetHead h anc n) {k : Nat}
    {c : LabelCall L N} (hk : h k = some c) : c.op ≠ .delete n := by
  intro hd
  rcases hx k c hk (by rw [hd]; rfl) with h1 | h1 | ⟨layer, t, ids, h1, h2⟩
  · rw [hd] at h1; cases h1
  · rw [hd] at h1; cases h1
  · rcases h1.setHead_op h2 hk with h3 | ⟨_, _, _, _, h3, _⟩
    · rw [hd] at h3; cases h3
    · rw [hd] at h3; cases h3

/-- Later heads have the earlier ones as ancestors. -/
theorem heads_forward (hG : LinearizedBy same h G) (hx : Exact same G n)
    (hanc : ∀ x y, anc x y (.ok true) → log.Ancestor (code y) (code x))
    (htrans : ∀ a b c, log.Ancestor a b → log.Ancestor b c → log.Ancestor a c)
    (ho : OnlySetHead h anc n) {A : List (LabelEvent L N)} {l : LabelData N} {x : N}
    (hA : labelsAfter same A n = some l) (hl : l.layer = some x) (C : List (LabelEvent L N)) :
    ∀ D, G = A ++ C ++ D → ∃ l' y, labelsAfter same (A ++ C) n = some l' ∧ l'.layer = some y ∧
      log.Ancestor (code x) (code y) := by
  induction C using snoc_induction with
  | hnil => exact fun D _ => ⟨l, x, by rw [List.append_nil]; exact hA, hl, .self _⟩
  | hsnoc C e ih =>
    intro D hD
    obtain ⟨l', y, h1, h2, h3⟩ := ih (e :: D) (by rw [hD]; simp)
    have hs : G = (A ++ C) ++ e :: D := by rw [hD]; simp
    have he : e ∈ G := by rw [hs]; simp
    obtain ⟨c, c1, c2, c3, _⟩ := hG.sound e he
    by_cases hsame : labelsAfter same (A ++ C ++ [e]) n = labelsAfter same (A ++ C) n
    · exact ⟨l', y, by rw [← List.append_assoc, hsame]; exact h1, h2, h3⟩
    · have hname : e.op.name = n := by
        apply Classical.byContradiction
        intro hne
        apply hsame
        rw [labelsAfter_snoc]
        have hne' : n ≠ e.op.name := fun h => hne h.symm
        cases hop : e.op with
        | create m =>
          rw [hop] at hne'
          simp only [callOn]
          split
          · rfl
          · exact put_other _ hne' _
        | get m => rfl
        | set m old z =>
          rw [hop] at hne'
          simp only [callOn]
          split
          · rfl
          · split
            · exact put_other _ hne' _
            · rfl
        | delete m =>
          rw [hop] at hne'
          exact put_other _ hne' _
      rcases ho e.id c c1 (by rw [c2]; exact hname) with g | g | ⟨layer, t, ids, g1, g2⟩
      · refine absurd ?_ hsame
        rw [labelsAfter_snoc, ← c2, g]
        simp only [callOn, h1]
      · refine absurd ?_ hsame
        rw [labelsAfter_snoc, ← c2, g]
        rfl
      · rcases g1.setHead_op g2 c1 with g | ⟨k, l0, t0, t1, g3, g4, g5, g6⟩
        · refine absurd ?_ hsame
          rw [labelsAfter_snoc, ← c2, g]
          rfl
        · have hop : e.op = .set n l0 (some layer) := c2.symm.trans g3
          have hw : wins n e = true :=
            wins_of_changes hG hs hop (fun hc => hsame (congrFun hc n))
          have hcur := wins_exact hG hx g4 hs hop hw (by omega)
          rw [h1] at hcur
          cases hcur
          refine ⟨updated l' (some layer), layer, ?_, rfl, htrans _ _ _ h3 (hanc _ _ (g6 y h2))⟩
          obtain ⟨old, z, new, w1, w2⟩ := wins_iff.1 hw
          have ha := hG.answered
          rw [hs, answered_append] at ha
          have hres : e.res = (callOn same (labelsAfter same (A ++ C)) e.op).1 := ha.2.1
          rw [← List.append_assoc, labelsAfter_snoc]
          rw [w2] at hres
          rw [hop] at hres ⊢
          simp only [callOn, h1] at hres ⊢
          by_cases hsm : same l' l' = true
          · simp only [hsm, if_true, put_same]
          · simp only [hsm] at hres
            cases hres

theorem Spec.History.Ancestor.trans {log : History T} {a b c : Nat} (h1 : log.Ancestor a b)
    (h2 : log.Ancestor b c) : log.Ancestor a c := by
  induction h2 with
  | self => exact h1
  | up hp _ ih => exact .up hp ih

theorem not_lost (hG : LinearizedBy same h G) (hx : Exact same G n)
    (hanc : ∀ x y, anc x y (.ok true) → log.Ancestor (code y) (code x))
    (ho : OnlySetHead h anc n) {x : N} {t u : Nat} {ids : List Nat}
    (hp : Performs h anc (NamedGraph.setHead n x) t ids (.ok true) u)
    {i t0 t1 : Nat} {r : Option (LabelData N)}
    (hi : h i = some ⟨.get n, t0, some (.got r, t1)⟩) (hlt : u < t0) :
    ∃ l y, r = some l ∧ l.layer = some y ∧ log.Ancestor (code x) (code y) := by
  obtain ⟨l, ⟨A, e, B, m1, m2, m3, m4, m5, m6, m7⟩, _⟩ := (setHead_performs hG hp).1 rfl hx
  obtain ⟨A', g, B', k1, k2, k3, k4, k5, _⟩ := hG.got hi
  obtain ⟨C, c1, c2⟩ := between hG.sorted m1 k1 (by omega)
  obtain ⟨l', y, q1, q2, q3⟩ := heads_forward hG hx hanc (fun _ _ _ => .trans) ho
    (A := A ++ [e]) (l := ⟨some x, l.version + 1⟩) (x := x) (by rw [m6, put_same]) rfl C (g :: B')
    (by rw [k1, c1]; simp)
  rw [show A ++ [e] ++ C = A' by rw [c1]; simp, k5] at q1
  exact ⟨l', y, q1, q2, q3⟩

end Verif
