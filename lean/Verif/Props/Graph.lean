import Verif.Props.Label

/-!
Properties of named graphs: C33 (`set_head`), C34 (`force_set_head`), C35
(`force_set_head_version`).
-/

namespace Verif

open Spec

set_option linter.unusedSectionVars false

variable {L N K V : Type} [DecidableEq L] [LinearOrder K] [LinearOrder V]

/-! ### C33: `set_head` -/

/-- The answers that the layer store, up to the state `w`, may give about ancestors. `code` is
any numbering of the names of layers. -/
def Asked (safe : Bool) (w : World K V) (code : N → Name) (x y : N) (b : Out Bool) : Prop :=
  ∃ w0, World.Run safe w0 ∧ World.Later safe w0 w ∧ b = w0.store.isAncestor (code x) (code y)

theorem parent_known {T : Type} {g : History T} {n p : Nat} (h : g.parent n = some p) :
    g.known n := by
  induction g with
  | nil => cases h
  | cons e g ih =>
    rw [History.parent] at h
    split at h
    · rename_i he
      exact ⟨e, by simp, he.symm⟩
    · obtain ⟨e', h1, h2⟩ := ih h
      exact ⟨e', by simp [h1], h2⟩

/-- Ancestors stay ancestors. -/
theorem Ancestor.later {safe : Bool} {w0 w : World K V} (h : World.Run safe w0)
    (hl : World.Later safe w0 w) {a d : Name} (ha : w0.log.Ancestor a d) : w.log.Ancestor a d := by
  induction ha with
  | self => exact .self _
  | up hp _ ih => exact .up ((World.C53_parent_fixed h hl (parent_known hp)).2.trans hp) ih

theorem Asked.ancestor {safe : Bool} {w : World K V} {code : N → Name} {x y : N}
    (h : Asked safe w code x y (.ok true)) : w.log.Ancestor (code y) (code x) := by
  obtain ⟨w0, h1, h2, h3⟩ := h
  obtain ⟨b, b1, b2⟩ := World.C29_ancestor_check h1 (code x) (code y)
  rw [b1] at h3
  cases h3
  exact Ancestor.later h1 h2 (b2.1 rfl)

/-- C33, on disk: if `set_head` reports success, one of its calls replaced the head by the new
one, and what was the head just before was empty or an ancestor of the new head; this holds
whatever other callers do meanwhile. If it does not report success it changed nothing. -/
theorem C33_set_head_disk [Inhabited L] {h : LabelHistory L LayerName} (hh : DiskHistory h)
    {safe : Bool} {w : World K V} {code : LayerName → Name} {n : L} {layer : LayerName} {t u : Nat}
    {ids : List Nat} {a : Out Bool}
    (hp : Performs h (Asked safe w code) (NamedGraph.setHead n layer) t ids a u) :
    ∃ G, LinearizedBy sameLabel h G ∧
      (a = .ok true → ∃ l, SetsHead sameLabel G ids t u n layer l ∧
        ∀ r, l.layer = some r → w.log.Ancestor (code r) (code layer)) ∧
      (a ≠ .ok true → NoEffect sameLabel G ids) := by
  obtain ⟨G, hG⟩ := hh.lin
  obtain ⟨h1, h2⟩ := setHead_performs hG hp
  refine ⟨G, hG, ?_, fun ha => noEffect_of_quiet hG (h2 ha)⟩
  intro ha
  obtain ⟨l, g1, g2⟩ := h1 ha (Exact.disk G n)
  exact ⟨l, g1, fun r hr => (g2 r hr).ancestor⟩

/-- C33, in memory, in part: the same if the label is not deleted by anyone. -/
theorem C33_set_head_memory_partial {h : LabelHistory L N} (hh : MemoryHistory h)
    {safe : Bool} {w : World K V} {code : N → Name} {n : L} {layer : N} {t u : Nat}
    {ids : List Nat} {a : Out Bool}
    (hp : Performs h (Asked safe w code) (NamedGraph.setHead n layer) t ids a u)
    (hd : ∀ k c, h k = some c → c.op ≠ .delete n) :
    ∃ G, LinearizedBy sameVersion h G ∧
      (a = .ok true → ∃ l, SetsHead sameVersion G ids t u n layer l ∧
        ∀ r, l.layer = some r → w.log.Ancestor (code r) (code layer)) ∧
      (a ≠ .ok true → NoEffect sameVersion G ids) := by
  obtain ⟨G, hG⟩ := hh.lin
  obtain ⟨h1, h2⟩ := setHead_performs hG hp
  refine ⟨G, hG, ?_, fun ha => noEffect_of_quiet hG (h2 ha)⟩
  intro ha
  obtain ⟨l, g1, g2⟩ := h1 ha (Exact.memory hG hd)
  exact ⟨l, g1, fun r hr => (g2 r hr).ancestor⟩

/-- A numbering of names for examples. -/
def codeOf (n : LayerName) : Name := n.a.val

/-- A label gets the head 100, then `set_head` with 102, while another caller makes and deletes
another label. -/
def forward : List (LabelAct Nat LayerName) :=
  [.call 0 (.create 7), .go 0, .go 0, .go 0, .call 1 (.set 7 ⟨none, 0⟩ (some (nm 100))), .go 1, .go 1,
    .call 2 (.get 7), .call 8 (.create 6), .go 2, .go 8, .go 2, .go 8, .go 8,
    .call 3 (.set 7 ⟨some (nm 100), 1⟩ (some (nm 102))), .go 3, .call 9 (.delete 6), .go 9, .go 3]

example : ∃ (h : LabelHistory Nat LayerName) (w : World Nat Nat), DiskHistory h ∧
    Performs h (Asked false w codeOf) (NamedGraph.setHead 7 (nm 102)) 5 [2, 3] (.ok true) 18 ∧
    ¬ w.log.Ancestor (codeOf (nm 102)) (codeOf (nm 100)) := by
  have hw : ∃ w : World Nat Nat, World.Run false w ∧ w.store.isAncestor 102 100 = .ok true ∧
      w.store.isAncestor 100 102 = .ok false := Witness.reaches_run (cs := Witness.commits) (by decide)
  obtain ⟨w, h1, h2, h3⟩ := hw
  refine ⟨_, w, .directory (DirLabels.exec_run .start forward), ?_, ?_⟩
  · exact .call (t0 := 7) (t1 := 11) (r := .got (some ⟨some (nm 100), 1⟩)) (by rfl) (by decide)
      (.ask (b := .ok true) ⟨w, h1, .now, h2.symm⟩ (Nat.le_refl _)
        (.call (t0 := 14) (t1 := 18) (r := .set (some ⟨some (nm 102), 2⟩)) (by rfl) (by decide) .ret))
  · obtain ⟨b, b1, b2⟩ := World.C29_ancestor_check h1 100 102
    rw [h3] at b1
    cases b1
    intro hc
    cases b2.2 hc

/-- In memory, a label is deleted and made again between the read and the update of the
caller that does calls 6 and 7. -/
def unseen : List (LabelAct Nat Nat) :=
  [.call 0 (.create 7), .go 0, .call 1 (.set 7 ⟨none, 0⟩ (some 7)), .go 1, .call 6 (.get 7), .go 6,
    .call 3 (.delete 7), .go 3, .call 4 (.create 7), .go 4, .call 5 (.set 7 ⟨none, 0⟩ (some 8)),
    .go 5, .call 7 (.set 7 ⟨some 7, 1⟩ (some 9))]

/-- Not C33: in memory, `set_head` to a layer whose only ancestor is 7 succeeds and replaces the
head 8. -/
theorem C33_memory_wrong : ∃ (s s' : Shared (LabelMap Nat Nat) Nat Nat)
    (anc : Nat → Nat → Out Bool → Prop), Shared.Run MemoryLabels.call [] s ∧
      Shared.Step MemoryLabels.call s s' ∧
      s.state.get? 7 = some ⟨some 8, 1⟩ ∧ s'.state.get? 7 = some ⟨some 9, 2⟩ ∧
      Performs s'.calls anc (NamedGraph.setHead 7 9) 3 [6, 7] (.ok true) 13 ∧
      ¬ anc 9 8 (.ok true) :=
  ⟨Shared.exec _ ⟨[], fun _ => none, 0⟩ unseen, _, fun x y b => x = 9 ∧ y = 7 ∧ b = .ok true,
    Shared.exec_run _ .start _, .work (i := 7) rfl rfl, rfl, rfl,
    .call (t0 := 4) (t1 := 5) (r := .got (some ⟨some 7, 1⟩)) rfl (by decide)
      (.ask (b := .ok true) ⟨rfl, rfl, rfl⟩ (Nat.le_refl _)
        (.call (t0 := 12) (t1 := 13) (r := .set (some ⟨some 9, 2⟩)) rfl (by decide) .ret)),
    by simp⟩

example : ∃ (h : LabelHistory Nat Nat) (w : World Nat Nat), MemoryHistory h ∧
    (∀ k c, h k = some c → c.op ≠ .delete 7) ∧
    Performs h (Asked false w id) (NamedGraph.setHead 7 102) 3 [6, 7] (.ok true) 7 := by
  have hw : ∃ w : World Nat Nat, World.Run false w ∧ w.store.isAncestor 102 100 = .ok true :=
    Witness.reaches_run (cs := Witness.commits) (by decide)
  obtain ⟨w, h1, h2⟩ := hw
  refine ⟨_, w, .memory (Shared.exec_run _ .start [.call 0 (.create 7), .go 0,
    .call 1 (.set 7 ⟨none, 0⟩ (some 100)), .go 1, .call 6 (.get 7), .go 6,
    .call 7 (.set 7 ⟨some 100, 1⟩ (some 102)), .go 7]), ?_, ?_⟩
  · intro k c hk hc
    rcases Shared.exec_calls _ _ hk with ⟨_, h3, _⟩ | h3
    · cases h3
    · rw [hc] at h3
      simp at h3
  · exact .call (t0 := 4) (t1 := 5) (r := .got (some ⟨some 100, 1⟩)) (by rfl) (by decide)
      (.ask (b := .ok true) ⟨w, h1, .now, h2.symm⟩ (Nat.le_refl _)
        (.call (t0 := 6) (t1 := 7) (r := .set (some ⟨some 102, 2⟩)) (by rfl) (by decide) .ret))

/-! ### C34: `force_set_head` -/

theorem sameLabel_refl [DecidableEq N] (l : LabelData N) : sameLabel l l = true := by
  simp [sameLabel]

theorem sameVersion_refl (l : LabelData N) : sameVersion l l = true := by
  simp [sameVersion]

theorem force_set_head {same : LabelData N → LabelData N → Bool} (hrefl : ∀ l, same l l = true)
    {h : LabelHistory L N} {G : List (LabelEvent L N)} (hG : LinearizedBy same h G)
    {anc : N → N → Out Bool → Prop} {n : L} (hx : Exact same G n) {layer : N} {fuel t u : Nat}
    {ids : List Nat} {a : Out Unit}
    (hp : Performs h anc (NamedGraph.forceSetHead fuel n layer) t ids a u) :
    (a = .ok () → ∃ l, SetsHead same G ids t u n layer l ∧
      ∃ i ∈ ids, ∃ t0 t1, h i = some ⟨.get n, t0, some (.got (some l), t1)⟩) ∧
    (a ≠ .ok () → NoEffect same G ids) ∧
    ∀ pre i j post op t2 t3, ids = pre ++ i :: j :: post →
      h j = some ⟨op, t2, some (.set none, t3)⟩ →
      ∃ t0 t1 l A x B, h i = some ⟨.get n, t0, some (.got (some l), t1)⟩ ∧ G = A ++ x :: B ∧
        x.id ∉ ids ∧ t0 ≤ x.time ∧ x.time ≤ t3 ∧ labelsAfter same A n = some l ∧
        labelsAfter same (A ++ [x]) n ≠ some l := by
  obtain ⟨h1, h2, h3⟩ := forceSetHead_performs hG hp
  refine ⟨?_, fun ha => noEffect_of_quiet hG (h2 ha), ?_⟩
  · intro ha
    obtain ⟨i, t0, t1, j, t2, t3, l, new, b1, b2, b3, b4, b5, b6, b7, b8, b9⟩ := h1 ha
    exact ⟨l, setsHead_of hG hx b8 b9 b4 b2 b7 (by omega) b5, i, b1, t0, t1, b8⟩
  · intro pre i j post op t2 t3 hids hj
    obtain ⟨t0, t1, l, g1, g2, g3⟩ := h3 pre i j post op t2 t3 hids hj
    subst g2
    obtain ⟨A, e0, B, e1, C, c1, c2, c3, c4, c5, c6, cur, c7, c8⟩ := changed_between hG g1 hj g3
    have hne : stored same (labelsAfter same (A ++ [e0])) B n ≠ some l := by
      rw [Spec.labelsAfter, ← stored_append]
      rw [Spec.labelsAfter, show A ++ e0 :: B = A ++ [e0] ++ B by simp] at c7
      rw [c7]
      intro he
      cases he
      rw [hrefl] at c8
      cases c8
    obtain ⟨B1, x, B2, d1, d2, d3⟩ := exists_change c6 B hne
    rw [Spec.labelsAfter, ← stored_append] at d2 d3
    have hsplit : G = (A ++ [e0] ++ B1) ++ x :: (B2 ++ e1 :: C) := by
      rw [c1, d1]; simp
    have hb := sorted_between hG.sorted (A := A) (e := e0) (C := B) (e' := e1) (B := C) c1
      (d := x) (by rw [d1]; simp)
    refine ⟨t0, t1, l, A ++ [e0] ++ B1, x, B2 ++ e1 :: C, g1, hsplit, ?_, by omega, by omega, d2,
      by rw [Spec.labelsAfter, List.append_assoc]; exact d3⟩
    intro hxid
    have hchange : labelsAfter same (A ++ [e0] ++ B1 ++ [x]) ≠ labelsAfter same (A ++ [e0] ++ B1) := by
      intro he
      apply d3
      rw [← d2]
      have := congrFun he n
      rw [Spec.labelsAfter, List.append_assoc] at this
      exact this
    by_cases ha : a = .ok ()
    · obtain ⟨i', s0, s1, j', s2, s3, l', new, b1, b2, b3, b4, b5, b6, b7, b8, b9⟩ := h1 ha
      by_cases hxj : x.id = j'
      · obtain ⟨_, hord⟩ := forceSetHead_order hG hp
        have h4 := hord j (by rw [hids]; simp) j' b2 _ _ _ _ _ _ _ hj b9
        have hmem : x ∈ G := by rw [hsplit]; simp
        obtain ⟨c, k1, _, k3, _⟩ := hG.sound x hmem
        rw [hxj, b9] at k1
        cases k1
        dsimp only at k3
        omega
      · exact hchange ((b7 x.id hxid hxj).unchanged hG hsplit rfl)
    · exact hchange ((h2 ha x.id hxid).unchanged hG hsplit rfl)

/-- C34, on disk: if `force_set_head` returns success, one of its calls replaced the label by
its next version with the given layer and the others changed nothing; the label that it
replaced had been read by it. If it does not, it changed nothing. It only goes on to another
round if, between its read and its failed update, a call that is not its own changed the
label. -/
theorem C34_force_set_head_disk [Inhabited L] {h : LabelHistory L LayerName} (hh : DiskHistory h)
    {anc : LayerName → LayerName → Out Bool → Prop} {n : L} {layer : LayerName} {fuel t u : Nat}
    {ids : List Nat} {a : Out Unit}
    (hp : Performs h anc (NamedGraph.forceSetHead fuel n layer) t ids a u) :
    ∃ G, LinearizedBy sameLabel h G ∧
      (a = .ok () → ∃ l, SetsHead sameLabel G ids t u n layer l ∧
        ∃ i ∈ ids, ∃ t0 t1, h i = some ⟨.get n, t0, some (.got (some l), t1)⟩) ∧
      (a ≠ .ok () → NoEffect sameLabel G ids) ∧
      ∀ pre i j post op t2 t3, ids = pre ++ i :: j :: post →
        h j = some ⟨op, t2, some (.set none, t3)⟩ →
        ∃ t0 t1 l A x B, h i = some ⟨.get n, t0, some (.got (some l), t1)⟩ ∧ G = A ++ x :: B ∧
          x.id ∉ ids ∧ t0 ≤ x.time ∧ x.time ≤ t3 ∧ labelsAfter sameLabel A n = some l ∧
          labelsAfter sameLabel (A ++ [x]) n ≠ some l := by
  obtain ⟨G, hG⟩ := hh.lin
  exact ⟨G, hG, force_set_head sameLabel_refl hG (Exact.disk G n) hp⟩

/-- C34, in memory, in part: the same if the label is not deleted by anyone. -/
theorem C34_force_set_head_memory_partial {h : LabelHistory L N} (hh : MemoryHistory h)
    {anc : N → N → Out Bool → Prop} {n : L} {layer : N} {fuel t u : Nat}
    {ids : List Nat} {a : Out Unit}
    (hp : Performs h anc (NamedGraph.forceSetHead fuel n layer) t ids a u)
    (hd : ∀ k c, h k = some c → c.op ≠ .delete n) :
    ∃ G, LinearizedBy sameVersion h G ∧
      (a = .ok () → ∃ l, SetsHead sameVersion G ids t u n layer l ∧
        ∃ i ∈ ids, ∃ t0 t1, h i = some ⟨.get n, t0, some (.got (some l), t1)⟩) ∧
      (a ≠ .ok () → NoEffect sameVersion G ids) ∧
      ∀ pre i j post op t2 t3, ids = pre ++ i :: j :: post →
        h j = some ⟨op, t2, some (.set none, t3)⟩ →
        ∃ t0 t1 l A x B, h i = some ⟨.get n, t0, some (.got (some l), t1)⟩ ∧ G = A ++ x :: B ∧
          x.id ∉ ids ∧ t0 ≤ x.time ∧ x.time ≤ t3 ∧ labelsAfter sameVersion A n = some l ∧
          labelsAfter sameVersion (A ++ [x]) n ≠ some l := by
  obtain ⟨G, hG⟩ := hh.lin
  exact ⟨G, hG, force_set_head sameVersion_refl hG (Exact.memory hG hd) hp⟩

/-- Between the first read and the first update of the caller that does the calls 1, 3, 4 and 5,
another caller updates the label. -/
def contended : List (LabelAct Nat LayerName) :=
  [.call 0 (.create 7), .go 0, .go 0, .go 0, .call 1 (.get 7), .go 1, .go 1,
    .call 2 (.set 7 ⟨none, 0⟩ (some (nm 1))), .go 2, .go 2, .call 3 (.set 7 ⟨none, 0⟩ (some (nm 2))),
    .go 3, .go 3, .call 4 (.get 7), .go 4, .go 4, .call 5 (.set 7 ⟨some (nm 1), 1⟩ (some (nm 2))),
    .go 5, .go 5]

example : ∃ h : LabelHistory Nat LayerName, DiskHistory h ∧
    Performs h (fun _ _ _ => True) (NamedGraph.forceSetHead 5 7 (nm 2)) 3 [1, 3, 4, 5] (.ok ()) 18 :=
  ⟨_, .directory (DirLabels.exec_run .start contended),
    .call (t0 := 4) (t1 := 6) (r := .got (some ⟨none, 0⟩)) (by rfl) (by decide)
      (.call (t0 := 10) (t1 := 12) (r := .set none) (by rfl) (by decide)
        (.call (t0 := 13) (t1 := 15) (r := .got (some ⟨some (nm 1), 1⟩)) (by rfl) (by decide)
          (.call (t0 := 16) (t1 := 18) (r := .set (some ⟨some (nm 2), 2⟩)) (by rfl) (by decide)
            .ret)))⟩

/-- Not C34: in memory, `force_set_head` overwrites a label that it has not seen. -/
theorem C34_memory_wrong : ∃ s s' : Shared (LabelMap Nat Nat) Nat Nat,
    Shared.Run MemoryLabels.call [] s ∧ Shared.Step MemoryLabels.call s s' ∧
      s.state.get? 7 = some ⟨some 8, 1⟩ ∧ s'.state.get? 7 = some ⟨some 9, 2⟩ ∧
      Performs s'.calls (fun _ _ _ => True) (NamedGraph.forceSetHead 1 7 9) 3 [6, 7] (.ok ()) 13 ∧
      (s'.calls 6).bind (·.answer) = some (.got (some ⟨some 7, 1⟩), 5) :=
  ⟨Shared.exec _ ⟨[], fun _ => none, 0⟩ unseen, _,
    Shared.exec_run _ .start _, .work (i := 7) rfl rfl, rfl, rfl,
    .call (t0 := 4) (t1 := 5) (r := .got (some ⟨some 7, 1⟩)) rfl (by decide)
        (.call (t0 := 12) (t1 := 13) (r := .set (some ⟨some 9, 2⟩)) rfl (by decide) .ret),
    rfl⟩

/-! ### C35: `force_set_head_version` -/

theorem someTime_before {same : LabelData N → LabelData N → Bool} {G A B : List (LabelEvent L N)}
    {e : LabelEvent L N} (hso : G.Pairwise (fun a b => a.time ≤ b.time)) (hG : G = A ++ e :: B)
    {t u : Nat} (h1 : t ≤ e.time) (h2 : e.time ≤ u) {P : Labels L N → Prop}
    (hP : P (labelsAfter same A)) : SomeTime same G t u P := by
  rw [hG, List.pairwise_append] at hso
  refine ⟨A, e :: B, hG, ?_, ?_, hP⟩
  · intro x hx
    have := hso.2.2 x hx e (by simp)
    omega
  · intro x hx
    rcases List.mem_cons.1 hx with rfl | hx
    · exact h1
    · have := (List.pairwise_cons.1 hso.2.1).1 x hx
      omega

theorem someTime_after {same : LabelData N → LabelData N → Bool} {G A B : List (LabelEvent L N)}
    {e : LabelEvent L N} (hso : G.Pairwise (fun a b => a.time ≤ b.time)) (hG : G = A ++ e :: B)
    {t u : Nat} (h1 : t ≤ e.time) (h2 : e.time ≤ u) {P : Labels L N → Prop}
    (hP : P (labelsAfter same (A ++ [e]))) : SomeTime same G t u P := by
  rw [hG, List.pairwise_append] at hso
  refine ⟨A ++ [e], B, by simp [hG], ?_, ?_, hP⟩
  · intro x hx
    rcases List.mem_append.1 hx with hx | hx
    · have := hso.2.2 x hx e (by simp)
      omega
    · rw [List.mem_singleton] at hx
      rw [hx]
      exact h2
  · intro x hx
    have := (List.pairwise_cons.1 hso.2.1).1 x hx
    omega

theorem force_set_head_version {same : LabelData N → LabelData N → Bool}
    (hv : ∀ a b, same a b = true → a.version = b.version) (hrefl : ∀ l, same l l = true)
    {h : LabelHistory L N} {G : List (LabelEvent L N)} (hG : LinearizedBy same h G)
    {anc : N → N → Out Bool → Prop} {n : L} {layer : N} {version t u : Nat}
    {ids : List Nat} {a : Out Bool}
    (hp : Performs h anc (NamedGraph.forceSetHeadVersion n layer version) t ids a u) :
    (a = .ok true → ∃ l, SetsHead same G ids t u n layer l ∧ l.version = version) ∧
    (a = .ok false → SomeTime same G t u (fun m => ∀ l, m n = some l → l.version ≠ version)) ∧
    (a ≠ .ok true → NoEffect same G ids) := by
  rcases forceSetHeadVersion_performs hp with
    ⟨rfl, i, t0, t1, j, t2, t3, l, new, rfl, b1, b2, b3, b4, b5, b6⟩ |
    ⟨rfl, hq, hc⟩ | ⟨rfl, hq⟩
  · refine ⟨fun _ => ?_, (fun hc => by cases hc), (fun hc => absurd rfl hc)⟩
    obtain ⟨A, e, B, cur, g1, g2, g3, g4, g5, g6, _, g7⟩ := hG.updated b6
    obtain ⟨_, _, _, _, _, f1, f2, _⟩ := hG.got b5
    refine ⟨cur, ⟨A, e, B, g1, by simp [g2], by omega, by omega, g5, ?_, ?_⟩, ?_⟩
    · rw [g7, hv _ _ g6]
    · intro A' e' B' hs hid hne
      rw [g2] at hne
      have hid' : e'.id = i := by
        rcases List.mem_cons.1 hid with hid | hid
        · exact hid
        · exact absurd (List.mem_singleton.1 hid) hne
      exact (quiet_get b5).unchanged hG hs hid'
    · rw [hv _ _ g6, b4]
  · refine ⟨(fun hc => by cases hc), fun _ => ?_, fun _ => noEffect_of_quiet hG hq⟩
    rcases hc with ⟨i, t0, t1, l, b1, b2, b3, b4⟩ | ⟨i, t0, t1, j, t2, t3, l, b1, b2, b3, b4, b5, b6⟩
    · obtain ⟨A, e, B, f0, _, f1, f2, f3, f4⟩ := hG.got b4
      refine someTime_before hG.sorted f0 (by omega) (by omega) ?_
      intro l' hl'
      rw [f3] at hl'
      cases hl'
      exact b3
    · obtain ⟨A, e0, B, e1, C, c1, c2, c3, c4, c5, c6, cur, c7, c8⟩ := changed_between hG b5 b6 b2
      by_cases hcv : cur.version = version
      · have hno : ∃ d ∈ B, d.op = .delete n := by
          apply Classical.byContradiction
          intro hno
          have hB : ∀ d ∈ B, d.op ≠ .delete n := fun d hd he => hno ⟨d, hd, he⟩
          obtain ⟨l', g1, g2, g3⟩ := version_grows hv c6 B hB
          rw [Spec.labelsAfter, show A ++ e0 :: B = A ++ [e0] ++ B by simp, stored_append] at c7
          rw [Spec.labelsAfter] at g1
          rw [g1] at c7
          cases c7
          rw [(g3 (by rw [hcv, b4])).1, hrefl] at c8
          cases c8
        obtain ⟨d, hd, hdo⟩ := hno
        obtain ⟨B1, B2, hB⟩ := List.append_of_mem hd
        have hb := sorted_between hG.sorted (A := A) (e := e0) (C := B) (e' := e1) (B := C) c1 hd
        refine someTime_after (A := A ++ e0 :: B1) (e := d) (B := B2 ++ e1 :: C) hG.sorted
          (by rw [c1, hB]; simp) (by omega) (by omega) ?_
        intro l' hl'
        rw [Spec.labelsAfter, stored_append] at hl'
        simp [stored, hdo, callOn, put_same] at hl'
      · have hb : e0.time ≤ e1.time := by
          have hso := hG.sorted
          rw [c1, List.pairwise_append] at hso
          exact hso.2.2 e0 (by simp) e1 (by simp)
        refine someTime_before (A := A ++ e0 :: B) (e := e1) (B := C) hG.sorted c1 (by omega)
          (by omega) ?_
        intro l' hl'
        rw [c7] at hl'
        cases hl'
        exact hcv
  · exact ⟨(fun hc => by cases hc), (fun hc => by cases hc), fun _ => noEffect_of_quiet hG hq⟩

/-- C35, on disk: `force_set_head_version` reports success iff one of its calls found the
label at the given version and replaced it by the next version with the given layer. If it
reports `false` then at some moment during the call the label was not at that version (or not
there). Whenever it does not report success it changed nothing. -/
theorem C35_force_set_head_version_disk [Inhabited L] {h : LabelHistory L LayerName}
    (hh : DiskHistory h) {anc : LayerName → LayerName → Out Bool → Prop} {n : L} {layer : LayerName}
    {version t u : Nat} {ids : List Nat} {a : Out Bool}
    (hp : Performs h anc (NamedGraph.forceSetHeadVersion n layer version) t ids a u) :
    ∃ G, LinearizedBy sameLabel h G ∧
      (a = .ok true → ∃ l, SetsHead sameLabel G ids t u n layer l ∧ l.version = version) ∧
      (a = .ok false → SomeTime sameLabel G t u (fun m => ∀ l, m n = some l → l.version ≠ version)) ∧
      (a ≠ .ok true → NoEffect sameLabel G ids) := by
  obtain ⟨G, hG⟩ := hh.lin
  exact ⟨G, hG, force_set_head_version sameLabel_version sameLabel_refl hG hp⟩

/-- C35: the same in memory. -/
theorem C35_force_set_head_version_memory {h : LabelHistory L N}
    (hh : MemoryHistory h) {anc : N → N → Out Bool → Prop} {n : L} {layer : N}
    {version t u : Nat} {ids : List Nat} {a : Out Bool}
    (hp : Performs h anc (NamedGraph.forceSetHeadVersion n layer version) t ids a u) :
    ∃ G, LinearizedBy sameVersion h G ∧
      (a = .ok true → ∃ l, SetsHead sameVersion G ids t u n layer l ∧ l.version = version) ∧
      (a = .ok false → SomeTime sameVersion G t u (fun m => ∀ l, m n = some l → l.version ≠ version)) ∧
      (a ≠ .ok true → NoEffect sameVersion G ids) := by
  obtain ⟨G, hG⟩ := hh.lin
  exact ⟨G, hG, force_set_head_version sameVersion_version sameVersion_refl hG hp⟩

/-- The first two calls fail because another caller was faster, the last two succeed. -/
example : ∃ h : LabelHistory Nat LayerName, DiskHistory h ∧
    Performs h (fun _ _ _ => True) (NamedGraph.forceSetHeadVersion 7 (nm 2) 0) 3 [1, 3] (.ok false) 12 ∧
    Performs h (fun _ _ _ => True) (NamedGraph.forceSetHeadVersion 7 (nm 2) 1) 12 [4, 5] (.ok true) 18 :=
  ⟨_, .directory (DirLabels.exec_run .start contended),
    .call (t0 := 4) (t1 := 6) (r := .got (some ⟨none, 0⟩)) (by rfl) (by decide)
      (.call (t0 := 10) (t1 := 12) (r := .set none) (by rfl) (by decide) .ret),
    .call (t0 := 13) (t1 := 15) (r := .got (some ⟨some (nm 1), 1⟩)) (by rfl) (by decide)
      (.call (t0 := 16) (t1 := 18) (r := .set (some ⟨some (nm 2), 2⟩)) (by rfl) (by decide) .ret)⟩

/-- In memory the update succeeds although the label is another one, of the same version. -/
example : ∃ h : LabelHistory Nat Nat, MemoryHistory h ∧
    Performs h (fun _ _ _ => True) (NamedGraph.forceSetHeadVersion 7 9 1) 3 [6, 7] (.ok true) 13 :=
  ⟨_, .memory (Shared.exec_run _ .start (unseen ++ [.go 7])),
    .call (t0 := 4) (t1 := 5) (r := .got (some ⟨some 7, 1⟩)) (by rfl) (by decide)
        (.call (t0 := 12) (t1 := 13) (r := .set (some ⟨some 9, 2⟩)) (by rfl) (by decide) .ret)⟩

end Verif
