import Verif.Model.Reach
import Verif.Model.Resolve
import Verif.Lemmas.Commit

/-!
Commits on stacks that satisfy the invariant, and the dictionary lookups of such stacks.
-/

set_option linter.unusedSectionVars false
set_option linter.unusedVariables false

namespace Verif

open SimpleBuilder

variable {K V : Type} [LinearOrder K] [LinearOrder V]

/-- What the calls ask to add. -/
def Adds (S : List (LayerData K V)) (ops : List (Op K V)) (g : GTriple K V) : Prop :=
  ∃ op ∈ ops, Op.adds S op g

/-- What the calls ask to remove. -/
def Removes (S : List (LayerData K V)) (ops : List (Op K V)) (g : GTriple K V) : Prop :=
  ∃ op ∈ ops, Op.removes S op g

theorem IdsKnown.valid {S : List (LayerData K V)} {op : Op K V} (h : IdsKnown S op) :
    Op.Valid S op := by
  cases op <;> exact h

theorem commits_exist {S : List (LayerData K V)} {Ps Ns : List (List Triple)}
    (hS : StackOk S Ps Ns) {ops : List (Op K V)} (hv : ∀ op ∈ ops, IdsKnown S op) :
    ∃ b, (SimpleBuilder.new S).run ops = some b ∧
      BldInv S b (Adds S ops) (Removes S ops) := by
  obtain ⟨b, h1, h2⟩ := BldInv.run hS (BldInv.new hS) (fun op ho => (hv op ho).valid)
  refine ⟨b, h1, h2.congr ?_ ?_⟩
  · intro g; simp [Adds]
  · intro g; simp [Removes]

theorem commits_committed {S : List (LayerData K V)} {Ps Ns : List (List Triple)}
    (hS : StackOk S Ps Ns) {ops : List (Op K V)} (hv : ∀ op ∈ ops, IdsKnown S op)
    {d : LayerData K V} (hd : Commits S ops d) :
    ∃ P N, Committed S Ps Ns (Adds S ops) (Removes S ops) d P N := by
  obtain ⟨b, nv, pm, h1, h2, h3, h4⟩ := hd
  obtain ⟨b', h5, h6⟩ := commits_exist hS hv
  rw [h1] at h5
  simp only [Option.some.injEq] at h5
  subst h5
  obtain ⟨d', P, N, h7, h8⟩ := h6.commit hS h2 h3
  rw [h4] at h7
  simp only [Option.some.injEq] at h7
  subst h7
  exact ⟨P, N, h8⟩

section Values
variable {S : List (LayerData K V)} {Ps Ns : List (List Triple)}

/-- Every entry has an id or is known to be absent. -/
theorem objectId_total (hS : StackOk S Ps Ns) (o : Obj K V) : ∃ r, Stack.objectId S o = some r := by
  rw [objectId_eq hS.counts]
  rcases lvId_total hS.nv o with ⟨i, q, _⟩ | ⟨q, _⟩
  · exact ⟨_, q⟩
  · exact ⟨_, q⟩

theorem predId_total (hS : StackOk S Ps Ns) (p : K) : ∃ r, Stack.predId S p = some r := by
  rw [predId_eq hS.counts]
  rcases lvId_total hS.pr p with ⟨i, q, _⟩ | ⟨q, _⟩
  · exact ⟨_, q⟩
  · exact ⟨_, q⟩

theorem valueTripleToId_spec (hS : StackOk S Ps Ns) (t : VTriple K V) :
    ∃ r, Stack.valueTripleToId S t = some r ∧ ∀ u, r = some u ↔ Res S t.toG u := by
  obtain ⟨s, hs⟩ := objectId_total hS (.node t.s)
  obtain ⟨p, hp⟩ := predId_total hS t.p
  obtain ⟨o, ho⟩ := objectId_total hS t.o
  have hs' : Stack.nodeId S t.s = some s := hs
  unfold Stack.valueTripleToId Res
  simp only [hs', hp, ho, VTriple.toG, Option.bind_eq_bind, Option.bind_some, hs]
  cases s with
  | none => exact ⟨none, rfl, by simp⟩
  | some s =>
    cases p with
    | none => exact ⟨none, rfl, by simp⟩
    | some p =>
      cases o with
      | none => exact ⟨none, rfl, by simp⟩
      | some o =>
        refine ⟨some ⟨s, p, o⟩, rfl, ?_⟩
        intro u
        simp only [Option.some.injEq, Triple.eq_iff]

theorem valueTripleExists_spec (hS : StackOk S Ps Ns) (t : VTriple K V) :
    ∃ b, Stack.valueTripleExists S t = some b ∧ (b = true ↔ content S t.toG) := by
  obtain ⟨r, h1, h2⟩ := valueTripleToId_spec hS t
  unfold Stack.valueTripleExists
  simp only [h1, Option.bind_eq_bind, Option.bind_some]
  cases r with
  | none =>
    refine ⟨false, rfl, ?_⟩
    simp only [Bool.false_eq_true, false_iff]
    rintro ⟨u, hu, _⟩
    exact absurd ((h2 u).2 hu) (by simp)
  | some u =>
    have hu := (h2 u).1 rfl
    obtain ⟨b, hb1, hb2⟩ := hS.exists_total u
    refine ⟨b, hb1, ?_⟩
    unfold content
    constructor
    · intro h; subst h; exact ⟨u, hu, hb1⟩
    · rintro ⟨u', hu', he⟩
      rw [Res.unique hu' hu, hb1] at he
      simpa using he

theorem valueTripleExists_iff (hS : StackOk S Ps Ns) (t : VTriple K V) :
    Stack.valueTripleExists S t = some true ↔ content S t.toG := by
  obtain ⟨b, h1, h2⟩ := valueTripleExists_spec hS t
  rw [h1, ← h2]; simp

theorem lvGet_res {α : Type} [DecidableEq α] {L : List (List α × IdMap)} (hL : LvOk L) (i : Nat)
    (hi : 1 ≤ i) : ∃ r, lvGet L i = some r ∧ ∀ a, r = some a ↔ lvId L a = some (some i) := by
  rcases lvGet_total hL i hi with ⟨a, q1, _, q3⟩ | ⟨q1, _⟩
  · refine ⟨some a, q1, ?_⟩
    intro b
    rw [lv_iff hL (by omega), q1]
    simp only [Option.some.injEq]
  · refine ⟨none, q1, ?_⟩
    intro b
    rw [lv_iff hL (by omega), q1]
    simp

theorem idObject_spec (hS : StackOk S Ps Ns) (i : Nat) :
    ∃ r, Stack.idObject S i = some r ∧ ∀ o, r = some o ↔ Stack.objectId S o = some (some i) := by
  simp only [objectId_eq hS.counts]
  by_cases hi : i = 0
  · subst hi
    refine ⟨none, rfl, ?_⟩
    intro o
    simp only [reduceCtorEq, false_iff]
    intro h
    have := lvId_range hS.nv h
    omega
  · rw [idObject_eq hS.counts (by omega)]
    exact lvGet_res hS.nv i (by omega)

theorem idSubject_spec (hS : StackOk S Ps Ns) (i : Nat) :
    ∃ r, Stack.idSubject S i = some r ∧ ∀ k, r = some k ↔ Stack.nodeId S k = some (some i) := by
  have hn : ∀ k, Stack.nodeId S k = lvId (nvLevels S) (.node k) :=
    fun k => objectId_eq hS.counts (.node k)
  simp only [hn]
  by_cases hi : i = 0
  · subst hi
    refine ⟨none, rfl, ?_⟩
    intro o
    simp only [reduceCtorEq, false_iff]
    intro h
    have := lvId_range hS.nv h
    omega
  · rw [idSubject_eq hS.counts (by omega)]
    obtain ⟨r, h1, h2⟩ := lvGet_res hS.nv i (by omega)
    rw [h1]
    refine ⟨_, rfl, ?_⟩
    intro k
    rw [← h2]
    cases r with
    | none => simp
    | some o => cases o <;> simp

theorem idPredicate_spec (hS : StackOk S Ps Ns) (i : Nat) :
    ∃ r, Stack.idPredicate S i = some r ∧ ∀ k, r = some k ↔ Stack.predId S k = some (some i) := by
  simp only [predId_eq hS.counts]
  by_cases hi : i = 0
  · subst hi
    refine ⟨none, rfl, ?_⟩
    intro o
    simp only [reduceCtorEq, false_iff]
    intro h
    have := lvId_range hS.pr h
    omega
  · rw [idPredicate_eq hS.counts (by omega)]
    exact lvGet_res hS.pr i (by omega)

theorem idTripleToString_spec (hS : StackOk S Ps Ns) (u : Triple) :
    ∃ r, Stack.idTripleToString S u = some r ∧ ∀ t, r = some t ↔ Res S t.toG u := by
  obtain ⟨s, hs, hs'⟩ := idSubject_spec hS u.s
  obtain ⟨p, hp, hp'⟩ := idPredicate_spec hS u.p
  obtain ⟨o, ho, ho'⟩ := idObject_spec hS u.o
  have key : ∀ t : VTriple K V, Res S t.toG u ↔ s = some t.s ∧ p = some t.p ∧ o = some t.o := by
    intro t
    rw [hs', hp', ho']
    rfl
  simp only [key]
  unfold Stack.idTripleToString
  simp only [hs, hp, ho, Option.bind_eq_bind, Option.bind_some]
  cases s with
  | none => exact ⟨none, rfl, by simp⟩
  | some s =>
    cases p with
    | none => exact ⟨none, rfl, by simp⟩
    | some p =>
      cases o with
      | none => exact ⟨none, rfl, by simp⟩
      | some o =>
        refine ⟨some ⟨s, p, o⟩, rfl, ?_⟩
        rintro ⟨ts, tp, to'⟩
        simp

end Values

end Verif
