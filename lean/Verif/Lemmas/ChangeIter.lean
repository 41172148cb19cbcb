import Verif.ChangesSpec
import Verif.Lemmas.Getters

/-!
The change iterators in the executions of the store.
-/

set_option linter.unusedSectionVars false
set_option linter.unusedVariables false

namespace Verif

open SimpleBuilder Spec

variable {K V : Type} [LinearOrder K] [LinearOrder V]

namespace Store

theorem pairwise_strict {cs : List (TripleChange × Triple)} (h : cs.Pairwise (fun a b => a.2 ≤ b.2))
    (hc : ∀ u, cs.count (.addition, u) + cs.count (.removal, u) ≤ 1) :
    cs.Pairwise (fun a b => a.2 < b.2) := by
  induction cs with
  | nil => exact .nil
  | cons q cs ih =>
    obtain ⟨h1, h2⟩ := List.pairwise_cons.1 h
    refine List.pairwise_cons.2 ⟨?_, ih h2 (fun u => ?_)⟩
    · intro b hb
      refine lt_of_le_of_ne (h1 b hb) ?_
      intro he
      have := hc b.2
      obtain ⟨c, t⟩ := q
      obtain ⟨c', t'⟩ := b
      simp only at he this
      subst he
      have hpos : 0 < cs.count (c', t) := List.count_pos_iff.2 hb
      cases c <;> cases c' <;> simp only [List.count_cons, beq_self_eq_true, if_true] at this <;> omega
    · have := hc u
      simp only [List.count_cons] at this
      omega

/-- The changes between a stack and one further down. -/
theorem fromParts_net {T R : List (LayerData K V)} {Qs Ms : List (List Triple)}
    (h : StackOk (T ++ R) Qs Ms) :
    ∃ A B cs, Stack.triples (T ++ R) = some A ∧ Stack.triples R = some B ∧
      (fromParts (T.map parts)).changes subjOps (partsFuel (T.map parts)) = some cs ∧
      NetChanges A B cs := by
  obtain ⟨PT, NT, Ps, Ns, rfl, rfl, hrT, hR⟩ := h.split
  obtain ⟨cs, h1, h2, h3⟩ := fromParts_changes hrT
  obtain ⟨A, a1, _, a3⟩ := h.rep.triples h.wf
  obtain ⟨B, b1, _, b3⟩ := hR.rep.triples hR.wf
  have key := fun t => net_count (t := t) (Ps := Ps) (Ns := Ns) hrT.length_eq
    (fun P hP => (hrT.sortedP P hP).nodup) (fun P hP => (hrT.sortedN P hP).nodup) (h.wf t)
  refine ⟨A, B, cs, a1, b1, h1, pairwise_strict h3 ?_, ?_, ?_⟩
  · intro u
    rw [(h2 u).1, (h2 u).2]
    rcases key u with ⟨i1, _⟩ | ⟨i1, _⟩ | ⟨i1, _⟩ <;> omega
  · intro t
    rw [← List.count_pos_iff, (h2 t).1, a3, b3]
    rcases key t with ⟨i1, i2⟩ | ⟨i1, i2, i3⟩ | ⟨i1, i2, i3⟩
    · rw [i2]; constructor
      · omega
      · intro hh; exact absurd hh.1 hh.2
    · constructor
      · intro _; exact ⟨i3, i2⟩
      · omega
    · constructor
      · omega
      · intro hh; exact absurd hh.1 i3
  · intro t
    rw [← List.count_pos_iff, (h2 t).2, a3, b3]
    rcases key t with ⟨i1, i2⟩ | ⟨i1, i2, i3⟩ | ⟨i1, i2, i3⟩
    · rw [i2]; constructor
      · omega
      · intro hh; exact absurd hh.2 hh.1
    · constructor
      · omega
      · intro hh; exact absurd i3 hh.1
    · constructor
      · intro _; exact ⟨i3, i2⟩
      · omega

theorem stackRep_replicate {d : LayerData K V} {P N : List Triple} (h1 : Stored d.pos P)
    (h2 : NegStored d.neg N) : ∀ k, StackRep (List.replicate k d) (List.replicate k P)
      (List.replicate k N)
  | 0 => .nil
  | k + 1 => .cons h1 h2 (stackRep_replicate h1 h2 k)

theorem count_replicate {P : List Triple} (u : Triple) : ∀ k,
    (List.replicate k P).flatten.count u = k * P.count u
  | 0 => by simp
  | k + 1 => by
    rw [List.replicate_succ, List.flatten_cons, List.count_append, count_replicate u k,
      Nat.add_mul]
    omega

end Store

namespace World

open Store

/-- What a task sees while it goes on: moments of the past and the present, in order. -/
def Watches (w : World K V) (v : Nat → View K V) : Prop :=
  ∃ i : Nat → Nat, (∀ t, w.seen[i t]? = some (v t)) ∧ ∀ t, i (t + 1) ≤ i t

/-- The same without a cache. -/
def WatchesFiles (w : World K V) (v : Nat → View K V) : Prop :=
  ∃ u, w.Watches u ∧ ∀ t, v t = ⟨(u t).store, noCache⟩

theorem Watches.mem {w : World K V} {v : Nat → View K V} (h : w.Watches v) (t : Nat) :
    v t ∈ w.seen := by
  obtain ⟨i, h1, _⟩ := h
  exact List.mem_of_getElem? (h1 t)

theorem Watches.mono {w : World K V} {v : Nat → View K V} (h : w.Watches v) (hi : Inv w) (t : Nat) :
    Ext (v t).store (v (t + 1)).store := by
  obtain ⟨i, h1, h2⟩ := h
  exact pairwise_get hi.order (fun a => Ext.refl _) (h2 t) (h1 (t + 1)) (h1 t)

theorem Watches.shows {w : World K V} {v : Nat → View K V} (h : w.Watches v) (hr : Run true w)
    (hf : w.log.noRollupOfRollup) (t : Nat) : Shows w.store (v t) where
  ext := (hr.inv.seen _ (h.mem t)).2.2.1
  cache := (hr.inv.seen _ (h.mem t)).2.1
  parent n e he := View.parentName_eq (hr.inv.seen _ (h.mem t)).2.1
    ((hr.named hf).seen _ (h.mem t)) he

theorem CacheOk.noCache (st : Store K V) : CacheOk st Store.noCache := fun n l h => by cases h

theorem WatchesFiles.shows {w : World K V} {v : Nat → View K V} (h : w.WatchesFiles v)
    (hr : Run true w) (t : Nat) : Shows w.store (v t) := by
  obtain ⟨u, h1, h2⟩ := h
  rw [h2]
  exact ⟨(hr.inv.seen _ (h1.mem t)).2.2.1, CacheOk.noCache _, fun n e he =>
    View.parentName_eq (CacheOk.noCache _) (fun m l h => by cases h) he⟩

theorem WatchesFiles.mono {w : World K V} {v : Nat → View K V} (h : w.WatchesFiles v) (hi : Inv w)
    (t : Nat) : Ext (v t).store (v (t + 1)).store := by
  obtain ⟨u, h1, h2⟩ := h
  rw [h2, h2]
  exact h1.mono hi t

theorem WatchesFiles.ok {w : World K V} {v : Nat → View K V} (h : w.WatchesFiles v) (hi : Inv w)
    (t : Nat) : Ok (v t).store := by
  obtain ⟨u, h1, h2⟩ := h
  rw [h2]
  exact (hi.seen _ (h1.mem t)).1

/-- `layer_changes_upto`, for views that show the store. -/
theorem changesUpto_spec {w : World K V} (hr : Run true w) {v : Nat → View K V}
    (hv : ∀ t, Shows w.store (v t)) (hok : ∀ t, Ok (v t).store)
    (hm : ∀ t, Ext (v t).store (v (t + 1)).store) {n upto : Name} {f : Nat}
    (hn : (v 0).store.has n = true) (hf : w.store.length < f)
    {l lu : InternalLayer K V} (hl : (n, l) ∈ w.held) (hlu : (upto, lu) ∈ w.held) :
    (w.log.Ancestor upto n → ∃ A B cs, Stack.triples l.stack = some A ∧
      Stack.triples lu.stack = some B ∧ layerChangesUpto v f n upto = .ok cs ∧
      NetChanges A B cs) ∧
    (¬ w.log.Ancestor upto n → layerChangesUpto v f n upto = .err) := by
  obtain ⟨S, s1, s2, _⟩ := (hr.inv.held _ hl).2
  obtain ⟨R', r1, r2, _⟩ := (hr.inv.held _ hlu).2
  obtain ⟨e, he⟩ := s1.get
  obtain ⟨S', g1, _, g3⟩ := hr.inv.ok.raw he
  cases s1.unique g1
  obtain ⟨i1, i2⟩ := changesUptoLoop_eq hr.inv.ok hr.shape.parent hv hok hm f 0 n (upto := upto) s1
    hn (by omega)
  constructor
  · intro ha
    obtain ⟨T, R, rfl, k2, k3⟩ := i1 ha
    cases k2.unique r1
    obtain ⟨Qs, Ms, hg⟩ := s2.good.1
    obtain ⟨A, B, cs, a1, a2, a3, a4⟩ := fromParts_net hg
    refine ⟨A, B, cs, s2.answers.triples.symm.trans a1, r2.answers.triples.symm.trans a2, ?_, a4⟩
    unfold layerChangesUpto
    rw [k3, Out.ok_bind, a3]
    rfl
  · intro ha
    unfold layerChangesUpto
    rw [i2 ha]
    rfl

/-- `layer_changes`, for views that show the store: the changes of the layer itself, each as often
as the stack has layers. -/
theorem layerChanges_spec {w : World K V} (hr : Run true w) {v : Nat → View K V}
    (hv : ∀ t, Shows w.store (v t)) (hok : ∀ t, Ok (v t).store)
    (hm : ∀ t, Ext (v t).store (v (t + 1)).store) {n : Name} {f : Nat}
    (hn : (v 0).store.has n = true) (hf : w.store.length ≤ f) :
    ∃ S d R cs P N, Raw w.store n S ∧ S = d :: R ∧ Reachable S ∧
      layerChanges v f n = .ok cs ∧ d.pos.triples = some P ∧ Stack.removals d = some N ∧
      cs.Pairwise (fun a b => a.2 ≤ b.2) ∧
      (∀ t, cs.count (.addition, t) = S.length * P.count t - S.length * N.count t) ∧
      ∀ t, cs.count (.removal, t) = S.length * N.count t - S.length * P.count t := by
  obtain ⟨e, he⟩ := has_iff.1 (has_mono (hv 0).ext hn)
  obtain ⟨S, s1, s2, s3⟩ := hr.inv.ok.raw he
  have hw := changesLoop_eq hr.inv.ok hv hok hm he f 0 n s1 hn hn (by omega)
  have hS : ∃ R, S = e.data :: R := by
    rcases hr.inv.ok.cases he s1 with ⟨_, rfl⟩ | ⟨p, R, _, _, rfl⟩
    · exact ⟨[], rfl⟩
    · exact ⟨R, rfl⟩
  obtain ⟨R, rfl⟩ := hS
  obtain ⟨Ps, Ns, hg⟩ := s2.good
  cases hg.rep with
  | @cons _ _ P N _ _ h1 h2 h3 =>
    obtain ⟨cs, c1, c2, c3⟩ := fromParts_changes
      (stackRep_replicate h1 h2 (e.data :: R).length)
    rw [List.map_replicate] at c1
    refine ⟨_, _, _, cs, P, N, s1, rfl, s2, ?_, h1.triples, ?_, c3, ?_, ?_⟩
    · unfold layerChanges
      rw [hw, Out.ok_bind, c1]
      rfl
    · unfold Stack.removals Stack.onRemovals
      cases hd : e.data.neg with
      | none => rw [hd] at h2; simp only [NegStored] at h2; subst h2; rfl
      | some x => rw [hd] at h2; exact Stored.triples h2
    · intro t
      rw [(c2 t).1, count_replicate, count_replicate]
    · intro t
      rw [(c2 t).2, count_replicate, count_replicate]

end World

end Verif
