import Verif.Answers
import Verif.Lemmas.Alike

/-!
Alike stacks give the same answers to all queries.
-/

set_option linter.unusedSectionVars false
set_option linter.unusedVariables false

namespace Verif

variable {K V : Type} [LinearOrder K] [LinearOrder V]

theorem eq_of_mem_iff {α : Type} {a b : Option (Option α)} {P Q : α → Prop} {x y : Option α}
    (ha : a = some x) (hb : b = some y) (hx : ∀ k, x = some k ↔ P k) (hy : ∀ k, y = some k ↔ Q k)
    (h : ∀ k, P k ↔ Q k) : a = b := by
  rw [ha, hb]
  congr 1
  cases x with
  | none =>
    cases y with
    | none => rfl
    | some k => exact absurd ((hx k).2 ((h k).2 ((hy k).1 rfl))) (by simp)
  | some k => exact ((hy k).2 ((h k).1 ((hx k).1 rfl))).symm

/-- All nodes of a stack. -/
def allNodes (S : List (LayerData K V)) : List K := S.flatMap (·.nodes)
/-- All values of a stack. -/
def allValues (S : List (LayerData K V)) : List V := S.flatMap (·.values)
/-- All predicates of a stack. -/
def allPreds (S : List (LayerData K V)) : List K := S.flatMap (·.preds)

theorem allCounts_eq (S : List (LayerData K V)) :
    Stack.allCounts S = ((allNodes S).length, (allPreds S).length, (allValues S).length) := by
  induction S with
  | nil => rfl
  | cons d S ih =>
    simp only [Stack.allCounts, ih, allNodes, allPreds, allValues, List.flatMap_cons,
      List.length_append]

theorem StackOk.all_nodup : ∀ {S : List (LayerData K V)} {Ps Ns : List (List Triple)},
    StackOk S Ps Ns → (allNodes S).Nodup ∧ (allPreds S).Nodup ∧ (allValues S).Nodup
  | [], _, _, _ => by simp [allNodes, allPreds, allValues]
  | d :: S, _, _, h => by
    obtain ⟨P, N, Ps', Ns', e1, e2, h0, g1, g2, g3, g4, g5, g6, g7, g8, g9, g10, g11, g12⟩ :=
      h.uncons
    obtain ⟨i1, i2, i3⟩ := StackOk.all_nodup h0
    refine ⟨?_, ?_, ?_⟩
    · simp only [allNodes, List.flatMap_cons]
      refine List.nodup_append.2 ⟨g6.1.nodup, i1, ?_⟩
      rintro a ha b hb rfl
      obtain ⟨e, he, hae⟩ := List.mem_flatMap.1 hb
      exact g7 a ha e he hae
    · simp only [allPreds, List.flatMap_cons]
      refine List.nodup_append.2 ⟨g6.2.1.nodup, i2, ?_⟩
      rintro a ha b hb rfl
      obtain ⟨e, he, hae⟩ := List.mem_flatMap.1 hb
      exact g9 a ha e he hae
    · simp only [allValues, List.flatMap_cons]
      refine List.nodup_append.2 ⟨g6.2.2.nodup, i3, ?_⟩
      rintro a ha b hb rfl
      obtain ⟨e, he, hae⟩ := List.mem_flatMap.1 hb
      exact g8 a ha e he hae

theorem length_eq_of_mem {α : Type} {l l' : List α} (h : l.Nodup) (h' : l'.Nodup)
    (hm : ∀ a, a ∉ l ↔ a ∉ l') : l.length = l'.length :=
  List.Perm.length_eq ((List.perm_ext_iff_of_nodup h h').2 (fun a => not_iff_not.1 (hm a)))

theorem Same.allCounts {A B : List (LayerData K V)} {Ps Ns Qs Ms : List (List Triple)}
    (h : Same A B) (hA : StackOk A Ps Ns) (hB : StackOk B Qs Ms) :
    Stack.allCounts A = Stack.allCounts B := by
  obtain ⟨a1, a2, a3⟩ := hA.all_nodup
  obtain ⟨b1, b2, b3⟩ := hB.all_nodup
  rw [allCounts_eq, allCounts_eq, length_eq_of_mem a1 b1, length_eq_of_mem a2 b2,
    length_eq_of_mem a3 b3]
  · intro k
    have := (value_mem_iff hA k).symm.trans ((h.nv (.value k)) ▸ value_mem_iff hB k)
    simpa [allValues] using this
  · intro k
    have := (pred_mem_iff hA k).symm.trans ((h.pr k) ▸ pred_mem_iff hB k)
    simpa [allPreds] using this
  · intro k
    have := (node_mem_iff hA k).symm.trans ((h.nv (.node k)) ▸ node_mem_iff hB k)
    simpa [allNodes] using this

theorem eq_of_spec {a b : Option (List Triple)} {P Q : Triple → Prop}
    (ha : ∃ l, a = some l ∧ SortedLt l ∧ ∀ t, t ∈ l ↔ P t)
    (hb : ∃ l, b = some l ∧ SortedLt l ∧ ∀ t, t ∈ l ↔ Q t) (h : ∀ t, P t ↔ Q t) : a = b := by
  obtain ⟨l, h1, h2, h3⟩ := ha
  obtain ⟨l', g1, g2, g3⟩ := hb
  rw [h1, g1, SortedLt.ext h2 g2 (fun t => by rw [h3, g3, h])]

theorem Same.answers {A B : List (LayerData K V)} (h : Same A B) (hA : StackGood A)
    (hB : StackGood B) : SameAnswers A B := by
  obtain ⟨Ps, Ns, hA⟩ := hA
  obtain ⟨Qs, Ms, hB⟩ := hB
  have hp := h.present hA hB
  have hobj : ∀ i, Stack.idObject A i = Stack.idObject B i := by
    intro i
    obtain ⟨x, x1, x2⟩ := idObject_spec hA i
    obtain ⟨y, y1, y2⟩ := idObject_spec hB i
    exact eq_of_mem_iff x1 y1 x2 y2 (fun o => by rw [h.nv])
  have hsub : ∀ i, Stack.idSubject A i = Stack.idSubject B i := by
    intro i
    obtain ⟨x, x1, x2⟩ := idSubject_spec hA i
    obtain ⟨y, y1, y2⟩ := idSubject_spec hB i
    exact eq_of_mem_iff x1 y1 x2 y2 (fun o => by
      have := h.nv (.node o)
      simp only [Stack.objectId] at this
      rw [this])
  have hpred : ∀ i, Stack.idPredicate A i = Stack.idPredicate B i := by
    intro i
    obtain ⟨x, x1, x2⟩ := idPredicate_spec hA i
    obtain ⟨y, y1, y2⟩ := idPredicate_spec hB i
    exact eq_of_mem_iff x1 y1 x2 y2 (fun o => by rw [h.pr])
  have hvt : ∀ t, Stack.valueTripleToId A t = Stack.valueTripleToId B t := by
    intro t
    have h1 := h.nv (.node t.s)
    simp only [Stack.objectId] at h1
    unfold Stack.valueTripleToId
    rw [h1, h.pr, h.nv]
  refine ⟨fun k => h.nv (.node k), h.pr, h.nv, hsub, hpred, hobj, ?_, h.nvCount, h.pCount,
    h.allCounts hA hB, h.ex, ?_, ?_, ?_, ?_, ?_, ?_, ?_, hvt, ?_, ?_⟩
  · intro i
    by_cases hi : i = 0
    · subst hi; rfl
    · have := hobj i
      rw [idObject_eq hA.counts (by omega), idObject_eq hB.counts (by omega)] at this
      rw [idObjectIsNode_eq hA.counts (by omega) hA.nv, idObjectIsNode_eq hB.counts (by omega) hB.nv,
        this]
  · exact eq_of_spec (hA.rep.triples hA.wf) (hB.rep.triples hB.wf) hp
  · intro s
    exact eq_of_spec (hA.rep.triplesS hA.wf s) (hB.rep.triplesS hB.wf s) (fun t => by rw [hp])
  · intro s p
    exact eq_of_spec (hA.rep.triplesSP hA.wf s p) (hB.rep.triplesSP hB.wf s p)
      (fun t => by rw [hp])
  · intro p hp0
    exact eq_of_spec (hA.rep.triplesP hA.wf hp0) (hB.rep.triplesP hB.wf hp0) (fun t => by rw [hp])
  · intro o
    exact eq_of_spec (hA.rep.triplesO hA.wf o) (hB.rep.triplesO hB.wf o) (fun t => by rw [hp])
  · intro s p
    obtain ⟨r, r1, r2, r3⟩ := hA.rep.singleTripleSP s p
    obtain ⟨q, q1, q2, q3⟩ := hB.rep.singleTripleSP s p
    rw [r1, q1]
    simp only [Option.map_some, Option.some.injEq]
    cases r with
    | none =>
      cases q with
      | none => rfl
      | some t =>
        obtain ⟨e1, e2, e3⟩ := q2 t rfl
        obtain ⟨ts, tp, o⟩ := t
        simp only at e1 e2
        subst e1 e2
        exact absurd ((hp _).2 e3) (r3 rfl _)
    | some t =>
      cases q with
      | none =>
        obtain ⟨e1, e2, e3⟩ := r2 t rfl
        obtain ⟨ts, tp, o⟩ := t
        simp only at e1 e2
        subst e1 e2
        exact absurd ((hp _).1 e3) (q3 rfl _)
      | some _ => rfl
  · obtain ⟨l, h1, h2, h3⟩ := hA.rep.triples hA.wf
    rw [hA.rep.count hA.wf h2.nodup h3, hB.rep.count hB.wf h2.nodup (fun t => by rw [h3, hp])]
  · intro t
    unfold Stack.valueTripleExists
    rw [hvt]
    simp only [h.ex]
  · intro t
    unfold Stack.idTripleToString
    rw [hsub, hpred, hobj]

theorem Alike.answers {A B : List (LayerData K V)} (h : Alike A B) : SameAnswers A B :=
  h.same.answers h.good.1 h.good.2.1

end Verif
