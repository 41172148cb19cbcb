import Verif.Model.Api
import Verif.Props.Query
import Verif.Props.Dict
import Verif.Lemmas.WorldOk
import Verif.Lemmas.AnswersOk

/-!
The queries of a stack of layers answer as `Verif.Api.Right` says, for the triples of the stack
and the ids that it gives.
-/

namespace Verif.Api

open Spec

variable {K V : Type} [LinearOrder K] [LinearOrder V]

/-- The ids of a stack. -/
def idsOf (S : List (LayerData K V)) : Ids K V where
  nv := fun i => (Stack.idObject S i).join
  pred := fun i => (Stack.idPredicate S i).join
  nvCount := Stack.nvCount S
  pCount := Stack.pCount S

/-- The triples of a stack. -/
def triplesOf (S : List (LayerData K V)) : VTriple K V → Prop := fun t => content S t.toG

/-- All subjects are nodes. -/
def NodesOnly (S : List (LayerData K V)) : Prop := ∀ g, content S g → ∃ t : VTriple K V, g = t.toG

variable {S : List (LayerData K V)}

theorem idsOf_nv (hS : Reachable S) (i : Nat) (o : Obj K V) :
    (idsOf S).nv i = some o ↔ Stack.objectId S o = some (some i) := by
  obtain ⟨Ps, Ns, h⟩ := hS.good
  obtain ⟨r, h1, h2⟩ := idObject_spec h i
  show (Stack.idObject S i).join = some o ↔ _
  rw [h1, ← h2]; simp

theorem idsOf_pred (hS : Reachable S) (i : Nat) (p : K) :
    (idsOf S).pred i = some p ↔ Stack.predId S p = some (some i) := by
  obtain ⟨Ps, Ns, h⟩ := hS.good
  obtain ⟨r, h1, h2⟩ := idPredicate_spec h i
  show (Stack.idPredicate S i).join = some p ↔ _
  rw [h1, ← h2]; simp

theorem code_iff (hS : Reachable S) (t : VTriple K V) (u : Triple) :
    (idsOf S).code t u ↔ Res S t.toG u := by
  unfold Ids.code Res
  rw [idsOf_nv hS, idsOf_pred hS, idsOf_nv hS]; rfl

theorem ofSet_iff (hS : Reachable S) (hN : NodesOnly S) (u : Triple) :
    (idsOf S).ofSet (triplesOf S) u ↔ Stack.tripleExists S u = some true := by
  obtain ⟨Ps, Ns, h⟩ := hS.good
  constructor
  · rintro ⟨t, ⟨v, hv, hx⟩, hc⟩
    rw [code_iff hS] at hc
    rw [Res.unique hc hv]; exact hx
  · intro hx
    have hp := (h.exists_iff u).1 hx
    obtain ⟨a, b, c⟩ := h.present_range hp
    obtain ⟨g, hg⟩ := Res.exists h (h.present_nonzero hp) a b c
    have hcg : content S g := ⟨u, hg, hx⟩
    obtain ⟨t, rfl⟩ := hN g hcg
    exact ⟨t, hcg, (code_iff hS t u).2 hg⟩

theorem idsOf_congr {A B : List (LayerData K V)} (h : SameAnswers A B) : idsOf A = idsOf B := by
  unfold idsOf
  simp only [h.idObject, h.idPredicate, h.nodeAndValueCount, h.predicateCount]

theorem idsOf_nil : idsOf ([] : List (LayerData K V)) = {} := by
  have hr : Reachable ([] : List (LayerData K V)) := Reachable.none
  obtain ⟨_, _, _, _, _, h6, _, h8, _⟩ := C12_dictionary_round_trip hr
  unfold idsOf
  have a : ∀ i, Stack.idObject ([] : List (LayerData K V)) i = some none := by
    intro i; exact (h6 i (by simp [Stack.nvCount]; omega)).1
  have b : ∀ i, Stack.idPredicate ([] : List (LayerData K V)) i = some none := by
    intro i; exact h8 i (by simp [Stack.pCount]; omega)
  simp only [a, b]; rfl

/-- A sorted list in the words of the specification. -/
theorem lists_of {P : Triple → Prop} {us : List Triple} (h : SortedLt us) (hm : ∀ u, u ∈ us ↔ P u) :
    Lists P us := ⟨h, hm⟩

/-- The ids of the stack `T ++ S` fit on those of `S`. -/
theorem idsOf_fits {T : List (LayerData K V)} (hS : Reachable (T ++ S))
    {C : VTriple K V → Prop} (hC : ∀ t, C t → content (T ++ S) t.toG) :
    (idsOf (T ++ S)).Fits (idsOf S) C := by
  obtain ⟨h1, h2, h3, h4, h5, h6, h7, h8, _⟩ := C12_dictionary_round_trip hS
  obtain ⟨k1, _, k3, _, _⟩ := C13_ids_stable hS
  have once : ∀ {α : Type} {x : Option (Option α)} {a : α}, x.join = some a → x = some (some a) := by
    intro α x a h; simpa [Option.join_eq_some_iff] using h
  refine ⟨?_, ?_, ?_, ?_, ?_, ?_, ?_⟩
  · intro a b o ha hb
    rw [idsOf_nv hS] at ha hb
    rw [ha] at hb; simpa using hb
  · intro a b o ha hb
    rw [idsOf_pred hS] at ha hb
    rw [ha] at hb; simpa using hb
  · intro a
    show (Stack.idObject (T ++ S) a).join ≠ none ↔ 1 ≤ a ∧ a ≤ Stack.nvCount (T ++ S)
    by_cases hr : 1 ≤ a ∧ a ≤ Stack.nvCount (T ++ S)
    · obtain ⟨o, ho⟩ := h5 a hr.1 hr.2
      rw [ho]; simp [hr]
    · have := (h6 a (by omega)).1
      rw [this]; simp; omega
  · intro a
    show (Stack.idPredicate (T ++ S) a).join ≠ none ↔ 1 ≤ a ∧ a ≤ Stack.pCount (T ++ S)
    by_cases hr : 1 ≤ a ∧ a ≤ Stack.pCount (T ++ S)
    · obtain ⟨o, ho⟩ := h7 a hr.1 hr.2
      rw [ho]; simp [hr]
    · have := h8 a (by omega)
      rw [this]; simp; omega
  · intro t ht
    obtain ⟨u, hu, _⟩ := hC t ht
    exact ⟨u, (code_iff hS t u).2 hu⟩
  · intro a o ha
    have := k1 a o (once ha)
    show (Stack.idObject (T ++ S) a).join = some o
    rw [this]; rfl
  · intro a o ha
    have := k3 a o (once ha)
    show (Stack.idPredicate (T ++ S) a).join = some o
    rw [this]; rfl

/-- The queries are answered, and right. -/
theorem ask_right (hS : Reachable S) (hN : NodesOnly S) (q : Query K V) (hq : q ≠ .triplesP 0) :
    ∃ a, Session.ask S q = some a ∧ Right (triplesOf S) (idsOf S) q a := by
  obtain ⟨Ps, Ns, h⟩ := hS.good
  obtain ⟨l, hl, hsort, hmem⟩ := C04_triples_complete hS
  have hin : ∀ u, u ∈ l ↔ (idsOf S).ofSet (triplesOf S) u := by
    intro u
    obtain ⟨b, hb, hb'⟩ := hmem u
    rw [ofSet_iff hS hN, ← hb', hb]; simp
  have hfil : ∀ (f : Triple → Bool) (Q : Triple → Prop), (∀ u, f u = true ↔ Q u) →
      Lists (fun u => (idsOf S).ofSet (triplesOf S) u ∧ Q u) (l.filter f) := by
    intro f Q hf
    refine ⟨List.Pairwise.filter _ hsort, ?_⟩
    intro u
    rw [List.mem_filter, hin, hf]
  cases q with
  | has t =>
    obtain ⟨b, h1, h2⟩ := valueTripleExists_spec h t
    exact ⟨.flag b, by simp [Session.ask, h1], h2⟩
  | hasId u =>
    obtain ⟨b, h1, h2⟩ := h.exists_total u
    refine ⟨_, by simp only [Session.ask, h1, Option.map_some]; rfl, ?_⟩
    show b = true ↔ _
    rw [ofSet_iff hS hN, h1]; simp
  | toId t =>
    obtain ⟨r, h1, h2⟩ := valueTripleToId_spec h t
    refine ⟨_, by simp only [Session.ask, h1, Option.map_some]; rfl, ?_⟩
    intro u; rw [h2, code_iff hS]
  | toStrings u =>
    obtain ⟨r, h1, h2⟩ := idTripleToString_spec h u
    refine ⟨_, by simp only [Session.ask, h1, Option.map_some]; rfl, ?_⟩
    intro u; rw [h2, code_iff hS]
  | subjectId k =>
    obtain ⟨r, h1⟩ := objectId_total h (.node k)
    have h1' : Stack.nodeId S k = some r := h1
    refine ⟨_, by simp only [Session.ask, h1', Option.map_some]; rfl, ?_⟩
    intro a; rw [idsOf_nv hS, h1]; simp
  | predicateId k =>
    obtain ⟨r, h1⟩ := predId_total h k
    refine ⟨_, by simp only [Session.ask, h1, Option.map_some]; rfl, ?_⟩
    intro a; rw [idsOf_pred hS, h1]; simp
  | objectId o =>
    obtain ⟨r, h1⟩ := objectId_total h o
    refine ⟨_, by simp only [Session.ask, h1, Option.map_some]; rfl, ?_⟩
    intro a; rw [idsOf_nv hS, h1]; simp
  | idSubject i =>
    obtain ⟨r, h1, h2⟩ := idSubject_spec h i
    refine ⟨_, by simp only [Session.ask, h1, Option.map_some]; rfl, ?_⟩
    intro k; rw [idsOf_nv hS, h2]; rfl
  | idPredicate i =>
    obtain ⟨r, h1, h2⟩ := idPredicate_spec h i
    refine ⟨_, by simp only [Session.ask, h1, Option.map_some]; rfl, ?_⟩
    show r = (Stack.idPredicate S i).join
    rw [h1]; rfl
  | idObject i =>
    obtain ⟨r, h1, h2⟩ := idObject_spec h i
    refine ⟨_, by simp only [Session.ask, h1, Option.map_some]; rfl, ?_⟩
    show r = (Stack.idObject S i).join
    rw [h1]; rfl
  | idObjectIsNode i =>
    obtain ⟨r, h1, h2⟩ := idObject_spec h i
    obtain ⟨r', h3⟩ : ∃ r', Stack.idObjectIsNode S i = some r' ∧
        ((r' = some true ↔ ∃ k, r = some (.node k)) ∧ (r' = some false ↔ ∃ v, r = some (.value v))) := by
      by_cases hi : i = 0
      · subst hi
        have e : r = none := by
          have : Stack.idObject S 0 = some none := rfl
          rw [h1] at this; simpa using this
        subst e
        exact ⟨none, rfl, by simp, by simp⟩
      · rw [idObject_eq h.counts (by omega)] at h1
        refine ⟨_, by rw [idObjectIsNode_eq h.counts (by omega) h.nv, h1]; rfl, ?_⟩
        cases r with
        | none => simp
        | some o => cases o <;> simp
    refine ⟨.maybeFlag r', by simp only [Session.ask, h3.1, Option.map_some], ?_⟩
    have e : (idsOf S).nv i = r := by
      show (Stack.idObject S i).join = r
      rw [h1]; rfl
    show (r' = some true ↔ ∃ k, (idsOf S).nv i = some (.node k)) ∧
      (r' = some false ↔ ∃ v, (idsOf S).nv i = some (.value v))
    rw [e]; exact h3.2
  | nodeAndValueCount => exact ⟨_, rfl, rfl⟩
  | predicateCount => exact ⟨_, rfl, rfl⟩
  | triples => exact ⟨.list l, by simp only [Session.ask, hl, Option.map_some], hsort, hin⟩
  | triplesS s =>
    obtain ⟨l', e, h1, h2⟩ := C05_triples_by_subject hS
    rw [hl] at e; cases e
    refine ⟨_, by simp only [Session.ask, h1, Option.map_some]; rfl, ?_⟩
    exact hfil _ _ (by simp)
  | triplesSP s p =>
    obtain ⟨l', e, h1, h2⟩ := C05_triples_by_subject hS
    rw [hl] at e; cases e
    refine ⟨_, by simp only [Session.ask, h2, Option.map_some]; rfl, ?_⟩
    exact hfil _ (fun u => u.s = s ∧ u.p = p) (by simp)
  | triplesP p =>
    obtain ⟨l', e, h1⟩ := C06_triples_by_predicate_partial hS (p := p) (by
      intro e; exact hq (by rw [e]))
    rw [hl] at e; cases e
    refine ⟨_, by simp only [Session.ask, h1, Option.map_some]; rfl, ?_⟩
    exact hfil _ _ (by simp)
  | triplesO o =>
    obtain ⟨l', e, h1⟩ := C07_triples_by_object hS
    rw [hl] at e; cases e
    refine ⟨_, by simp only [Session.ask, h1, Option.map_some]; rfl, ?_⟩
    exact hfil _ _ (by simp)
  | singleSP s p =>
    obtain ⟨r, h1, h2, h3⟩ := C08_single_triple hS s p
    refine ⟨.ids r, by simp only [Session.ask, h1, Option.map_some], ?_, ?_⟩
    · intro u hu
      obtain ⟨a, b, c⟩ := h2 u hu
      exact ⟨(ofSet_iff hS hN u).2 c, a, b⟩
    · intro hr u hu hsp
      rw [ofSet_iff hS hN] at hu
      have := h3 hr u.o
      obtain ⟨rfl, rfl⟩ := hsp
      rw [hu] at this; simp at this
  | tripleCount =>
    obtain ⟨⟨l', e, h1⟩, _⟩ := C11_counts hS
    rw [hl] at e; cases e
    exact ⟨.number l.length, by simp only [Session.ask, h1, Option.map_some], l, ⟨hsort, hin⟩, rfl⟩
  | allCounts =>
    obtain ⟨n1, n2, n3⟩ := h.all_nodup
    have hx : ∀ {r : Option (Option Nat)} {Q : Prop}, (∃ x, r = some x) → (r = some none ↔ ¬ Q) →
        (Q ↔ ∃ a, r = some (some a)) := by
      rintro r Q ⟨x, rfl⟩ hQ
      cases x with
      | none => simpa using hQ
      | some a => simp at hQ; simp [hQ]
    refine ⟨.counts (allNodes S).length (allPreds S).length (allValues S).length,
      by simp only [Session.ask, allCounts_eq], ⟨_, n1, ?_, rfl⟩, ⟨_, n2, ?_, rfl⟩, ⟨_, n3, ?_, rfl⟩⟩
    · intro k
      simp only [idsOf_nv hS]
      refine hx (objectId_total h _) ((node_mem_iff h k).trans ?_)
      simp [allNodes]
    · intro k
      simp only [idsOf_pred hS]
      refine hx (predId_total h _) ((pred_mem_iff h k).trans ?_)
      simp [allPreds]
    · intro k
      simp only [idsOf_nv hS]
      refine hx (objectId_total h _) ((value_mem_iff h k).trans ?_)
      simp [allValues]

end Verif.Api
