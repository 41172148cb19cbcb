import Verif.Lemmas.WorldMore

/-!
Merges in the executions of a store.
-/

set_option linter.unusedSectionVars false
set_option linter.unusedVariables false

namespace Verif

open SimpleBuilder Spec

variable {K V : Type} [LinearOrder K] [LinearOrder V]

theorem no_res (g : GTriple K V) (u : Triple) : ¬ Res ([] : List (LayerData K V)) g u := by
  rintro ⟨hu, _⟩
  cases hg : g.s <;> simp [hg, Stack.objectId, Stack.nodeId, Stack.valueId] at hu

/-- A base layer that a builder wrote can be merged. -/
theorem Commits.mergeable {ops : List (Op K V)} (hk : ∀ op ∈ ops, IdsKnown [] op)
    {d : LayerData K V} (hd : Commits [] ops d) : ∃ P, BaseMerge.Mergeable d P := by
  obtain ⟨P, N, hc⟩ := commits_committed StackOk.nil hk hd
  have hf := hd.baseForm
  have hrep := hc.ok.rep
  cases hrep with
  | cons h1 h2 h3 =>
    refine BaseMerge.Mergeable.of_clean ⟨_, _, hc.ok⟩ ⟨hc.written.nvMap, hc.written.pMap, ?_⟩ hf.1
    intro ts hts t ht
    rw [h1.triples] at hts
    cases hts
    obtain ⟨g, ⟨op, hop, hg⟩, _, hr, _⟩ := (hc.pos t).1 ht
    rw [BaseMerge.res_flat hc.ok.counts hc.written.nvMap hc.written.pMap] at hr
    cases op with
    | addValue u =>
      simp only [Op.adds] at hg
      subst hg
      have := hr.1
      simp only [VTriple.toG] at this
      rw [dictId_node] at this
      exact (dictGet_of_id this).2.2
    | addId u => exact absurd hg (no_res _ _)
    | removeValue u => simp [Op.adds] at hg
    | removeId u => simp [Op.adds] at hg

namespace Store

variable {st : Store K V}

/-- Merging succeeds. -/
theorem mergeBase_total (ho : Ok st) (hf : ∀ n e, st.get? n = some e → e.Form) {ns : List Name}
    (hb : ∀ n ∈ ns, ∃ e, st.get? n = some e ∧ e.parent = none ∧ BaseMerge.Clean e.data) :
    ∃ e, st.mergeBase ns = .ok (.write e) ∧ e.parent = none ∧ BaseMerge.Clean e.data ∧
      SortedLt e.data.nodes ∧ SortedLt e.data.preds ∧ SortedLt e.data.values ∧
      (∀ k, k ∈ e.data.nodes ↔ ∃ n ∈ ns, ∃ x, st.get? n = some x ∧ k ∈ x.data.nodes) ∧
      (∀ k, k ∈ e.data.preds ↔ ∃ n ∈ ns, ∃ x, st.get? n = some x ∧ k ∈ x.data.preds) ∧
      (∀ k, k ∈ e.data.values ↔ ∃ n ∈ ns, ∃ x, st.get? n = some x ∧ k ∈ x.data.values) := by
  have hex : ∃ ds, st.baseFiles ns = .ok ds := by
    clear hf ho
    induction ns with
    | nil => exact ⟨[], rfl⟩
    | cons n ns ih =>
      obtain ⟨e, h1, h2, _⟩ := hb n (List.mem_cons_self ..)
      obtain ⟨ds, hds⟩ := ih (fun m hm => hb m (List.mem_cons_of_mem _ hm))
      exact ⟨e.data :: ds, by simp only [baseFiles, h1, h2, hds, Out.ok_bind, Out.pure_eq]⟩
  obtain ⟨ds, hds⟩ := hex
  have hall := baseFiles_iff.1 hds
  have hback := forall₂_mem_left hall.flip
  have hall := forall₂_mem_left hall
  have hd : ∀ d ∈ ds, ∃ P, BaseMerge.Mergeable d P := by
    intro d hd
    obtain ⟨n, hn, e, g1, g2, rfl⟩ := hback d hd
    obtain ⟨e', k1, _, k2⟩ := hb n hn
    rw [g1] at k1
    cases k1
    have := hf n e g1
    unfold Entry.Form at this
    rw [g2] at this
    exact BaseMerge.Mergeable.of_clean (ho.flat g1 g2).2.good k2 this.1
  obtain ⟨m, P, k1, k2, _, k4, k5, k6⟩ := BaseMerge.mergeBases_spec hd
  have hsorted := k2.ok.sorted m (by simp)
  have hmem : ∀ {α : Type} (f : LayerData K V → List α) (k : α),
      (∃ d ∈ ds, k ∈ f d) ↔ ∃ n ∈ ns, ∃ x, st.get? n = some x ∧ k ∈ f x.data := by
    intro α f k
    constructor
    · rintro ⟨d, hd, hk⟩
      obtain ⟨n, hn, e, g1, g2, rfl⟩ := hback d hd
      exact ⟨n, hn, e, g1, hk⟩
    · rintro ⟨n, hn, x, hx, hk⟩
      obtain ⟨d, hd, e, g1, g2, rfl⟩ := hall n hn
      rw [hx] at g1
      cases g1
      exact ⟨_, hd, hk⟩
  refine ⟨{ parent := none, data := m }, ?_, rfl, k2.clean, hsorted.1, hsorted.2.1, hsorted.2.2,
    fun k => (k4 k).trans (hmem (·.nodes) k), fun k => (k5 k).trans (hmem (·.preds) k),
    fun k => (k6 k).trans (hmem (·.values) k)⟩
  simp only [mergeBase, hds, Out.ok_bind, k1, Out.ofOption, Out.pure_eq]

end Store

namespace World

open Store

/-- Layers that a builder made without parent, and merges, can be merged. -/
structure Tidy (w : World K V) : Prop where
  stored : ∀ n, (∃ calls, Event.commit n none calls ∈ w.log) ∨ (∃ ns, Event.merge n ns ∈ w.log) →
    ∃ e, w.store.get? n = some e ∧ e.parent = none ∧ BaseMerge.Clean e.data
  plans : ∀ ns e, (Task.merge ns, Plan.write e) ∈ w.plans → e.parent = none ∧ BaseMerge.Clean e.data

theorem Tidy.grow {w w' : World K V} (h : Tidy w) (hx : Ext w.store w'.store)
    (hl : ∀ n, (∃ calls, Event.commit n none calls ∈ w'.log) ∨
        (∃ ns, Event.merge n ns ∈ w'.log) →
      (∃ calls, Event.commit n none calls ∈ w.log) ∨ (∃ ns, Event.merge n ns ∈ w.log) ∨
      ∃ e, w'.store.get? n = some e ∧ e.parent = none ∧ BaseMerge.Clean e.data)
    (hp : ∀ ns e, (Task.merge ns, Plan.write e) ∈ w'.plans →
      (Task.merge ns, Plan.write e) ∈ w.plans ∨ e.parent = none ∧ BaseMerge.Clean e.data) :
    Tidy w' where
  stored n hn := by
    have old : ((∃ calls, Event.commit n none calls ∈ w.log) ∨ (∃ ns, Event.merge n ns ∈ w.log)) →
        ∃ e, w'.store.get? n = some e ∧ e.parent = none ∧ BaseMerge.Clean e.data := by
      intro hn
      obtain ⟨e, h1, h2, h3⟩ := h.stored n hn
      obtain ⟨e', g1, g2, g3⟩ := hx n e h1
      exact ⟨e', g1, g2.trans h2, by rw [g3]; exact h3⟩
    rcases hl n hn with h1 | h1 | h1
    · exact old (Or.inl h1)
    · exact old (Or.inr h1)
    · exact h1
  plans ns e he := by
    rcases hp ns e he with h1 | h1
    · exact h.plans ns e h1
    · exact h1

theorem Tidy.step {w w' : World K V} (hr : Run true w) (h : Tidy w) (hs : Step true w w') :
    Tidy w' := by
  have hx := hs.ext
  have keepLog : ∀ {l : History (VTriple K V)}, l = w.log → ∀ n,
      (∃ calls, Event.commit n none calls ∈ l) ∨ (∃ ns, Event.merge n ns ∈ l) →
      (∃ calls, Event.commit n none calls ∈ w.log) ∨ (∃ ns, Event.merge n ns ∈ w.log) ∨
      ∃ e, w'.store.get? n = some e ∧ e.parent = none ∧ BaseMerge.Clean e.data := by
    rintro l rfl n (h | h)
    · exact Or.inl h
    · exact Or.inr (Or.inl h)
  have consLog : ∀ {ev : Event (VTriple K V)}, (∀ n c, ev ≠ .commit n none c) →
      (∀ n c, ev ≠ .merge n c) → ∀ n,
      (∃ calls, Event.commit n none calls ∈ ev :: w.log) ∨ (∃ ns, Event.merge n ns ∈ ev :: w.log) →
      (∃ calls, Event.commit n none calls ∈ w.log) ∨ (∃ ns, Event.merge n ns ∈ w.log) ∨
      ∃ e, w'.store.get? n = some e ∧ e.parent = none ∧ BaseMerge.Clean e.data := by
    rintro ev h1 h2 n (⟨c, hc⟩ | ⟨c, hc⟩)
    · rcases List.mem_cons.1 hc with hc | hc
      · exact absurd hc.symm (h1 _ _)
      · exact Or.inl ⟨c, hc⟩
    · rcases List.mem_cons.1 hc with hc | hc
      · exact absurd hc.symm (h2 _ _)
      · exact Or.inr (Or.inl ⟨c, hc⟩)
  have newLog : ∀ {ev : Event (VTriple K V)} {e : Entry K V}, w'.store.get? ev.new = some e →
      e.parent = none → BaseMerge.Clean e.data → ∀ n,
      (∃ calls, Event.commit n none calls ∈ ev :: w.log) ∨ (∃ ns, Event.merge n ns ∈ ev :: w.log) →
      (∃ calls, Event.commit n none calls ∈ w.log) ∨ (∃ ns, Event.merge n ns ∈ w.log) ∨
      ∃ e, w'.store.get? n = some e ∧ e.parent = none ∧ BaseMerge.Clean e.data := by
    rintro ev e h1 h2 h3 n (⟨c, hc⟩ | ⟨c, hc⟩)
    · rcases List.mem_cons.1 hc with hc | hc
      · exact Or.inr (Or.inr ⟨e, by rw [← hc] at h1; exact h1, h2, h3⟩)
      · exact Or.inl ⟨c, hc⟩
    · rcases List.mem_cons.1 hc with hc | hc
      · exact Or.inr (Or.inr ⟨e, by rw [← hc] at h1; exact h1, h2, h3⟩)
      · exact Or.inr (Or.inl ⟨c, hc⟩)
  have keepPlans : ∀ {l : List (Task × Plan K V)}, l = w.plans → ∀ ns e,
      (Task.merge ns, Plan.write e) ∈ l →
      (Task.merge ns, Plan.write e) ∈ w.plans ∨ e.parent = none ∧ BaseMerge.Clean e.data := by
    rintro l rfl ns e h
    exact Or.inl h
  have consPlans : ∀ {q : Task × Plan K V}, (∀ ns e, q ≠ (.merge ns, .write e)) → ∀ ns e,
      (Task.merge ns, Plan.write e) ∈ q :: w.plans →
      (Task.merge ns, Plan.write e) ∈ w.plans ∨ e.parent = none ∧ BaseMerge.Clean e.data := by
    rintro q hq ns e h
    rcases List.mem_cons.1 h with h | h
    · exact absurd h.symm (hq _ _)
    · exact Or.inl h
  cases hs with
  | load _ _ _ => exact h.grow hx (keepLog rfl) (keepPlans rfl)
  | cacheLayer _ => exact h.grow hx (keepLog rfl) (keepPlans rfl)
  | evict _ => exact h.grow hx (keepLog rfl) (keepPlans rfl)
  | commitBase _ hk hd =>
    obtain ⟨P, hP⟩ := hd.mergeable hk
    exact h.grow hx (newLog (e := { parent := none, data := _ }) (by simp [get?, Event.new]) rfl
      hP.clean) (keepPlans rfl)
  | commit _ _ _ _ =>
    exact h.grow hx (consLog (by simp) (by simp)) (keepPlans rfl)
  | importLayer _ _ _ _ _ _ _ =>
    exact h.grow hx (consLog (by simp) (by simp)) (keepPlans rfl)
  | decideRollup _ _ _ => exact h.grow hx (keepLog rfl) (consPlans (by simp))
  | decideRollupUpto _ _ _ _ => exact h.grow hx (keepLog rfl) (consPlans (by simp))
  | decideImpreciseRollupUpto _ _ _ _ => exact h.grow hx (keepLog rfl) (consPlans (by simp))
  | planSquash _ _ => exact h.grow hx (keepLog rfl) (consPlans (by simp))
  | decideSquashUpto _ _ _ => exact h.grow hx (keepLog rfl) (consPlans (by simp))
  | @planMerge ns pl hsafe hp =>
    refine h.grow hx (keepLog rfl) ?_
    intro ms e he
    rcases List.mem_cons.1 he with he | he
    · right
      cases he
      have hp' := hp
      unfold mergeBase at hp'
      obtain ⟨ds, h1, _⟩ := Out.bind_eq_ok.1 hp'
      have hall := forall₂_mem_left (baseFiles_iff.1 h1)
      obtain ⟨e', g1, g2, g3, _⟩ := mergeBase_total hr.inv.ok hr.forms.store (ns := ns) (by
        intro n hn
        obtain ⟨_, _, x, k1, k2, _⟩ := hall n hn
        exact ⟨x, k1, k2, hsafe rfl n hn x k1⟩)
      rw [hp] at g1
      simp only [Out.ok.injEq, Plan.write.injEq] at g1
      subst g1
      exact ⟨g2, g3⟩
    · exact Or.inl he
  | keep _ => exact h.grow hx (keepLog rfl) (keepPlans rfl)
  | writeRollup _ _ => exact h.grow hx (consLog (by simp) (by simp)) (keepPlans rfl)
  | writeSquash _ _ => exact h.grow hx (consLog (by simp) (by simp)) (keepPlans rfl)
  | writeSquashUpto _ _ => exact h.grow hx (consLog (by simp) (by simp)) (keepPlans rfl)
  | writeMerge hm _ =>
    exact h.grow hx (newLog (by simp [get?, Event.new]) (h.plans _ _ hm).1 (h.plans _ _ hm).2)
      (keepPlans rfl)
  | register _ => exact h.grow hx (keepLog rfl) (keepPlans rfl)

theorem Run.tidy {w : World K V} (h : Run true w) : Tidy w := by
  induction h with
  | start =>
    refine ⟨?_, fun ns e h => (by cases h)⟩
    rintro n (⟨c, hc⟩ | ⟨c, hc⟩) <;> cases hc
  | step hr hs ih => exact ih.step hr hs

end World

end Verif
