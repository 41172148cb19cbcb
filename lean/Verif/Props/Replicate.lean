import Verif.Lemmas.Replicate
import Verif.Props.StoreWitness

/-!
C58: layers that are exported from one store and imported into another are the same layers
there, whatever both stores do afterwards. (C45 is about the files of one pack.)
-/

set_option linter.unusedSectionVars false

namespace Verif

open SimpleBuilder Spec

variable {K V : Type} [LinearOrder K] [LinearOrder V]

namespace World

open Store Witness

theorem ancestor_parent {T : Type} {h : History T} {m n p : Nat} (ha : h.Ancestor m n)
    (hp : h.parent m = some p) : h.Ancestor p n := by
  induction ha with
  | self => exact .up hp (.self p)
  | up h1 _ ih => exact .up h1 ih

/-- C58. `u` is one store and `w` another, after any executions. A layer `n` of `u` and all its
ancestors are imported into `w`, which has none of them yet or some of them already. This can be
done. Then `w'` has all these layers, with the parents and triples they have in `u`, and nothing
else has changed. From then on, whatever happens in both stores, the layers `u` returns for these
names and those `w'` returns answer all queries alike, ids included. -/
theorem C58_replication {u w : World K V} (hu : Run true u) (hw : Run true w) {n : Name}
    (hn : u.log.known n) (hr : ∀ m, u.log.Ancestor m n → ∀ o, ¬ u.log.rolledUp o m)
    (hag : ∀ m, u.log.Ancestor m n → w.log.known m → Shared u.store w.store m) :
    ∃ w', Later true w w' ∧ w'.held = w.held ∧
      (∀ m, w'.log.known m ↔ w.log.known m ∨ u.log.Ancestor m n) ∧
      (∀ m, ¬ u.log.Ancestor m n → w'.store.get? m = w.store.get? m) ∧
      ∀ m, u.log.Ancestor m n → Shared u.store w'.store m ∧
        w'.log.parent m = u.log.parent m ∧ (∀ t, w'.log.triples m t ↔ u.log.triples m t) ∧
        ∀ u' w'', Later true u u' → Later true w' w'' → Shared u'.store w''.store m ∧
          ∀ l l', (m, l) ∈ u'.held → (m, l') ∈ w''.held → SameAnswers l.stack l'.stack := by
  have huk : ∀ m, u.log.Ancestor m n → u.store.has m = true := by
    intro m hm
    induction hm with
    | self => exact (hu.shape.known _).2 hn
    | @up p n h1 h2 ih =>
      refine ih ?_ (fun m hm => hr m (.up h1 hm)) (fun m hm => hag m (.up h1 hm))
      rw [← hu.shape.parent] at h1
      exact (hu.shape.known p).1 (hu.parent_has h1)
  have hA : ∀ m p, u.log.Ancestor m n → u.store.parent? m = some p → u.log.Ancestor p n := by
    intro m p hm hp
    rw [hu.shape.parent] at hp
    exact ancestor_parent hm hp
  have hag' : ∀ m, u.log.Ancestor m n → Agree u.store w.store m := by
    intro m hm
    by_cases hk : w.log.known m
    · exact (hag m hm hk).agree
    · obtain ⟨e, he⟩ := has_iff.1 (huk m hm)
      refine ⟨e, he, Or.inl ?_⟩
      cases hg : w.store.get? m with
      | none => rfl
      | some e => exact absurd ((hw.shape.known m).1 (by simp [Store.has, hg])) hk
  obtain ⟨S, hS, _⟩ := hu.inv.ok.raw' ((hu.shape.known n).2 hn)
  obtain ⟨w', hl, h1, _, h3, h4, h5⟩ := hu.importLine hA hr hS (.self n) hw hag'
  have hw' := hl.run hw
  have hall : ∀ m, u.log.Ancestor m n → w'.store.has m = true := by
    have : ∀ k m, u.log.Ancestor m k → u.log.Ancestor k n → w'.store.has k = true →
        w'.store.has m = true := by
      intro k m hm
      induction hm with
      | self => exact fun _ h => h
      | @up p k g1 g2 ih =>
        intro hk hh
        refine ih (ancestor_parent hk g1) ?_
        obtain ⟨e, e', k1, k2, k3, _⟩ := (h4 k hk).shared hh
        refine hw'.parent_has (m := k) ?_
        rw [← hu.shape.parent] at g1
        unfold Store.parent? at g1 ⊢
        rw [k1] at g1
        simpa [k2, k3] using g1
    exact fun m hm => this n m hm (.self n) h3
  refine ⟨w', hl, h1, ?_, h5, ?_⟩
  · intro m
    rw [← hw'.shape.known, ← hw.shape.known]
    constructor
    · intro hm
      by_cases ha : u.log.Ancestor m n
      · exact Or.inr ha
      · left
        unfold Store.has at hm ⊢
        rwa [h5 m ha] at hm
    · rintro (hm | hm)
      · exact has_mono hl.ext hm
      · exact hall m hm
  intro m hm
  have hsh := (h4 m hm).shared (hall m hm)
  obtain ⟨Sm, hSm, _⟩ := hu.inv.ok.raw' (huk m hm)
  have hSm' := hSm.shared hA h4 (fun _ _ => hw'.parent_has) hm (hall m hm)
  refine ⟨hsh, ?_, ?_, ?_⟩
  · obtain ⟨e, e', k1, k2, k3, _⟩ := hsh
    rw [← hw'.shape.parent, ← hu.shape.parent]
    simp [Store.parent?, k1, k2, k3]
  · intro t
    rw [← hw'.inv.log.triples m Sm hSm' t, ← hu.inv.log.triples m Sm hSm t]
  · intro u' w'' hu' hw''
    refine ⟨hsh.ext hu'.ext hw''.ext, ?_⟩
    intro l l' hl1 hl2
    obtain ⟨_, R1, r1, a1, _⟩ := (hu'.run hu).inv.held _ hl1
    obtain ⟨_, R2, r2, a2, _⟩ := (hw''.run hw').inv.held _ hl2
    cases r1.unique (hSm.ext hu'.ext)
    cases r2.unique (hSm'.ext hw''.ext)
    exact (a1.symm.trans a2).answers

/-- The names of the rollups that were written. -/
def rollupNames {T : Type} : History T → List (Nat × Nat)
  | [] => []
  | .rollup r o _ :: h => (o, r) :: rollupNames h
  | _ :: h => rollupNames h

theorem mem_rollupNames {T : Type} {h : History T} {o r : Nat} :
    (o, r) ∈ rollupNames h ↔ h.rolledUp o r := by
  unfold History.rolledUp
  induction h with
  | nil => simp [rollupNames]
  | cons e h ih => cases e <;> simp [rollupNames, ih, and_comm, exists_or]

/-- Layer 102 of one store has two ancestors, one of them with a rollup, and the other store has
layers of its own. -/
example : ∃ u w w' : World Nat Nat, Run true u ∧ Run true w ∧ Later true w w' ∧
    u.log.rolledUp 101 200 ∧ w.log.known 3 ∧ ¬ w.log.known 102 ∧
    w'.log.known 102 ∧ w'.log.known 3 ∧ w'.log.parent 102 = some 101 := by
  obtain ⟨u, hu, u1, u2, u3⟩ := reaches_run (safe := true) (cs := commits ++ [.rollup 101 200])
    (P := fun u => u.store.stackNames 102 = .ok [100, 101, 102] ∧ rollupNames u.log = [(101, 200)] ∧
      u.store.parent? 102 = some 101)
    (by decide +kernel)
  obtain ⟨w, hw, w1⟩ := reaches_run (safe := true) (cs := four)
    (P := fun w => w.store.has 3 = true ∧ w.store.has 100 = false ∧ w.store.has 101 = false ∧
      w.store.has 102 = false) (by decide +kernel)
  obtain ⟨ns, hline, hns⟩ := hu.shape.closed.stackNames hu.shape.parent 102
  rw [u1, Out.ok.injEq] at hns
  subst hns
  have hanc : ∀ m, u.log.Ancestor m 102 → m = 100 ∨ m = 101 ∨ m = 102 := by
    intro m hm
    simpa using (hline.ancestor m).2 hm
  have hk : ∀ m, w.log.known m ↔ w.store.has m = true := fun m => (hw.shape.known m).symm
  obtain ⟨w', hl, _, h2, _, h4⟩ := C58_replication hu hw (n := 102)
    ((hu.shape.known 102).1 (by
      cases hg : u.store.get? 102 with
      | none => simp [Store.parent?, hg] at u3
      | some e => simp [Store.has, hg]))
    (by
      intro m hm o ho
      rw [← mem_rollupNames, u2] at ho
      simp only [List.mem_cons, Prod.mk.injEq, List.not_mem_nil, or_false] at ho
      have := hanc m hm
      rw [ho.2] at this
      revert this
      decide)
    (by
      intro m hm hw
      rw [hk] at hw
      rcases hanc m hm with rfl | rfl | rfl
      · rw [w1.2.1] at hw; cases hw
      · rw [w1.2.2.1] at hw; cases hw
      · rw [w1.2.2.2] at hw; cases hw)
  refine ⟨u, w, w', hu, hw, hl, mem_rollupNames.1 (by rw [u2]; simp), (hk 3).2 w1.1, ?_,
    (h2 _).2 (Or.inr (.self _)), (h2 _).2 (Or.inl ((hk 3).2 w1.1)), ?_⟩
  · rw [hk, w1.2.2.2]; simp
  · rw [(h4 102 (.self _)).2.1, ← hu.shape.parent]; exact u3

end World

end Verif
