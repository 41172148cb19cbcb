import Verif.Lemmas.Alike

/-!
A concrete two layer stack, built by the modelled code, on which the hypotheses
of the property theorems hold. Strings and values are numbers here.
-/

namespace Verif.Witness

open Verif SimpleBuilder

/-- The calls that build the base layer. -/
def baseOps : List (Op Nat Nat) :=
  [.addValue ⟨1, 10, .node 2⟩, .addValue ⟨1, 10, .value 7⟩, .addValue ⟨3, 11, .value 7⟩]

/-- The layer these calls write. -/
def base : LayerData Nat Nat where
  nodes := [1, 2, 3]
  preds := [10, 11]
  values := [7]
  pos := { subjects := none, objects := none,
           sp := ⟨[1, 0, 2], [true, true, true]⟩,
           spo := ⟨[2, 4, 0, 4], [false, true, true, true]⟩,
           ops := ⟨[0, 1, 0, 1, 3], [true, true, true, false, true]⟩,
           wavelet := [1, 0, 2] }

/-- The calls on the child builder. -/
def childOps : List (Op Nat Nat) :=
  [.removeValue ⟨1, 10, .value 7⟩, .addValue ⟨2, 12, .node 4⟩, .addValue ⟨1, 11, .value 8⟩]

/-- The child layer these calls write. -/
def child : LayerData Nat Nat where
  nodes := [4]
  preds := [12]
  values := [8]
  parentNV := 4
  parentP := 2
  pos := { subjects := some [1, 2], objects := some [5, 6],
           sp := ⟨[2, 3], [true, true]⟩,
           spo := ⟨[6, 5], [true, true]⟩,
           ops := ⟨[2, 1], [true, true]⟩,
           wavelet := [2, 3] }
  neg := some { subjects := some [1], objects := some [4],
                sp := ⟨[1], [true]⟩, spo := ⟨[4], [true]⟩, ops := ⟨[1], [true]⟩, wavelet := [1] }

theorem commits_of_eval {S : List (LayerData Nat Nat)} {ops : List (Op Nat Nat)}
    {d : LayerData Nat Nat} (h : ((SimpleBuilder.new S).run ops).bind (·.commit) = some d) :
    Commits S ops d := by
  obtain ⟨b, h1, h2⟩ := Option.bind_eq_some_iff.1 h
  exact ⟨b, b.nvMap, b.pMap, h1, List.Perm.refl _, List.Perm.refl _, h2⟩

theorem base_commits : Commits [] baseOps base := commits_of_eval (by decide)

theorem child_commits : Commits [base] childOps child := commits_of_eval (by decide)

theorem base_reachable : Reachable [base] :=
  .commit .none (by simp [baseOps, IdsKnown]) base_commits

theorem child_reachable : Reachable [child, base] :=
  .commit base_reachable (by simp [childOps, IdsKnown]) child_commits

end Verif.Witness
