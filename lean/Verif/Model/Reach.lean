import Verif.Model.Rollup
import Verif.Model.BaseMerge

/-!
The layer stacks that sequences of commits, rollups, squashes and merges produce.
-/

namespace Verif

open SimpleBuilder

variable {K V : Type} [LinearOrder K] [LinearOrder V]

/-- The ids in an id call are ids of the parent, or zero. -/
def IdsKnown (S : List (LayerData K V)) : Op K V → Prop
  | .addId t | .removeId t =>
    t.s ≤ Stack.nvCount S ∧ t.p ≤ Stack.pCount S ∧ t.o ≤ Stack.nvCount S
  | .addValue _ | .removeValue _ => True

/-- A builder opened on `S` (on no layer when `S` is empty), given the calls `ops` in
this order and then committed, writes the layer `d`. The iteration orders of the
two hash maps (src/layer/simple_builder.rs:316-342) are arbitrary. -/
def Commits (S : List (LayerData K V)) (ops : List (Op K V)) (d : LayerData K V) : Prop :=
  ∃ b nv pm, (SimpleBuilder.new S).run ops = some b ∧ nv.Perm b.nvMap ∧ pm.Perm b.pMap ∧
    b.commitWith nv pm = some d

/-- `Alike A B`: the store can make both stacks of layers, and by its own account they
stand for the same layer: `B` arises from `A` by rollups (src/storage/delta.rs) at
any depth, or the other way round, or `A = B`. Topmost layer first. The conditions on the
precise rollup (`pMap = nvMap`), on merges and on the ids of id calls are those under which the
code is correct; see DESIGN.md, section 4. -/
inductive Alike : List (LayerData K V) → List (LayerData K V) → Prop
  | none : Alike [] []
  | commit {S ops d} : Alike S S → (∀ op ∈ ops, IdsKnown S op) → Commits S ops d →
      Alike (d :: S) (d :: S)
  | rollup {S d} : Alike S S → Rollup.deltaRollup S = some d → Alike S [d]
  | rollupUpto {mem disk S d} : Alike (mem ++ disk ++ S) (mem ++ disk ++ S) →
      (∀ e ∈ mem, e.pMap = e.nvMap) → Rollup.deltaRollupUpto mem disk S = some d →
      Alike (mem ++ disk ++ S) (d :: S)
  | impreciseRollupUpto {mem S d} : Alike (mem ++ S) (mem ++ S) →
      Rollup.impreciseDeltaRollupUpto mem S = some d → Alike (mem ++ S) (d :: S)
  | squash {S d} : Alike S S → Rollup.squash S = some d → Alike [d] [d]
  | squashUpto {T S d} : Alike (T ++ S) (T ++ S) →
      Rollup.squashUpto (Stack.nvCount S) (Stack.pCount S) T S = some d → Alike (d :: S) (d :: S)
  | merge {ds d} : (∀ e ∈ ds, Alike [e] [e]) →
      (∀ e ∈ ds, BaseMerge.Clean e ∧ e.pos.subjects = Option.none) →
      BaseMerge.mergeBases ds = some d → Alike [d] [d]
  | reload {T S R} : Alike (T ++ S) (T ++ S) → Alike S R → Alike (T ++ S) (T ++ R)
  | symm {A B} : Alike A B → Alike B A
  | trans {A B C} : Alike A B → Alike B C → Alike A C

/-- The stacks of layers that the store can make, by commits, rollups, squashes
and merges, and by loading layers with the rollups of any of their ancestors. -/
def Reachable (S : List (LayerData K V)) : Prop := Alike S S

theorem Reachable.none : Reachable ([] : List (LayerData K V)) := Alike.none

theorem Reachable.commit {S : List (LayerData K V)} {ops : List (Op K V)} {d : LayerData K V}
    (h : Reachable S) (hi : ∀ op ∈ ops, IdsKnown S op) (hd : Commits S ops d) :
    Reachable (d :: S) := Alike.commit h hi hd

theorem Alike.left {A B : List (LayerData K V)} (h : Alike A B) : Reachable A := h.trans h.symm

theorem Alike.right {A B : List (LayerData K V)} (h : Alike A B) : Reachable B := h.symm.trans h

end Verif
