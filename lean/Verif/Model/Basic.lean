import Mathlib.Order.Defs.LinearOrder
import Mathlib.Order.Basic

/-!
Basic data: id triples with their order, and the sorting / deduplication
primitives of the Rust standard library that the code uses.
-/

namespace Verif

/-- `IdTriple` (src/layer/layer.rs:174-200). `u64` ids are modelled by `Nat`. -/
structure Triple where
  s : Nat
  p : Nat
  o : Nat
deriving DecidableEq, Repr

namespace Triple

/-- The derived lexicographic `Ord` of `IdTriple` (src/layer/layer.rs:175),
the fields being declared in the order subject, predicate, object. -/
def Lt (a b : Triple) : Prop :=
  a.s < b.s ∨ (a.s = b.s ∧ (a.p < b.p ∨ (a.p = b.p ∧ a.o < b.o)))

instance : LT Triple := ⟨Lt⟩
instance : LE Triple := ⟨fun a b => a = b ∨ Lt a b⟩

theorem lt_def (a b : Triple) :
    a < b ↔ a.s < b.s ∨ (a.s = b.s ∧ (a.p < b.p ∨ (a.p = b.p ∧ a.o < b.o))) := Iff.rfl

theorem le_def (a b : Triple) : a ≤ b ↔ a = b ∨ a < b := Iff.rfl

theorem eq_iff (a b : Triple) : a = b ↔ a.s = b.s ∧ a.p = b.p ∧ a.o = b.o := by
  cases a; cases b; simp

instance : DecidableLT Triple := fun a b => by
  unfold LT.lt instLT Lt; exact inferInstance

instance : DecidableLE Triple := fun a b => by
  unfold LE.le instLE Lt; exact inferInstance

instance : LinearOrder Triple where
  le_refl a := Or.inl rfl
  le_trans a b c := by
    simp only [le_def, lt_def, eq_iff]; omega
  lt_iff_le_not_ge a b := by
    simp only [le_def, lt_def, eq_iff]; omega
  le_antisymm a b := by
    simp only [le_def, lt_def, eq_iff]; omega
  le_total a b := by
    simp only [le_def, lt_def, eq_iff]; omega
  toDecidableLE := inferInstance
  toDecidableLT := inferInstance
  toDecidableEq := inferInstance

/-- The key `(object, subject, predicate)` used to order triples by object
(src/layer/internal/object_iterator.rs:237-241). -/
def rot (t : Triple) : Triple := ⟨t.o, t.s, t.p⟩

end Triple

/-- Insertion into a sorted list (helper of `isort`). -/
def insertSorted {α : Type _} [LinearOrder α] (a : α) : List α → List α
  | [] => [a]
  | b :: l => if a ≤ b then a :: b :: l else b :: insertSorted a l

/-- Model of `slice::sort`, `sort_unstable` and `par_sort_unstable`: all of them
return the sorted permutation, which for a total order is unique; insertion sort
is used as the definition because it computes well. -/
def isort {α : Type _} [LinearOrder α] : List α → List α
  | [] => []
  | a :: l => insertSorted a (isort l)

/-- Model of `Vec::dedup`: drops an element equal to its predecessor. -/
def dedupAdj {α : Type _} [DecidableEq α] : List α → List α
  | [] => []
  | [a] => [a]
  | a :: b :: l => if a = b then dedupAdj (b :: l) else a :: dedupAdj (b :: l)

/-- Strictly increasing lists. -/
def SortedLt {α : Type _} [LT α] (l : List α) : Prop := l.Pairwise (· < ·)

end Verif
