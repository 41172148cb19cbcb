import Verif.Model.Crash

/-!
What a crash may and may not harm.
-/

namespace Verif

variable {K V : Type}

/-- The loading of the first layer reads the files of the second: from a layer the loading goes on
to its rollup, or else to its parent. -/
inductive Store.Passes (st : Store K V) : Name → Name → Prop
  | self {n} : Passes st n n
  | rollup {n r m} : st.rollup? n = some r → Passes st r m → Passes st n m
  | parent {n p m} : st.rollup? n = none → st.parent? n = some p → Passes st p m → Passes st n m

/-- The rollup file of the layer is being written or its writing was cut off. -/
def Proc.Torn (p : Proc K V) (n : Name) : Prop := n ∈ p.cut ∨ ∃ g ∈ p.registering, g.layer = n

/-- Loading the layer reads no rollup file that is not complete. -/
def Proc.Clear (p : Proc K V) (n : Name) : Prop := ∀ m, p.world.store.Passes n m → ¬ p.Torn m

end Verif
