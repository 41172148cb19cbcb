import Verif.Model.Layer

/-!
The two forms of stored layers.
-/

namespace Verif

variable {K V : Type} [LinearOrder K] [LinearOrder V]

/-- What is in the files of a base layer: no list of subjects and no removals
(src/layer/internal/base.rs:38-80). -/
def LayerData.BaseForm (d : LayerData K V) : Prop := d.pos.subjects = none ∧ d.neg = none

/-- What is in the files of a child layer: removals, and lists of subjects
(src/layer/internal/child.rs:64-120). -/
def LayerData.ChildForm (d : LayerData K V) : Prop :=
  d.pos.subjects.isSome = true ∧ ∃ x, d.neg = some x ∧ x.subjects.isSome = true

/-- A layer without id maps: one that was not written as a rollup
(src/layer/internal/child.rs:83-101). -/
def LayerData.Plain (d : LayerData K V) : Prop := d.nvMap = none ∧ d.pMap = none

end Verif
