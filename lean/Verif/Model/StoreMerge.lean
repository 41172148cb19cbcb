import Verif.Model.Store
import Verif.Model.BaseMerge

/-!
Model of `merge_base_layer` (src/storage/layer.rs:2190-2217).
-/

namespace Verif

namespace Store

variable {K V : Type}

/-- The files of the given layers (src/storage/layer.rs:2195-2206): a layer with a parent is
an error. A layer that does not exist has no parent; its files fail to open later
(src/layer/internal/base_merge.rs:41, 64), which is an error too. -/
def baseFiles (st : Store K V) : List Name → Out (List (LayerData K V))
  | [] => .ok []
  | n :: ns =>
    match st.get? n with
    | none => .err
    | some e =>
      match e.parent with
      | some _ => .err
      | none => do
        let r ← baseFiles st ns
        return e.data :: r

/-- `merge_base_layer` (src/storage/layer.rs:2190-2217), up to the writing. -/
def mergeBase [LinearOrder K] [LinearOrder V] (st : Store K V) (ns : List Name) :
    Out (Plan K V) := do
  let ds ← st.baseFiles ns
  let d ← Out.ofOption (BaseMerge.mergeBases ds)
  return .write { parent := none, data := d }

end Store

end Verif
