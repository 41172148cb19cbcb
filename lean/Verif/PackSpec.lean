import Verif.Model.Pack
import Verif.NameSpec

/-!
What is expected of packs.
-/

namespace Verif.PackSpec

/-- Whether a layer has a parent file. -/
def IsChild (B : Backend) (s : B.State) (n : LayerName) : Bool :=
  match B.fileExists s n FileName.parent with
  | .ok b => b
  | _ => false

/-- The number of bytes of a layer. -/
def bytes (B : Backend) (s : B.State) (n : LayerName) : Nat :=
  ((names (IsChild B s n)).map (fun f =>
    match B.map s n f with
    | .ok b => b.length
    | _ => 0)).sum

/-- Two stores give the same answers about a file. -/
def SameFile (B₁ : Backend) (s₁ : B₁.State) (B₂ : Backend) (s₂ : B₂.State) (n : LayerName)
    (f : FileName) : Prop :=
  B₁.fileExists s₁ n f = B₂.fileExists s₂ n f ∧ B₁.map s₁ n f = B₂.map s₂ n f ∧
    B₁.size s₁ n f = B₂.size s₂ n f

/-- A layer answers the same in two states. -/
def Unchanged (B : Backend) (s s' : B.State) (n : LayerName) : Prop :=
  B.directoryExists s' n = B.directoryExists s n ∧
  (∀ f, B.fileExists s' n f = B.fileExists s n f ∧ B.map s' n f = B.map s n f ∧
    B.size s' n f = B.size s n f) ∧
  B.layerParent s' n = B.layerParent s n

/-! ### Parents -/

/-- An entry of a pack is in the directory of a layer. -/
def Belongs (e : PackEntry) (n : LayerName) : Prop :=
  ∃ c, e.path.head? = some c ∧ stringToName (textOf c) = .ok n

/-- An entry of a pack is a parent file. -/
def IsParent (e : PackEntry) : Prop := e.path.getLast? = some "parent.hex"

/-- An entry of a pack says that a layer has a parent. -/
def Records (e : PackEntry) (n p : LayerName) : Prop :=
  Belongs e n ∧ IsParent e ∧ readParentFile e.content = .ok p

/-- An entry of a pack can be understood: it belongs to a layer, it has a name, and if it is a
parent file, it says which layer is the parent. -/
def Readable (e : PackEntry) : Prop :=
  ∃ n, Belongs e n ∧ (∃ f, e.path.getLast? = some f ∧ f ≠ ".." ∧ f ≠ "." ∧ f ≠ "/") ∧
    (IsParent e → ∃ p, Records e n p)

end Verif.PackSpec
