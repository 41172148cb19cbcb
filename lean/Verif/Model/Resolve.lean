import Verif.Model.Layer

/-!
Model of the partially resolved triples of `src/layer/layer.rs`.
-/

namespace Verif

variable {K V : Type}

/-- `PossiblyResolved` (src/layer/layer.rs:256-260). -/
inductive PossiblyResolved (α : Type) where
  | unresolved (a : α)
  | resolved (id : Nat)
deriving DecidableEq, Repr

/-- `is_resolved` (src/layer/layer.rs:264-269). -/
def PossiblyResolved.isResolved {α : Type} : PossiblyResolved α → Bool
  | .unresolved _ => false
  | .resolved _ => true

/-- `id.map(Resolved).unwrap_or(Unresolved(a))` (src/layer/layer.rs:120-136). -/
def PossiblyResolved.ofId {α : Type} (r : Option Nat) (a : α) : PossiblyResolved α :=
  match r with
  | some id => .resolved id
  | none => .unresolved a

/-- `PartiallyResolvedTriple` (src/layer/layer.rs:295-300). -/
structure PRTriple (K V : Type) where
  s : PossiblyResolved K
  p : PossiblyResolved K
  o : PossiblyResolved (Obj K V)
deriving DecidableEq

/-- `value_triple_to_partially_resolved` (src/layer/layer.rs:117-139). -/
def Stack.valueTripleToPartiallyResolved [DecidableEq K] [DecidableEq V]
    (S : List (LayerData K V)) (t : VTriple K V) : Option (PRTriple K V) := do
  let s ← Stack.nodeId S t.s
  let p ← Stack.predId S t.p
  let o ← Stack.objectId S t.o
  return ⟨.ofId s t.s, .ofId p t.p, .ofId o t.o⟩

namespace PRTriple

/-- The node in subject or object position looked up in the given map. -/
def lookup {α : Type} (f : α → Option Nat) : PossiblyResolved α → Option Nat
  | .unresolved a => f a
  | .resolved id => some id

/-- `resolve_with` (src/layer/layer.rs:303-330), the hash maps being functions. -/
def resolveWith (t : PRTriple K V) (node pred : K → Option Nat) (value : V → Option Nat) :
    Option Triple := do
  let s ← lookup node t.s
  let p ← lookup pred t.p
  let o ← lookup (fun o => match o with | .node n => node n | .value v => value v) t.o
  return ⟨s, p, o⟩

/-- `as_resolved` (src/layer/layer.rs:332-345). -/
def asResolved (t : PRTriple K V) : Option Triple :=
  match t.s, t.p, t.o with
  | .resolved s, .resolved p, .resolved o => some ⟨s, p, o⟩
  | _, _, _ => none

/-- `make_resolved_or_zero` (src/layer/layer.rs:347-356). -/
def makeResolvedOrZero (t : PRTriple K V) : PRTriple K V :=
  if !t.s.isResolved || !t.p.isResolved || !t.o.isResolved then
    ⟨.resolved 0, .resolved 0, .resolved 0⟩
  else t

end PRTriple

end Verif
