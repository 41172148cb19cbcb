import Verif.Model.LabelStore
import Verif.Model.LockedLabels

/-!
Model of `NamedGraph` (src/store/mod.rs:684-821) as programs that call a label store and ask
about ancestors. Loading the layer in `head` is left out (see `Verif/Model/Store.lean` for the
loader).
-/

namespace Verif

open Spec

variable {L N : Type}

/-- A program: it returns, calls the label store, or asks whether `ancestor` is an ancestor of
`descendant`. -/
inductive Prog (L N α : Type) where
  | ret (a : Out α)
  | call (op : LabelOp L N) (k : LabelRes N → Prog L N α)
  | ask (descendant ancestor : N) (k : Out Bool → Prog L N α)

namespace NamedGraph

/-- `set_label(..).await?.is_some()` as in `set_head` (src/store/mod.rs:752-760) and
`force_set_head_version` (src/store/mod.rs:807-813). -/
def trySet (n : L) (label : LabelData N) (layer : N) : Prog L N Bool :=
  .call (.set n label (some layer)) fun r =>
    match r with
    | .set (some _) => .ret (.ok true)
    | .set none => .ret (.ok false)
    | _ => .ret .err

/-- `head_version` (src/store/mod.rs:700-727), without loading the layer. -/
def headVersion (n : L) : Prog L N (Option N × Nat) :=
  .call (.get n) fun r =>
    match r with
    | .got (some label) => .ret (.ok (label.layer, label.version))
    | _ => .ret .err

/-- `set_head` (src/store/mod.rs:735-763). -/
def setHead (n : L) (layer : N) : Prog L N Bool :=
  .call (.get n) fun r =>
    match r with
    | .got (some label) =>
      match label.layer with
      | none => trySet n label layer
      | some retrieved =>
        .ask layer retrieved fun b =>
          match b with
          | .ok true => trySet n label layer
          | .ok false => .ret (.ok false)
          | .err => .ret .err
          | .panic => .ret .panic
    | _ => .ret .err

/-- `force_set_head` (src/store/mod.rs:766-791). The first argument bounds the number of
rounds: running out of it stands for not returning. -/
def forceSetHead : Nat → L → N → Prog L N Unit
  | 0, _, _ => .ret .panic
  | fuel + 1, n, layer =>
    .call (.get n) fun r =>
      match r with
      | .got (some label) =>
        .call (.set n label (some layer)) fun r =>
          match r with
          | .set (some _) => .ret (.ok ())
          | .set none => forceSetHead fuel n layer
          | _ => .ret .err
      | _ => .ret .err

/-- `force_set_head_version` (src/store/mod.rs:794-816). -/
def forceSetHeadVersion (n : L) (layer : N) (version : Nat) : Prog L N Bool :=
  .call (.get n) fun r =>
    match r with
    | .got (some label) =>
      if label.version ≠ version then .ret (.ok false) else trySet n label layer
    | _ => .ret .err

/-- `delete` (src/store/mod.rs:818-820). -/
def delete (n : L) : Prog L N Unit :=
  .call (.delete n) fun r =>
    match r with
    | .deleted _ => .ret (.ok ())
    | _ => .ret .err

end NamedGraph

/-- The program ran to its end as part of the history `h`: between the times `t` and `u`, with
the calls `ids`, one after the other, and `a` was returned. `anc` says which answers about
ancestors are possible. -/
inductive Performs {α : Type} (h : LabelHistory L N) (anc : N → N → Out Bool → Prop) :
    Prog L N α → Nat → List Nat → Out α → Nat → Prop
  | ret {a : Out α} {t : Nat} : Performs h anc (.ret a) t [] a t
  | call {op : LabelOp L N} {k : LabelRes N → Prog L N α} {t t0 t1 u i : Nat} {r : LabelRes N}
      {ids : List Nat} {a : Out α} : h i = some ⟨op, t0, some (r, t1)⟩ → t < t0 →
      Performs h anc (k r) t1 ids a u → Performs h anc (.call op k) t (i :: ids) a u
  | ask {x y : N} {k : Out Bool → Prog L N α} {t t1 u : Nat} {b : Out Bool} {ids : List Nat}
      {a : Out α} : anc x y b → t ≤ t1 → Performs h anc (k b) t1 ids a u →
      Performs h anc (.ask x y k) t ids a u

/-- The program has begun as part of the history `h`, at the time `t`, and has made the calls
`ids`, one after the other; it need not have ended, and the last call need not be answered. -/
inductive Begun {α : Type} (h : LabelHistory L N) (anc : N → N → Out Bool → Prop) :
    Prog L N α → Nat → List Nat → Prop
  | idle {p : Prog L N α} {t : Nat} : Begun h anc p t []
  | waits {op : LabelOp L N} {k : LabelRes N → Prog L N α} {t t0 i : Nat} :
      h i = some ⟨op, t0, none⟩ → t < t0 → Begun h anc (.call op k) t [i]
  | call {op : LabelOp L N} {k : LabelRes N → Prog L N α} {t t0 t1 i : Nat} {r : LabelRes N}
      {ids : List Nat} : h i = some ⟨op, t0, some (r, t1)⟩ → t < t0 →
      Begun h anc (k r) t1 ids → Begun h anc (.call op k) t (i :: ids)
  | ask {x y : N} {k : Out Bool → Prog L N α} {t t1 : Nat} {b : Out Bool} {ids : List Nat} :
      anc x y b → t ≤ t1 → Begun h anc (k b) t1 ids → Begun h anc (.ask x y k) t ids

/-- The histories of the label stores on disk. -/
inductive DiskHistory [DecidableEq L] : LabelHistory L LayerName → Prop
  | directory {s : DirLabels L} : DirLabels.Run s → DiskHistory s.calls
  | cached {s : Shared (CachedLabels L) L LayerName} :
      Shared.Run CachedLabels.call ⟨[], fun _ => none⟩ s → DiskHistory s.calls
  | locked {s : LockedLabels L} {drops : LockedLabels.Phase → Bool} :
      (∀ p, drops p = true → LockedLabels.dropsWhole p = true) → LockedLabels.Run true drops s →
      DiskHistory s.calls

/-- The histories of the label store in memory. -/
inductive MemoryHistory [DecidableEq L] : LabelHistory L N → Prop
  | memory {s : Shared (LabelMap L N) L N} :
      Shared.Run MemoryLabels.call [] s → MemoryHistory s.calls

end Verif
