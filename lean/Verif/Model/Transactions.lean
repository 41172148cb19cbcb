import Verif.Model.Named
import Verif.TransactionSpec

/-!
Transactions as clients make them with the methods of a store (src/store/mod.rs): `head` or
`head_version` (700-732), `open_write` (251-259) or `create_base_layer` (870-872), changes,
`commit` (152-161) and `set_head` (735-763).
-/

namespace Verif

open Spec

variable {L N T : Type}

/-- A client makes the transaction `tx` on the graph `n`: it reads the head, a layer is committed
on top of what it read, then it calls `set_head` with that layer, which may not have returned.
The history does not say when the layer was committed; that it is there is what counts. -/
structure Transacts (h : LabelHistory L N) (anc : N → N → Out Bool → Prop) (log : History T)
    (code : N → Nat) (n : L) (tx : Transaction N T) : Prop where
  made : Event.commit (code tx.layer) (tx.read.map code) tx.calls ∈ log
  sets : ∃ (v t1 t2 : Nat) (ids : List Nat),
    Performs h anc (NamedGraph.headVersion n) tx.start ids (.ok (tx.read, v)) t1 ∧ t1 ≤ t2 ∧
    Begun h anc (NamedGraph.setHead n tx.layer) t2 tx.ids ∧
    ∀ r u, tx.outcome = some (r, u) → ∃ a,
      Performs h anc (NamedGraph.setHead n tx.layer) t2 tx.ids a u ∧ (r = true ↔ a = .ok true)

/-- All that is done with the label `n`: besides reading and making it, there are only the
transactions `txs`, each of which has a layer of its own. -/
structure OnlyTransactions (h : LabelHistory L N) (anc : N → N → Out Bool → Prop)
    (log : History T) (code : N → Nat) (n : L) (txs : Transaction N T → Prop) : Prop where
  each : ∀ tx, txs tx → Transacts h anc log code n tx
  own : ∀ tx tx', txs tx → txs tx' → tx.layer = tx'.layer → tx = tx'
  only : ∀ i c, h i = some c → c.op.name = n →
    c.op = .create n ∨ c.op = .get n ∨ ∃ tx, txs tx ∧ i ∈ tx.ids

/-- All that is done with the label `n`: it is read, made, and moved with `set_head`, to whatever
layers. -/
def OnlySetHead (h : LabelHistory L N) (anc : N → N → Out Bool → Prop) (n : L) : Prop :=
  ∀ i c, h i = some c → c.op.name = n → c.op = .create n ∨ c.op = .get n ∨
    ∃ layer t ids, Begun h anc (NamedGraph.setHead n layer) t ids ∧ i ∈ ids

end Verif
