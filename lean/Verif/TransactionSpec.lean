import Verif.LabelSpec
import Verif.History

/-!
The specification of transactions on a graph: a client reads the head, makes a layer on top of
it and asks for it to become the head. Transactions are serializable if those that took effect
can be put in an order such that everyone sees what they would see if these transactions had
been made one after the other. Nothing of the model is mentioned.
-/

namespace Verif.Spec

/-- A transaction of one client. `N` are the names of layers and `T` the triples. -/
structure Transaction (N T : Type) where
  /-- The moment the client begins. -/
  start : Nat
  /-- The layer that is read as the head. -/
  read : Option N
  /-- The changes that are made on top of it. -/
  calls : List (Call T)
  /-- The name of the new layer. -/
  layer : N
  /-- The calls on the label store that are made to put it in place. -/
  ids : List Nat
  /-- Whether success is reported, and when; nothing if the client has not been answered. -/
  outcome : Option (Bool × Nat)

instance {N T : Type} [Inhabited N] : Inhabited (Transaction N T) :=
  ⟨⟨0, none, [], default, [], none⟩⟩

variable {L N T : Type}

/-- The triples after some transactions, if each starts with what the one before has left. -/
def applied (P : List (Transaction N T)) : T → Prop :=
  P.foldl (fun before tx => after before tx.calls) (fun _ => False)

/-- The head after some transactions. -/
def headOf (P : List (Transaction N T)) : Option N := P.getLast?.map (·.layer)

/-- The transactions `order`, in this order, are those that took effect on the graph `n`. -/
structure Serialized (h : LabelHistory L N) (log : History T) (code : N → Nat) (n : L)
    (txs : Transaction N T → Prop) (order : List (Transaction N T)) : Prop where
  /-- They are transactions that were made, none twice. -/
  made : ∀ tx ∈ order, txs tx
  once : order.Nodup
  /-- A transaction that reports success took effect. -/
  success : ∀ tx u, txs tx → tx.outcome = some (true, u) → tx ∈ order
  /-- A transaction that does not report success took none. -/
  failure : ∀ tx u, txs tx → tx.outcome = some (false, u) → tx ∉ order
  /-- A transaction that began after another one had ended comes after it. -/
  inTime : order.Pairwise (fun a b => ∀ r u, b.outcome = some (r, u) → a.start ≤ u)
  /-- Each transaction has read what the ones before it have left. -/
  reads : ∀ P tx S, order = P ++ tx :: S → tx.read = headOf P
  /-- Whoever reads the label finds what some first transactions have left, and the version
  counts them. Among them is every one that ended before the read began, and none that
  began after the read had ended. -/
  seen : ∀ i t0 t1 l, h i = some ⟨.get n, t0, some (.got (some l), t1)⟩ →
    ∃ P S, order = P ++ S ∧ l = ⟨headOf P, P.length⟩ ∧ (∀ tx ∈ P, tx.start ≤ t1) ∧
      ∀ tx ∈ S, ∀ u, tx.outcome = some (true, u) → t0 ≤ u
  /-- The head has the triples that result from the changes of all transactions so far. -/
  triples : ∀ P S, order = P ++ S → ∀ t, log.below ((headOf P).map code) t ↔ applied P t

end Verif.Spec
