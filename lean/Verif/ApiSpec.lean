import Verif.History
import Verif.Model.Layer

/-!
The specification of the whole library as seen by one program that uses it: what each call may
answer. A store is a history of layers, each a set of triples with a numbering of its terms; named
graphs, the layers and builders that the program has in hand. Of the model only the types of
terms and triples are used (`Obj`, `VTriple`, `Triple`), no function on them.
-/

namespace Verif.Api

open Spec

variable {K V L : Type}

/-! ### Numberings -/

/-- The ids of a layer: what the ids of nodes and values and of predicates stand for, and how
many there are. -/
structure Ids (K V : Type) where
  nv : Nat → Option (Obj K V) := fun _ => none
  pred : Nat → Option K := fun _ => none
  nvCount : Nat := 0
  pCount : Nat := 0

namespace Ids

/-- The id triple `u` stands for `t`. -/
def code (i : Ids K V) (t : VTriple K V) (u : Triple) : Prop :=
  i.nv u.s = some (.node t.s) ∧ i.pred u.p = some t.p ∧ i.nv u.o = some t.o

/-- The id triples that stand for triples in `C`. -/
def ofSet (i : Ids K V) (C : VTriple K V → Prop) (u : Triple) : Prop := ∃ t, C t ∧ i.code t u

/-- `i` numbers the terms of the triples `C`: without gaps, each once, and as `below` does
where that has a number. -/
structure Fits (i below : Ids K V) (C : VTriple K V → Prop) : Prop where
  nvOnce : ∀ a b o, i.nv a = some o → i.nv b = some o → a = b
  predOnce : ∀ a b p, i.pred a = some p → i.pred b = some p → a = b
  nvRange : ∀ a, i.nv a ≠ none ↔ 1 ≤ a ∧ a ≤ i.nvCount
  predRange : ∀ a, i.pred a ≠ none ↔ 1 ≤ a ∧ a ≤ i.pCount
  covers : ∀ t, C t → ∃ u, i.code t u
  nvKept : ∀ a o, below.nv a = some o → i.nv a = some o
  predKept : ∀ a p, below.pred a = some p → i.pred a = some p

end Ids

/-! ### Questions about a layer -/

/-- The queries of a layer. -/
inductive Query (K V : Type) where
  | has (t : VTriple K V)
  | hasId (u : Triple)
  | toId (t : VTriple K V)
  | toStrings (u : Triple)
  | subjectId (k : K)
  | predicateId (k : K)
  | objectId (o : Obj K V)
  | idSubject (i : Nat)
  | idPredicate (i : Nat)
  | idObject (i : Nat)
  | idObjectIsNode (i : Nat)
  | nodeAndValueCount
  | predicateCount
  | triples
  | triplesS (s : Nat)
  | triplesSP (s p : Nat)
  | triplesP (p : Nat)
  | triplesO (o : Nat)
  | singleSP (s p : Nat)
  | tripleCount
  | allCounts
deriving DecidableEq

/-- The questions about the changes of a layer. -/
inductive ChangeQuery where
  | has (u : Triple)
  | all
  | withS (s : Nat)
  | withSP (s p : Nat)
  | withP (p : Nat)
  | withO (o : Nat)
  | count
deriving DecidableEq

/-- The answers. -/
inductive Answer (K V : Type) where
  | flag (b : Bool)
  | maybeFlag (b : Option Bool)
  | id (i : Option Nat)
  | ids (u : Option Triple)
  | strings (t : Option (VTriple K V))
  | text (k : Option K)
  | obj (o : Option (Obj K V))
  | number (k : Nat)
  | list (us : List Triple)
  | counts (nodes predicates values : Nat)
deriving DecidableEq

/-- The list has the id triples with `P`, each once, in order of subject, predicate, object. -/
def Lists (P : Triple → Prop) (us : List Triple) : Prop :=
  us.Pairwise (fun a b => a.s < b.s ∨ (a.s = b.s ∧ (a.p < b.p ∨ (a.p = b.p ∧ a.o < b.o)))) ∧
    ∀ u, u ∈ us ↔ P u

/-- There are `k` id triples with `P`. -/
def Counts (P : Triple → Prop) (k : Nat) : Prop := ∃ us, Lists P us ∧ us.length = k

/-- There are `k` things with `P`. -/
def Number {α : Type} (P : α → Prop) (k : Nat) : Prop :=
  ∃ l : List α, l.Nodup ∧ (∀ x, x ∈ l ↔ P x) ∧ l.length = k

/-- The answer to a query is right for a layer with triples `C` and ids `i`. -/
def Right (C : VTriple K V → Prop) (i : Ids K V) : Query K V → Answer K V → Prop
  | .has t, .flag b => b = true ↔ C t
  | .hasId u, .flag b => b = true ↔ i.ofSet C u
  | .toId t, .ids r => ∀ u, r = some u ↔ i.code t u
  | .toStrings u, .strings r => ∀ t, r = some t ↔ i.code t u
  | .subjectId k, .id r => ∀ a, r = some a ↔ i.nv a = some (.node k)
  | .predicateId k, .id r => ∀ a, r = some a ↔ i.pred a = some k
  | .objectId o, .id r => ∀ a, r = some a ↔ i.nv a = some o
  | .idSubject a, .text r => ∀ k, r = some k ↔ i.nv a = some (.node k)
  | .idPredicate a, .text r => r = i.pred a
  | .idObject a, .obj r => r = i.nv a
  | .idObjectIsNode a, .maybeFlag r =>
    (r = some true ↔ ∃ k, i.nv a = some (.node k)) ∧ (r = some false ↔ ∃ v, i.nv a = some (.value v))
  | .nodeAndValueCount, .number k => k = i.nvCount
  | .predicateCount, .number k => k = i.pCount
  | .triples, .list us => Lists (i.ofSet C) us
  | .triplesS s, .list us => Lists (fun u => i.ofSet C u ∧ u.s = s) us
  | .triplesSP s p, .list us => Lists (fun u => i.ofSet C u ∧ u.s = s ∧ u.p = p) us
  | .triplesP p, .list us => Lists (fun u => i.ofSet C u ∧ u.p = p) us
  | .triplesO o, .list us => Lists (fun u => i.ofSet C u ∧ u.o = o) us
  | .singleSP s p, .ids r =>
    (∀ u, r = some u → i.ofSet C u ∧ u.s = s ∧ u.p = p) ∧
      (r = none → ∀ u, i.ofSet C u → ¬ (u.s = s ∧ u.p = p))
  | .tripleCount, .number k => Counts (i.ofSet C) k
  | .allCounts, .counts n p v =>
    Number (fun k : K => ∃ a, i.nv a = some (.node k)) n ∧
      Number (fun k : K => ∃ a, i.pred a = some k) p ∧
      Number (fun k : V => ∃ a, i.nv a = some (.value k)) v
  | _, _ => False

/-- The answer to a question about changes is right when the id triples that changed are those
with `P`. -/
def RightChange (P : Triple → Prop) : ChangeQuery → Answer K V → Prop
  | .has u, .flag b => b = true ↔ P u
  | .all, .list us => Lists P us
  | .withS s, .list us => Lists (fun u => P u ∧ u.s = s) us
  | .withSP s p, .list us => Lists (fun u => P u ∧ u.s = s ∧ u.p = p) us
  | .withP p, .list us => Lists (fun u => P u ∧ u.p = p) us
  | .withO o, .list us => Lists (fun u => P u ∧ u.o = o) us
  | .count, .number k => Counts P k
  | _, _ => False

/-! ### Calls -/

/-- A change that a builder is asked for. -/
inductive Edit (K V : Type) where
  | addValue (t : VTriple K V)
  | removeValue (t : VTriple K V)
  | addId (u : Triple)
  | removeId (u : Triple)
deriving DecidableEq

/-- The calls. Layers in hand (`h`, `u`) and builders (`b`) are given by their numbers. -/
inductive Req (K V L : Type) where
  | createGraph (l : L)
  | openGraph (l : L)
  /-- `delete` of the store. -/
  | deleteGraph (l : L)
  /-- `delete` of the named graph. -/
  | dropGraph (l : L)
  | graphs
  | head (l : L)
  | setHead (l : L) (h : Nat)
  | forceSetHead (l : L) (h : Nat)
  | forceSetHeadVersion (l : L) (h version : Nat)
  | getLayer (n : Nat)
  | createBase
  | merge (ns : List Nat)
  | openWrite (h : Nat)
  | parent (h : Nat)
  | squash (h : Nat)
  | squashUpto (h u : Nat)
  | rollup (h : Nat)
  | rollupUpto (h u : Nat)
  | impreciseRollupUpto (h u : Nat)
  | stackNames (h : Nat)
  | layerName (h : Nat)
  | parentName (h : Nat)
  | query (h : Nat) (q : Query K V)
  | additions (h : Nat) (q : ChangeQuery)
  | removals (h : Nat) (q : ChangeQuery)
  | builderName (b : Nat)
  | builderParent (b : Nat)
  | edit (b : Nat) (e : Edit K V)
  | committed (b : Nat)
  | commitNoLoad (b : Nat)
  | commit (b : Nat)
  | applyDelta (b h : Nat)
  | applyDiff (b h : Nat)
deriving DecidableEq

/-- The answers. A new layer in hand or a new builder gets the next number. -/
inductive Ans (K V L : Type) where
  | done
  /-- An error is returned. -/
  | failed
  | panicked
  /-- There is no layer or builder in hand with this number. -/
  | invalid
  | absent
  | flag (b : Bool)
  | name (n : Nat)
  | maybeName (n : Option Nat)
  | names (ns : List Nat)
  | labels (ls : List L)
  /-- The head of a graph and its version. -/
  | head (h : Option Nat) (version : Nat)
  | layer (h : Nat)
  | builder (b : Nat)
  | answer (a : Answer K V)
deriving DecidableEq

/-! ### The state -/

/-- A builder: the name its layer will have, the layer it is on, and the changes it was given,
none once it is committed. -/
structure Builder (K V : Type) where
  name : Nat
  parent : Option Nat
  calls : Option (List (Call (VTriple K V)))

/-- The state of a store and of the program that uses it. -/
structure State (K V L : Type) where
  /-- The layers that were made. Rollups are not among them. -/
  log : History (VTriple K V) := []
  ids : Nat → Ids K V := fun _ => {}
  /-- The names that rollups have used up. -/
  hidden : List Nat := []
  /-- The layers that were rolled up: completely, or down to an ancestor. -/
  rolled : Nat → Option (Option Nat) := fun _ => none
  /-- The head of each graph and its version. -/
  graphs : L → Option (Option Nat × Nat) := fun _ => none
  /-- The layers in hand. -/
  handles : List Nat := []
  builders : List (Builder K V) := []
  /-- The names that were in use for layers that were never made, in processes that stopped. -/
  lost : List Nat := []

namespace State

/-- The ids of the layer that a builder is on. -/
def baseIds (s : State K V L) : Option Nat → Ids K V
  | none => {}
  | some p => s.ids p

/-- A name that was not used before. -/
def Fresh (s : State K V L) (n : Nat) : Prop :=
  ¬ s.log.known n ∧ n ∉ s.hidden ∧ (∀ b ∈ s.builders, b.name ≠ n) ∧ n ∉ s.lost

/-- A name by which a layer can be asked for: not one that is in use for something else. -/
def Askable (s : State K V L) (n : Nat) : Prop :=
  n ∉ s.hidden ∧ (∀ b ∈ s.builders, b.name = n → b.calls = none) ∧ n ∉ s.lost

/-- A new layer is made, with these ids. -/
def add (s : State K V L) (e : Event (VTriple K V)) (i : Ids K V) : State K V L :=
  { s with log := e :: s.log, ids := fun n => if n = e.new then i else s.ids n }

/-- A layer is taken in hand. -/
def hold (s : State K V L) (n : Nat) : State K V L := { s with handles := s.handles ++ [n] }

/-- The layer `n` was rolled up, completely or down to an ancestor. -/
def roll (s : State K V L) (n : Nat) (upto : Option Nat) (new : Nat) : State K V L :=
  { s with hidden := new :: s.hidden, rolled := fun m => if m = n then some upto else s.rolled m }

/-- Change a builder. -/
def setBuilder (s : State K V L) (b : Nat) (x : Builder K V) : State K V L :=
  { s with builders := s.builders.set b x }

/-- Change the head of a graph. -/
def setGraph [DecidableEq L] (s : State K V L) (l : L) (x : Option (Option Nat × Nat)) : State K V L :=
  { s with graphs := fun k => if k = l then x else s.graphs k }

/-- `u` is an ancestor of `n` and not `n`. -/
def Under (s : State K V L) (u n : Nat) : Prop := ∃ p, s.log.parent n = some p ∧ s.log.Ancestor u p

/-- Nothing from `n` down to the layers above `u` was rolled up. -/
def Unrolled (s : State K V L) (n u : Nat) : Prop :=
  ∀ m, s.log.Ancestor m n → s.Under u m → s.rolled m = none

/-- The changes `cs` are the ones that lead from `A` to `B`. -/
def Leads (A B : VTriple K V → Prop) (cs : List (Call (VTriple K V))) : Prop :=
  (∀ t, added cs t ↔ B t ∧ ¬ A t) ∧ ∀ t, removed cs t ↔ A t ∧ ¬ B t

end State

open State

/-- The change that an edit is to a builder on a layer with ids `i`: ids are replaced by the
strings they stand for. -/
def Edit.Means (i : Ids K V) : Edit K V → Call (VTriple K V) → Prop
  | .addValue t, .add t' => t' = t
  | .removeValue t, .remove t' => t' = t
  | .addId u, .add t => i.code t u
  | .removeId u, .remove t => i.code t u
  | _, _ => False

/-- What a call may answer, and the state after it. -/
inductive Step [DecidableEq L] : State K V L → Req K V L → Ans K V L → State K V L → Prop
  /- Named graphs. -/
  | createGraph {s l} : s.graphs l = none →
      Step s (.createGraph l) .done (s.setGraph l (some (none, 0)))
  | createGraphTwice {s l} : s.graphs l ≠ none → Step s (.createGraph l) .failed s
  | openGraph {s l b} : (b = true ↔ s.graphs l ≠ none) → Step s (.openGraph l) (.flag b) s
  | deleteGraph {s l b} : (b = true ↔ s.graphs l ≠ none) →
      Step s (.deleteGraph l) (.flag b) (s.setGraph l none)
  | dropGraph {s l} : Step s (.dropGraph l) .done (s.setGraph l none)
  | graphs {s ls} : ls.Nodup → (∀ l, l ∈ ls ↔ s.graphs l ≠ none) → Step s .graphs (.labels ls) s
  | headMissing {s l} : s.graphs l = none → Step s (.head l) .failed s
  | headNone {s l v} : s.graphs l = some (none, v) → Step s (.head l) (.head none v) s
  | head {s l n v} : s.graphs l = some (some n, v) →
      Step s (.head l) (.head (some s.handles.length) v) (s.hold n)
  | setHeadMissing {s l h} : s.graphs l = none → Step s (.setHead l h) .failed s
  | setHead {s l h n o v} : s.graphs l = some (o, v) → s.handles[h]? = some n →
      (∀ r, o = some r → s.log.Ancestor r n) →
      Step s (.setHead l h) (.flag true) (s.setGraph l (some (some n, v + 1)))
  | setHeadRefused {s l h n r v} : s.graphs l = some (some r, v) → s.handles[h]? = some n →
      ¬ s.log.Ancestor r n → Step s (.setHead l h) (.flag false) s
  | forceSetHeadMissing {s l h} : s.graphs l = none → Step s (.forceSetHead l h) .failed s
  | forceSetHead {s l h n o v} : s.graphs l = some (o, v) → s.handles[h]? = some n →
      Step s (.forceSetHead l h) .done (s.setGraph l (some (some n, v + 1)))
  | forceSetHeadVersionMissing {s l h v} : s.graphs l = none →
      Step s (.forceSetHeadVersion l h v) .failed s
  | forceSetHeadVersion {s l h n o v} : s.graphs l = some (o, v) → s.handles[h]? = some n →
      Step s (.forceSetHeadVersion l h v) (.flag true) (s.setGraph l (some (some n, v + 1)))
  | forceSetHeadVersionRefused {s l h o v v'} : s.graphs l = some (o, v) → v ≠ v' →
      Step s (.forceSetHeadVersion l h v') (.flag false) s
  /- Layers. -/
  | getLayer {s n} : s.log.known n → Step s (.getLayer n) (.layer s.handles.length) (s.hold n)
  | getLayerAbsent {s n} : ¬ s.log.known n → Step s (.getLayer n) .absent s
  | parent {s h n p} : s.handles[h]? = some n → s.log.parent n = some p →
      Step s (.parent h) (.layer s.handles.length) (s.hold p)
  | parentNone {s h n} : s.handles[h]? = some n → s.log.parent n = none →
      Step s (.parent h) .absent s
  | layerName {s h n} : s.handles[h]? = some n → Step s (.layerName h) (.name n) s
  | parentName {s h n} : s.handles[h]? = some n →
      Step s (.parentName h) (.maybeName (s.log.parent n)) s
  | stackNames {s h n ns} : s.handles[h]? = some n → s.log.Line n ns →
      Step s (.stackNames h) (.names ns) s
  | query {s h n q a} : s.handles[h]? = some n → Right (s.log.triples n) (s.ids n) q a →
      Step s (.query h q) (.answer a) s
  | additions {s h n q a} : s.handles[h]? = some n →
      RightChange ((s.ids n).ofSet (s.log.addedBy n)) q a → Step s (.additions h q) (.answer a) s
  | removals {s h n q a} : s.handles[h]? = some n →
      RightChange ((s.ids n).ofSet (s.log.removedBy n)) q a → Step s (.removals h q) (.answer a) s
  /- Squashes, merges and rollups. -/
  | squash {s h n new i} : s.handles[h]? = some n → s.Fresh new →
      i.Fits {} (s.log.triples n) →
      Step s (.squash h) (.layer s.handles.length) ((s.add (.squash new n) i).hold new)
  | squashUpto {s h u n m new i} : s.handles[h]? = some n → s.handles[u]? = some m →
      s.Under m n → s.Fresh new → i.Fits (s.ids m) (s.log.triples n) →
      Step s (.squashUpto h u) (.layer s.handles.length) ((s.add (.squashUpto new n m) i).hold new)
  | squashUptoWrong {s h u n m} : s.handles[h]? = some n → s.handles[u]? = some m →
      ¬ s.Under m n → Step s (.squashUpto h u) .failed s
  | merge {s ns new i} : (∀ n ∈ ns, s.log.known n ∧ s.log.parent n = none) → s.Fresh new →
      i.Fits {} (fun t => ∃ n ∈ ns, s.log.triples n t) →
      Step s (.merge ns) (.name new) (s.add (.merge new ns) i)
  | mergeWrong {s ns} : (∃ n ∈ ns, ¬ (s.log.known n ∧ s.log.parent n = none)) →
      Step s (.merge ns) .failed s
  /-- A base layer or a layer that is rolled up completely is left alone. -/
  | rollupNothing {s h n} : s.handles[h]? = some n →
      s.log.parent n = none ∨ s.rolled n = some none → Step s (.rollup h) .done s
  | rollup {s h n new} : s.handles[h]? = some n → s.log.parent n ≠ none →
      s.rolled n ≠ some none → s.Fresh new → Step s (.rollup h) .done (s.roll n none new)
  | rollupUptoNothing {s h u n m c} : s.handles[h]? = some n → s.handles[u]? = some m →
      n = m ∨ s.log.parent n = some m ∨ (s.Under m n ∧ s.rolled n = some (some m)) →
      c = .rollupUpto h u ∨ c = .impreciseRollupUpto h u → Step s c .done s
  | rollupUptoWrong {s h u n m c} : s.handles[h]? = some n → s.handles[u]? = some m →
      n ≠ m → s.log.parent n ≠ some m → ¬ s.Under m n ∨ s.rolled n = some none →
      c = .rollupUpto h u ∨ c = .impreciseRollupUpto h u → Step s c .failed s
  | rollupUpto {s h u n m new c} : s.handles[h]? = some n → s.handles[u]? = some m →
      n ≠ m → s.log.parent n ≠ some m → s.Under m n → s.Unrolled n m → s.Fresh new →
      c = .rollupUpto h u ∨ c = .impreciseRollupUpto h u → Step s c .done (s.roll n (some m) new)
  /- Builders. -/
  | createBase {s new} : s.Fresh new →
      Step s .createBase (.builder s.builders.length)
        { s with builders := s.builders ++ [⟨new, none, some []⟩] }
  | openWrite {s h n new} : s.handles[h]? = some n → s.Fresh new →
      Step s (.openWrite h) (.builder s.builders.length)
        { s with builders := s.builders ++ [⟨new, some n, some []⟩] }
  | builderName {s b x} : s.builders[b]? = some x → Step s (.builderName b) (.name x.name) s
  | builderParent {s b x n} : s.builders[b]? = some x → x.parent = some n →
      Step s (.builderParent b) (.layer s.handles.length) (s.hold n)
  | builderParentNone {s b x} : s.builders[b]? = some x → x.parent = none →
      Step s (.builderParent b) .absent s
  | edit {s b x cs e c} : s.builders[b]? = some x → x.calls = some cs →
      Edit.Means (s.baseIds x.parent) e c →
      Step s (.edit b e) .done (s.setBuilder b { x with calls := some (cs ++ [c]) })
  | editCommitted {s b x e} : s.builders[b]? = some x → x.calls = none →
      Step s (.edit b e) .failed s
  | committed {s b x f} : s.builders[b]? = some x → (f = true ↔ x.calls = none) →
      Step s (.committed b) (.flag f) s
  | commitNoLoad {s b x cs i} : s.builders[b]? = some x → x.calls = some cs →
      i.Fits (s.baseIds x.parent) (after (s.log.below x.parent) cs) →
      Step s (.commitNoLoad b) .done
        ((s.add (.commit x.name x.parent cs) i).setBuilder b { x with calls := none })
  | commit {s b x cs i} : s.builders[b]? = some x → x.calls = some cs →
      i.Fits (s.baseIds x.parent) (after (s.log.below x.parent) cs) →
      Step s (.commit b) (.layer s.handles.length)
        (((s.add (.commit x.name x.parent cs) i).setBuilder b { x with calls := none }).hold x.name)
  | commitTwice {s b x c} : s.builders[b]? = some x → x.calls = none →
      c = .commitNoLoad b ∨ c = .commit b → Step s c .failed s
  | applyDelta {s b h x n cs cs'} : s.builders[b]? = some x → x.calls = some cs →
      s.handles[h]? = some n → Leads (s.log.below (s.log.parent n)) (s.log.triples n) cs' →
      Step s (.applyDelta b h) .done (s.setBuilder b { x with calls := some (cs ++ cs') })
  /-- `apply_delta` drops the errors of a committed builder. -/
  | applyDeltaCommitted {s b h x n} : s.builders[b]? = some x → x.calls = none →
      s.handles[h]? = some n → Step s (.applyDelta b h) .done s
  | applyDiff {s b h x n cs cs'} : s.builders[b]? = some x → x.calls = some cs →
      s.handles[h]? = some n → Leads (s.log.below x.parent) (s.log.triples n) cs' →
      Step s (.applyDiff b h) .done (s.setBuilder b { x with calls := some (cs ++ cs') })

/-! ### Contracts -/

/-- The layer with this number is in hand. -/
def State.Held (s : State K V L) (h : Nat) : Prop := ∃ n, s.handles[h]? = some n

/-- There is a builder with this number. -/
def State.Built (s : State K V L) (b : Nat) : Prop := ∃ x, s.builders[b]? = some x

/-- The questions about changes `P` that are answered rightly. The predicate 0 is not to be asked
for, nor an object that does not occur in the changes and is not larger than those that do. -/
def ChangeQuery.Sound (P : Triple → Prop) : ChangeQuery → Prop
  | .withP p => p ≠ 0
  | .withO o => o ≠ 0 ∧ ((∃ u, P u ∧ u.o = o) ∨ ∀ u, P u → u.o < o)
  | _ => True

/-- The calls for which the code keeps to the specification; for others see DESIGN.md,
section 4. -/
def InContract (s : State K V L) : Req K V L → Prop
  | .createGraph _ | .openGraph _ | .deleteGraph _ | .dropGraph _ | .graphs | .head _
  | .createBase => True
  | .setHead _ h | .forceSetHead _ h | .forceSetHeadVersion _ h _ | .openWrite h | .parent h
  | .squash h | .rollup h | .stackNames h | .layerName h | .parentName h => s.Held h
  | .getLayer n => s.Askable n
  | .merge ns => ∀ n ∈ ns, s.Askable n
  | .squashUpto h u => s.Held h ∧ s.Held u
  /- A layer that was rolled up to some other ancestor, or with layers in between that were
  rolled up, is not to be rolled up to `u`. -/
  | .rollupUpto h u | .impreciseRollupUpto h u => ∃ n m, s.handles[h]? = some n ∧
      s.handles[u]? = some m ∧ (n = m ∨ s.log.parent n = some m ∨ ¬ s.Under m n ∨
        s.rolled n = some none ∨ s.rolled n = some (some m) ∨ s.Unrolled n m)
  /- The predicate 0 is not to be asked for. -/
  | .query h q => s.Held h ∧ q ≠ .triplesP 0
  | .additions h q => ∃ n, s.handles[h]? = some n ∧ q.Sound ((s.ids n).ofSet (s.log.addedBy n))
  | .removals h q => ∃ n, s.handles[h]? = some n ∧ q.Sound ((s.ids n).ofSet (s.log.removedBy n))
  | .builderName b | .builderParent b | .committed b | .commitNoLoad b | .commit b => s.Built b
  /- Ids have to be those of a triple that the layer below knows the terms of. -/
  | .edit b e => ∃ x, s.builders[b]? = some x ∧
      (x.calls ≠ none → ∃ c, Edit.Means (s.baseIds x.parent) e c)
  | .applyDelta b h => s.Built b ∧ s.Held h
  /- Not with a committed builder. -/
  | .applyDiff b h => s.Held h ∧ ∃ x, s.builders[b]? = some x ∧ x.calls ≠ none

/-- The answers to a series of calls are as specified, up to the first call outside of the
contract. -/
inductive Explains [DecidableEq L] : State K V L → List (Req K V L × Ans K V L) → Prop
  | nil {s} : Explains s []
  | step {s c r s' rest} : InContract s c → Step s c r s' → Explains s' rest →
      Explains s ((c, r) :: rest)
  | out {s c r rest} : ¬ InContract s c → Explains s ((c, r) :: rest)

/-- The same, with the name that each call was free to use for a new layer: no call uses up
another name. -/
inductive ExplainsNames [DecidableEq L] : State K V L → List (Req K V L × Ans K V L × Nat) → Prop
  | nil {s} : ExplainsNames s []
  | step {s c r s' new rest} : InContract s c → Step s c r s' →
      (∀ n, s.Fresh n → n ≠ new → s'.Fresh n) → ExplainsNames s' rest →
      ExplainsNames s ((c, r, new) :: rest)
  | out {s c r new rest} : ¬ InContract s c → ExplainsNames s ((c, r, new) :: rest)

end Verif.Api
