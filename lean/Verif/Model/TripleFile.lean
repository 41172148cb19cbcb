import Verif.Model.Succinct

/-!
Model of `src/layer/builder.rs`: the triple file builder and the object and
predicate indexes.
-/

namespace Verif

/-- `TripleFileBuilder` (src/layer/builder.rs:210-218). `subjects` is `some` for
the sparse variant used by child layers. The widths of the log arrays and the
output files are left out. -/
structure TripleBuilder where
  subjects : Option (List Nat)
  sp : AdjBuilder := {}
  spo : AdjBuilder := {}
  lastS : Nat := 0
  lastP : Nat := 0
deriving DecidableEq, Repr

namespace TripleBuilder

/-- `TripleFileBuilder::new` (src/layer/builder.rs:221-279); `sparse` says whether
a subjects file was given. -/
def new (sparse : Bool) : TripleBuilder :=
  { subjects := if sparse then some [] else none }

/-- The subjects after a new pair: a new subject is appended in the sparse variant
(src/layer/builder.rs:303-305). -/
def nextSubjects (b : TripleBuilder) (s : Nat) : Option (List Nat) :=
  match b.subjects with
  | some l => some (if s ≠ b.lastS then l ++ [s] else l)
  | none => none

/-- The row a subject is written to (src/layer/builder.rs:306-310). -/
def mappedSubject (subjects : Option (List Nat)) (s : Nat) : Nat :=
  match subjects with
  | some l => l.length
  | none => s

/-- `TripleFileBuilder::add_triple` (src/layer/builder.rs:284-323). `none` is a
panic, either the explicit one on an unordered subject or one of
`AdjacencyListBuilder::push`. -/
def addTriple (b : TripleBuilder) (t : Triple) : Option TripleBuilder :=
  if t.s = 0 ∨ t.p = 0 ∨ t.o = 0 then some b
  else if t.s < b.lastS then none
  else if b.lastS = t.s ∧ b.lastP = t.p then do
    let spo ← b.spo.push (b.sp.count + 1) t.o
    return { b with spo := spo, lastS := t.s, lastP := t.p }
  else do
    let sp ← b.sp.push (mappedSubject (b.nextSubjects t.s) t.s) t.p
    let spo ← b.spo.push (sp.count + 1) t.o
    return { subjects := b.nextSubjects t.s, sp := sp, spo := spo, lastS := t.s, lastP := t.p }

/-- `TripleFileBuilder::add_id_triples` (src/layer/builder.rs:328-338). -/
def addTriples (b : TripleBuilder) : List Triple → Option TripleBuilder
  | [] => some b
  | t :: ts => do
    let b' ← b.addTriple t
    b'.addTriples ts

end TripleBuilder

/-- The triple structures of one side (additions or removals) of a layer: the
files written by `TripleFileBuilder::finalize` (src/layer/builder.rs:340-363) and
by `build_indexes` (src/layer/builder.rs:533-554). -/
structure TripleIndex where
  subjects : Option (List Nat)
  objects : Option (List Nat)
  sp : AdjList
  spo : AdjList
  ops : AdjList
  wavelet : List Nat
deriving DecidableEq, Repr

/-- State of the sparse object index loop (src/layer/builder.rs:470-483). -/
structure ObjIndexState where
  objects : List Nat := []
  lastObject : Nat := 0
  objectIx : Nat := 0
  builder : AdjBuilder := {}

/-- The sparse object index loop (src/layer/builder.rs:473-483): objects in use
are renumbered to a contiguous range. -/
def sparseObjLoop (st : ObjIndexState) : List (Nat × Nat) → Option ObjIndexState
  | [] => some st
  | (object, sp) :: rest => do
    let st :=
      if object > st.lastObject then
        { st with objectIx := st.objectIx + 1, lastObject := object,
                  objects := st.objects ++ [object] }
      else st
    let b ← st.builder.push st.objectIx sp
    sparseObjLoop { st with builder := b } rest

/-- Lexicographic order on pairs, the derived order of the Rust tuple
`(object, sp)` sorted at src/layer/builder.rs:440. -/
structure NPair where
  a : Nat
  b : Nat
deriving DecidableEq, Repr

namespace NPair

def Lt (x y : NPair) : Prop := x.a < y.a ∨ (x.a = y.a ∧ x.b < y.b)
instance : LT NPair := ⟨Lt⟩
instance : LE NPair := ⟨fun x y => x = y ∨ Lt x y⟩
theorem lt_def (x y : NPair) : x < y ↔ x.a < y.a ∨ (x.a = y.a ∧ x.b < y.b) := Iff.rfl
theorem le_def (x y : NPair) : x ≤ y ↔ x = y ∨ x < y := Iff.rfl
theorem eq_iff (x y : NPair) : x = y ↔ x.a = y.a ∧ x.b = y.b := by
  cases x; cases y; simp
instance : DecidableLT NPair := fun a b => by
  unfold LT.lt instLT Lt; exact inferInstance
instance : DecidableLE NPair := fun a b => by
  unfold LE.le instLE Lt; exact inferInstance
instance : LinearOrder NPair where
  le_refl a := Or.inl rfl
  le_trans a b c := by simp only [le_def, lt_def, eq_iff]; omega
  lt_iff_le_not_ge a b := by simp only [le_def, lt_def, eq_iff]; omega
  le_antisymm a b := by simp only [le_def, lt_def, eq_iff]; omega
  le_total a b := by simp only [le_def, lt_def, eq_iff]; omega
  toDecidableLE := inferInstance
  toDecidableLT := inferInstance
  toDecidableEq := inferInstance

end NPair

/-- The sorted `(object, sp)` pairs of the object index
(src/layer/builder.rs:386-464). The external merge of spilled chunks (used only
beyond 2^31 pairs) is modelled together with the in-memory sort as one sort. -/
def objectPairs (spo : AdjList) : List (Nat × Nat) :=
  (isort ((streamPairs spo).map (fun q => NPair.mk q.2 q.1))).map (fun q => (q.a, q.b))

/-- `build_object_index_from_direct_files` (src/layer/builder.rs:367-502). -/
def buildObjectIndex (spo : AdjList) (sparse : Bool) : Option (Option (List Nat) × AdjList) :=
  if sparse then do
    let st ← sparseObjLoop {} (objectPairs spo)
    return (some st.objects, st.builder.finalize)
  else do
    let b ← ({} : AdjBuilder).pushAll (objectPairs spo)
    return (none, b.finalize)

/-- `TripleFileBuilder::finalize` followed by `build_indexes`
(src/layer/builder.rs:340-363, 533-554; child.rs:532-558, base.rs:383-402).
The predicate wavelet tree is built over the numbers of the s_p adjacency list
(src/layer/builder.rs:518-531, 541-546). -/
def TripleBuilder.finish (b : TripleBuilder) : Option TripleIndex := do
  let sp := b.sp.finalize
  let spo := b.spo.finalize
  let (objects, ops) ← buildObjectIndex spo b.subjects.isSome
  return { subjects := b.subjects, objects := objects, sp := sp, spo := spo, ops := ops,
           wavelet := sp.nums }

/-- All steps of building one side of a layer from a list of triples. -/
def buildIndex (sparse : Bool) (ts : List Triple) : Option TripleIndex := do
  let b ← (TripleBuilder.new sparse).addTriples ts
  b.finish

end Verif
