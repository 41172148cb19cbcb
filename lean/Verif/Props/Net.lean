import Verif.Lemmas.NetSim

/-!
C63: a program that uses several stores and carries layers from one to another in packs cannot tell
them from the simple stores of `Verif/NetSpec.lean`, in which a name stands for the same layer
everywhere.
-/

set_option linter.unusedSectionVars false

namespace Verif.Net

open Spec SimpleBuilder Store World

variable {K V L : Type} [LinearOrder K] [LinearOrder V] [DecidableEq L]

/-- C63: whatever a program does with several new stores, call after call, the answers are those of
the simple stores, up to the first call that is outside of the contract, and in all of them a name
stands for the same layer; the simple stores use the names that the stores have chosen. Missing:
calls outside of the contract, see `InContract`. -/
theorem C63_names_partial {disk : Nat → Bool} {tr : List (Req K V L × Ans K V L × Name)}
    (h : NamedTrace (.new disk) tr) :
    ExplainsNames {} tr :=
  NetSim.explains h NetSim.start

theorem Trace.named {N : Stores K V L} {tr : List (Req K V L × Ans K V L)}
    (h : Trace N tr) : ∃ tr', NamedTrace N tr' ∧ tr = tr'.map fun q => (q.1, q.2.1) := by
  induction h with
  | nil => exact ⟨[], .nil, rfl⟩
  | @call N ch c rest hch _ ih =>
    obtain ⟨tr', h1, h2⟩ := ih
    exact ⟨_, .call hch h1, by rw [h2]; rfl⟩

theorem ExplainsNames.forget {A : State K V L} {tr : List (Req K V L × Ans K V L × Nat)}
    (h : ExplainsNames A tr) : Explains A (tr.map fun q => (q.1, q.2.1)) := by
  induction h with
  | nil => exact .nil
  | step h1 h2 h3 _ _ ih => exact .step h1 h2 h3 ih
  | out h1 => exact .out h1

/-- C63 without the names. -/
theorem C63_stores_partial {disk : Nat → Bool} {tr : List (Req K V L × Ans K V L)}
    (h : Trace (.new disk) tr) :
    Explains {} tr := by
  obtain ⟨tr', h1, rfl⟩ := h.named
  exact (C63_names_partial h1).forget

omit [LinearOrder K] [LinearOrder V] in
/-- The simple stores never panic, have all that they gave out, and only fail to make packs of
layers that they do not have. -/
theorem C63_no_panic {s s' : State K V L} {c : Req K V L} {r : Ans K V L} (h : Step s c r s') :
    r ≠ .invalid ∧ r ≠ .said .panicked ∧ (r = .failed → ∃ i ns, c = .pack i ns ∧ ∃ n ∈ ns, ¬ s.has i n) := by
  cases h with
  | on h1 _ =>
    refine ⟨by simp, ?_, by simp⟩
    intro e
    cases e
    exact (Api.C56_no_panic h1).1 rfl
  | packFailed h1 => exact ⟨by simp, by simp, fun _ => ⟨_, _, rfl, h1⟩⟩
  | _ => simp

/-! ### What was written into one store can be read in another -/

section Inv

variable {s s' : State K V L} {r : Ans K V L}

theorem Step.on_inv {i : Nat} {c : Api.Req K V L} (h : Step s (.on i c) r s') :
    ∃ q a, r = .said q ∧ Api.Step (s.stores i) c q a ∧ s' = s.set i a := by
  cases h with
  | on h1 _ => exact ⟨_, _, rfl, h1, rfl⟩

theorem contract_set {i : Nat} {a : Api.State K V L} {c : Api.Req K V L} :
    InContract (s.set i a) (.on i c) ↔ Api.InContract a c := by
  simp only [InContract, aset_at]

theorem Step.unpack_inv {i p : Nat} {ns : List Nat} (h : Step s (.unpack i p ns) r s') :
    ∃ (P : Shipment K V) (ms : List Nat), s.packs[p]? = some P ∧ ms.Nodup ∧ (∀ n, n ∈ ms ↔ n ∈ ns) ∧
      s' = s.set i (ms.foldl (receive P) (s.stores i)) := by
  cases h with
  | unpack h1 _ h3 h4 => exact ⟨_, _, h1, h3, h4, rfl⟩

theorem _root_.Verif.Api.Step.layerName_inv {s s' : Api.State K V L} {r : Api.Ans K V L} {h n : Nat}
    (hs : Api.Step s (.layerName h) r s') (hn : s.handles[h]? = some n) : r = .name n ∧ s' = s := by
  cases hs
  case layerName g => rw [hn] at g; cases g; exact ⟨rfl, rfl⟩
  all_goals (rename_i hx; rcases hx with hx | hx <;> cases hx)

theorem _root_.Verif.Api.Step.getLayer_inv {s s' : Api.State K V L} {r : Api.Ans K V L} {n : Nat}
    (hs : Api.Step s (.getLayer n) r s') (hn : s.log.known n) :
    r = .layer s.handles.length ∧ s' = s.hold n := by
  cases hs
  case getLayer g => exact ⟨rfl, rfl⟩
  case getLayerAbsent g => exact absurd hn g
  all_goals (rename_i hx; rcases hx with hx | hx <;> cases hx)

/-- A builder collects what it is told. -/
theorem Explains.edits {rest : List (Req K V L × Ans K V L)} {i b : Nat} :
    ∀ {cs : List (Call (VTriple K V))} {rs : List (Ans K V L)} {A : State K V L}
      {x : Api.Builder K V} {old : List (Call (VTriple K V))}, rs.length = cs.length →
      (A.stores i).builders[b]? = some x → x.calls = some old →
      Explains A ((cs.map fun c => Req.on i (.edit b (Api.editOf c))).zip rs ++ rest) →
      ∃ a : Api.State K V L, Explains (A.set i a) rest ∧ a.log = (A.stores i).log ∧
        a.handles = (A.stores i).handles ∧ a.hidden = (A.stores i).hidden ∧
        a.builders[b]? = some { x with calls := some (old ++ cs) }
  | [], rs, A, x, old, _, hb, hx, h => by
    refine ⟨A.stores i, ?_, rfl, rfl, rfl, by rw [List.append_nil, ← hx]; exact hb⟩
    have : A.set i (A.stores i) = A := by
      unfold State.set
      congr
      funext j
      split
      · rename_i e; rw [e]
      · rfl
    rw [this]
    exact h
  | c :: cs, [], A, x, old, hl, _, _, _ => by simp at hl
  | c :: cs, r :: rs, A, x, old, hl, hb, hx, h => by
    simp only [List.map_cons, List.zip_cons_cons, List.cons_append] at h
    cases h with
    | out hc => exact absurd ⟨x, hb, fun _ => ⟨c, Api.editOf_means.2 rfl⟩⟩ hc
    | step _ hs _ hr =>
      obtain ⟨q, a, _, hs1, rfl⟩ := hs.on_inv
      obtain ⟨c', g1, rfl⟩ := hs1.edit_inv hb hx
      rw [Api.editOf_means.1 g1] at hr
      obtain ⟨a', k1, k2, k3, k4, k5⟩ := Explains.edits (i := i) (b := b) (cs := cs)
        (x := { x with calls := some (old ++ [c]) }) (old := old ++ [c])
        (Nat.succ.inj hl) (by
          rw [aset_at]
          show ((A.stores i).builders.set b _)[b]? = _
          rw [List.getElem?_set_self (List.getElem?_eq_some_iff.1 hb).1]) rfl hr
      rw [aset_at] at k2 k3 k4
      refine ⟨a', ?_, k2, k3, k4, ?_⟩
      · have : ∀ y, (A.set i y).set i a' = A.set i a' := by
          intro y
          unfold State.set
          congr
          funext j
          by_cases hj : j = i <;> simp [hj]
        rw [this] at k1
        exact k1
      · rw [k5, List.append_assoc]
        rfl

end Inv

/-- A program makes a base layer with any changes in one store, packs it, puts it into another store
and asks there for a triple: it is there if the changes say so. -/
theorem C63_write_here_read_there {cs : List (Call (VTriple K V))} {t : VTriple K V} {n : Nat}
    {r0 rc rp ru rg rq : Ans K V L} {rs : List (Ans K V L)} (hl : rs.length = cs.length)
    {disk : Nat → Bool} (h : Trace (.new disk : Stores K V L) ((.on 0 .createBase, r0) ::
      ((cs.map fun c => Req.on 0 (.edit 0 (Api.editOf c))).zip rs ++
        [(.on 0 (.commit 0), rc), (.on 0 (.layerName 0), .said (.name n)), (.pack 0 [n], rp),
         (.unpack 1 0 [n], ru), (.on 1 (.getLayer n), rg), (.on 1 (.query 0 (.has t)), rq)]))) :
    ∃ b, rq = .said (.answer (.flag b)) ∧ (b = true ↔ after (fun _ => False) cs t) := by
  have h := C63_stores_partial h
  cases h with
  | out hc => exact absurd trivial hc
  | step _ hs _ hr =>
  obtain ⟨_, a, _, hs1, rfl⟩ := hs.on_inv
  obtain ⟨m, _, rfl⟩ := hs1.createBase_inv
  obtain ⟨a, k1, k2, k3, k4, k5⟩ := Explains.edits (i := 0) (b := 0) (x := ⟨m, none, some []⟩)
    (old := []) hl (by rw [aset_at]; rfl) rfl hr
  clear hs hr hs1
  rw [aset_at] at k2 k3 k4
  rw [List.nil_append] at k5
  have k2 : a.log = [] := k2
  have k3 : a.handles = [] := k3
  have k4 : a.hidden = [] := k4
  cases k1 with
  | out hc => exact absurd ⟨_, by rw [aset_at]; exact k5⟩ hc
  | step _ hs _ hr =>
  obtain ⟨_, a', _, hs1, rfl⟩ := hs.on_inv
  rw [aset_at] at hs1
  obtain ⟨i, _, rfl⟩ := hs1.commit_inv k5 rfl
  clear hs hs1
  generalize ha : ((a.add (.commit m none cs) i).setBuilder 0 ⟨m, none, none⟩).hold m = a1 at hr
  have ha1 : a1.log = [.commit m none cs] := by rw [← ha, ← k2]; rfl
  have ha2 : a1.handles = [m] := by
    rw [← ha]
    show a.handles ++ [m] = _
    rw [k3]; rfl
  have ha3 : a1.hidden = [] := by rw [← ha, ← k4]; rfl
  cases hr with
  | out hc => exact absurd ⟨m, by rw [aset_at, ha2]; rfl⟩ hc
  | step _ hs _ hr =>
  obtain ⟨_, a', e, hs1, rfl⟩ := hs.on_inv
  rw [aset_at] at hs1
  obtain ⟨rfl, ea⟩ := hs1.layerName_inv (n := m) (by rw [ha2]; rfl)
  rw [ea] at hr
  have e : n = m := by injection e with e; injection e
  subst e
  clear hs hs1
  -- the pack
  obtain ⟨A, hA, hA0, hA1, hA2⟩ : ∃ A : State K V L, Explains A
      [(.pack 0 [n], rp), (.unpack 1 0 [n], ru), (.on 1 (.getLayer n), rg),
       (.on 1 (.query 0 (.has t)), rq)] ∧ A.stores 0 = a1 ∧ A.stores 1 = {} ∧ A.packs = [] :=
    ⟨_, hr, aset_at _ _ _, rfl, rfl⟩
  clear hr
  have hn : A.has 0 n := by
    unfold State.has
    rw [hA0, ha1]
    exact History.known_cons.2 (Or.inl rfl)
  cases hA with
  | out hc =>
    refine absurd ?_ hc
    intro q _
    rw [hA0, ha3]
    simp
  | step _ hs _ hr =>
  cases hs with
  | packFailed hx =>
    obtain ⟨q, hq, hx⟩ := hx
    rw [List.mem_singleton] at hq
    subst hq
    exact absurd hn hx
  | pack _ =>
  generalize hB : ({ A with packs := A.packs ++ [fun q => if q ∈ [n] then some (A.layer 0 q) else none] } :
    State K V L) = B at hr
  have hB1 : B.stores 1 = {} := by rw [← hB]; exact hA1
  have hB2 : B.packs[0]? = some (fun q => if q ∈ [n] then some (A.layer 0 q) else none) := by
    rw [← hB, hA2]; rfl
  have hL : A.layer 0 n = ⟨none, after (fun _ => False) cs, a1.ids n⟩ := by
    unfold State.layer
    rw [hA0, ha1]
    congr
    · simp [History.parent, Event.new, Event.parent]
    · funext u
      exact propext (Api.commit_triples u)
  -- the other store
  cases hr with
  | out hc =>
    refine absurd ⟨_, hB2, ?_⟩ hc
    intro q hq
    refine ⟨A.layer 0 q, by simp [hq], ?_, ?_⟩
    · unfold State.has
      rw [hB1]
      rintro ⟨e, he, _⟩
      cases he
    · rw [List.mem_singleton] at hq
      subst hq
      rw [hL]
      intro p hp
      cases hp
  | step _ hs _ hr =>
  obtain ⟨P, ms, g1, g3, g4, rfl⟩ := hs.unpack_inv
  rw [hB2] at g1
  cases g1
  have hms : ms = [n] := by
    have h1 := (g4 n).2 (List.mem_singleton.2 rfl)
    match ms, g3, g4, h1 with
    | [q], _, g4, _ =>
      have := (g4 q).1 (List.mem_singleton.2 rfl)
      rw [List.mem_singleton] at this
      rw [this]
    | q :: q' :: _, g3, g4, _ =>
      have h2 := (g4 q).1 (List.mem_cons_self ..)
      have h3 := (g4 q').1 (List.mem_cons_of_mem _ (List.mem_cons_self ..))
      rw [List.mem_singleton] at h2 h3
      rw [List.nodup_cons] at g3
      exact absurd (by rw [h2, h3]; exact List.mem_cons_self ..) g3.1
  subst hms
  have hrec : [n].foldl (receive (fun q => if q ∈ [n] then some (A.layer 0 q) else none)) (B.stores 1) =
      (B.stores 1).add (.imported n none (after (fun _ => False) cs)) (a1.ids n) := by
    simp only [List.foldl_cons, List.foldl_nil, receive, List.mem_singleton, if_true, hL]
  rw [hrec, hB1] at hr
  have hk : (Api.State.add ({} : Api.State K V L) (.imported n none (after (fun _ => False) cs))
      (a1.ids n)).log.known n := History.known_cons.2 (Or.inl rfl)
  cases hr with
  | out hc =>
    exact absurd ⟨fun h => (by cases h), (fun _ h => by cases h), fun h => by cases h⟩ (fun hx => hc (contract_set.2 hx))
  | step _ hs _ hr =>
  obtain ⟨_, b, _, hs1, rfl⟩ := hs.on_inv
  rw [aset_at] at hs1
  obtain ⟨_, rfl⟩ := hs1.getLayer_inv hk
  cases hr with
  | out hc =>
    exact absurd ⟨⟨n, rfl⟩, by simp⟩ (fun hx => hc (contract_set.2 hx))
  | step _ hs _ hr =>
  obtain ⟨q, b, rfl, hs1, _⟩ := hs.on_inv
  rw [aset_at] at hs1
  obtain ⟨x, rfl, hx, _⟩ := hs1.query_inv (n := n) rfl
  cases x with
  | flag b =>
    refine ⟨b, rfl, Iff.trans hx ?_⟩
    show History.triples [.imported n none (after (fun _ => False) cs)] n t ↔ _
    simp [History.triples, Event.new]
  | _ => exact hx.elim

/-! ### A program -/

/-- The choices of the examples. -/
def choice (f : Name → Api.Choice K V L) (g : List (Name × Option Name) → List (Name × Option Name))
    (n : Name) : Choice K V L := ⟨f n, g⟩

/-- Make calls, with the names in order. -/
def play (f : Name → Choice K V L) : Name → Stores K V L → List (Req K V L) →
    List (Req K V L × Ans K V L)
  | _, _, [] => []
  | n, s, c :: cs => (c, (s.call (f n) c).1) :: play f (n + 1) (s.call (f n) c).2 cs

/-- The names are all new, in the stores below `k`; the others are empty. -/
def playable (f : Name → Choice K V L) (k : Nat) : Name → Stores K V L → List (Req K V L) → Bool
  | _, _, [] => true
  | n, s, c :: cs =>
    (List.range k).all (fun i => ((s.stores i).store.get? n).isNone &&
      (s.stores i).builders.all (fun b => b.name != n) && (s.stores i).lost.all (· != n)) &&
      (match c with | .on i _ => decide (i < k) | .unpack i _ _ => decide (i < k) | _ => true) &&
      playable f k (n + 1) (s.call (f n) c).2 cs

theorem play_trace {f : Name → Api.Choice K V L}
    {g : List (Name × Option Name) → List (Name × Option Name)} (hg : ∀ l, (g l).Perm l)
    (hf : ∀ s n, s.store.get? n = none → (∀ b ∈ s.builders, b.name ≠ n) → n ∉ s.lost →
      (f n).Possible s) {k : Nat} :
    ∀ {cs : List (Req K V L)} {n : Name} {s : Stores K V L}, (∀ i, k ≤ i → ∃ d, s.stores i = { disk := d }) →
      playable (choice f g) k n s cs = true → Trace s (play (choice f g) n s cs)
  | [], _, _, _, _ => .nil
  | c :: cs, n, s, hk, h => by
    simp only [playable, Bool.and_eq_true, List.all_eq_true, bne_iff_ne, ne_eq,
      Option.isNone_iff_eq_none, List.mem_range] at h
    refine .call ⟨?_, hg⟩ (play_trace hg hf ?_ h.2)
    · intro i
      by_cases hi : i < k
      · exact hf _ _ (h.1.1 i hi).1.1 (h.1.1 i hi).1.2 (fun hn => (h.1.1 i hi).2 _ hn rfl)
      · obtain ⟨d, hd⟩ := hk i (Nat.le_of_not_lt hi)
        rw [hd]
        exact hf _ _ rfl (fun _ hb => by cases hb) (by intro hn; cases hn)
    · intro i hi
      cases c with
      | on j c =>
        have hj : j < k := by simpa using h.1.2
        show ∃ d, (s.set j _).stores i = { disk := d }
        rw [set_ne _ _ (by omega)]
        exact hk i hi
      | pack j ns =>
        simp only [Stores.call]
        split <;> exact hk i hi
      | unpack j p ns =>
        have hj : j < k := by simpa using h.1.2
        simp only [Stores.call]
        split
        · exact hk i hi
        · split
          · rw [set_ne _ _ (by omega)]
            exact hk i hi
          · exact hk i hi
      | parents p =>
        simp only [Stores.call]
        split <;> exact hk i hi

/-- Two layers are made in the store 0, of which the upper one is rolled up, and carried to the
store 1. A layer is made on top of them there and carried back. -/
def program : List (Req Nat Nat Nat) :=
  [.on 0 .createBase, .on 0 (.edit 0 (.addValue ⟨1, 2, .node 3⟩)),
   .on 0 (.edit 0 (.addValue ⟨1, 2, .value 4⟩)), .on 0 (.commit 0), .on 0 (.openWrite 0),
   .on 0 (.edit 1 (.removeValue ⟨1, 2, .node 3⟩)), .on 0 (.edit 1 (.addValue ⟨3, 2, .node 5⟩)),
   .on 0 (.commit 1), .on 0 (.layerName 0), .on 0 (.layerName 1), .on 0 (.rollup 1),
   .pack 0 [4, 0], .parents 0, .on 1 (.getLayer 4), .unpack 1 0 [4, 0], .on 1 (.getLayer 4),
   .on 1 (.query 0 .triples), .on 1 (.query 0 (.has ⟨3, 2, .node 5⟩)), .on 1 (.createGraph 7),
   .on 1 (.setHead 7 0), .on 1 (.openWrite 0), .on 1 (.edit 0 (.addValue ⟨5, 6, .node 1⟩)),
   .on 1 (.commit 0), .on 1 (.layerName 1), .on 1 (.setHead 7 1), .pack 1 [20], .pack 0 [20],
   .unpack 0 1 [20], .on 0 (.getLayer 20), .on 0 (.query 2 .triples), .on 0 (.stackNames 2),
   .on 0 (.additions 2 .all)]

/-- The answers it gets. -/
def programAnswers : List (Ans Nat Nat Nat) :=
  [.said (.builder 0), .said .done,
   .said .done, .said (.layer 0), .said (.builder 1),
   .said .done, .said .done,
   .said (.layer 1), .said (.name 0), .said (.name 4), .said .done,
   .pack 0, .parents [(4, some 0), (0, none)], .said .absent, .done, .said (.layer 0),
   .said (.answer (.list [⟨1, 1, 3⟩, ⟨2, 1, 4⟩])), .said (.answer (.flag true)), .said .done,
   .said (.flag true), .said (.builder 0), .said .done,
   .said (.layer 1), .said (.name 20), .said (.flag true), .pack 1, .failed,
   .done, .said (.layer 2), .said (.answer (.list [⟨1, 1, 3⟩, ⟨2, 1, 4⟩, ⟨4, 2, 1⟩])),
   .said (.names [0, 4, 20]), .said (.answer (.list [⟨4, 2, 1⟩]))]

/-- The store 0 is in memory, the store 1 on disk. -/
def odd : Nat → Bool := fun i => i == 1

example : Trace (.new odd) (play (choice Api.plainChoice id) 0 (.new odd) program) ∧
    (play (choice Api.plainChoice id) 0 (.new odd) program).map Prod.snd = programAnswers :=
  ⟨play_trace (k := 2) (fun _ => .refl _) (fun _ _ => Api.plainChoice_possible) (fun _ _ => ⟨_, rfl⟩)
    (by decide +kernel), by decide +kernel⟩

example : Trace (.new odd) (play (choice Api.wildChoice List.reverse) 0 (.new odd) program) ∧
    (.parents 0, .parents [(0, none), (4, some 0)]) ∈
      play (choice Api.wildChoice List.reverse) 0 (.new odd) program :=
  ⟨play_trace (k := 2) List.reverse_perm (fun _ _ => Api.wildChoice_possible) (fun _ _ => ⟨_, rfl⟩)
    (by decide +kernel), by decide +kernel⟩

/-- The hypothesis of `C63_write_here_read_there`. -/
example : ∃ r0 rc rp ru rg rq rs, rs.length = 2 ∧ Trace (.new odd : Stores Nat Nat Nat)
      ((.on 0 .createBase, r0) ::
      (([Call.add ⟨1, 2, .node 3⟩, Call.add ⟨1, 2, .value 4⟩].map
        fun c => Req.on 0 (.edit 0 (Api.editOf c))).zip rs ++
        [(.on 0 (.commit 0), rc), (.on 0 (.layerName 0), .said (.name 0)), (.pack 0 [0], rp),
         (.unpack 1 0 [0], ru), (.on 1 (.getLayer 0), rg),
         (.on 1 (.query 0 (.has ⟨1, 2, .value 4⟩)), rq)])) ∧ rq = .said (.answer (.flag true)) :=
  ⟨.said (.builder 0), .said (.layer 0), .pack 0, .done, .said (.layer 0),
    .said (.answer (.flag true)), [.said .done, .said .done], rfl,
    play_trace (f := Api.plainChoice) (g := id) (n := 0) (s := .new odd) (k := 2) (cs := [.on 0 .createBase,
      .on 0 (.edit 0 (.addValue ⟨1, 2, .node 3⟩)), .on 0 (.edit 0 (.addValue ⟨1, 2, .value 4⟩)),
      .on 0 (.commit 0), .on 0 (.layerName 0), .pack 0 [0], .unpack 1 0 [0], .on 1 (.getLayer 0),
      .on 1 (.query 0 (.has ⟨1, 2, .value 4⟩))]) (fun _ => .refl _)
      (fun _ _ => Api.plainChoice_possible) (fun _ _ => ⟨_, rfl⟩) (by decide +kernel), rfl⟩

/-- Outside of the contract: a layer is imported without its parent. The import succeeds, but the
layer cannot be had. -/
theorem C63_without_parent_fails : ∃ tr : List (Req Nat Nat Nat × Ans Nat Nat Nat), Trace (.new odd) tr ∧
    (.on 0 (.commit 1), .said (.layer 1)) ∈ tr ∧ (.unpack 1 0 [3], .done) ∈ tr ∧
    tr.getLast? = some (.on 1 (.getLayer 3), .said .failed) :=
  ⟨play (choice Api.plainChoice id) 0 (.new odd) [.on 0 .createBase,
      .on 0 (.edit 0 (.addValue ⟨1, 2, .node 3⟩)), .on 0 (.commit 0), .on 0 (.openWrite 0),
      .on 0 (.commit 1), .pack 0 [3], .unpack 1 0 [3], .on 1 (.getLayer 3)],
    play_trace (k := 2) (fun _ => .refl _) (fun _ _ => Api.plainChoice_possible) (fun _ _ => ⟨_, rfl⟩)
      (by decide +kernel), by decide +kernel, by decide +kernel, by decide +kernel⟩

end Verif.Net
