import Verif.Lemmas.Serial
import Verif.Props.Graph

/-!
C61: transactions on a graph.
-/

namespace Verif

open Spec

set_option linter.unusedSectionVars false

variable {L N K V : Type} [DecidableEq L] [LinearOrder K] [LinearOrder V]

/-- C61, on disk: clients that read the head of a graph, commit a layer on top of it and then call
`set_head`, however many, at whatever pace, and however their calls interleave, are served as if
one transaction had been made after the other. No transaction that reported success is lost
and none that reported failure shows; a client that was not answered has changed everything or
nothing. -/
theorem C61_serializable_disk [Inhabited L] {h : LabelHistory L LayerName} (hh : DiskHistory h)
    {safe : Bool} {w : World K V} (hw : World.Run safe w) {code : LayerName → Name}
    (hcode : Function.Injective code) {n : L} {txs : Transaction LayerName (VTriple K V) → Prop}
    (ht : OnlyTransactions h (Asked safe w code) w.log code n txs) :
    ∃ order, Serialized h w.log code n txs order := by
  obtain ⟨G, hG⟩ := hh.lin
  have : Inhabited LayerName := ⟨⟨0, 0, 0, 0, 0⟩⟩
  refine serialized hG (Exact.disk G n) sameLabel_version (fun x y ha => ha.ancestor) ?_ hw.ordered
    hcode ht
  intro x
  obtain ⟨ns, h1, _⟩ := hw.shape.closed.line hw.shape.parent x
  exact ⟨_, h1⟩

/-- C61, in memory. -/
theorem C61_serializable_memory [Inhabited N] {h : LabelHistory L N} (hh : MemoryHistory h)
    {safe : Bool} {w : World K V} (hw : World.Run safe w) {code : N → Name}
    (hcode : Function.Injective code) {n : L} {txs : Transaction N (VTriple K V) → Prop}
    (ht : OnlyTransactions h (Asked safe w code) w.log code n txs) :
    ∃ order, Serialized h w.log code n txs order := by
  obtain ⟨G, hG⟩ := hh.lin
  refine serialized hG (Exact.memory hG (fun k c hk => ht.no_delete hk)) sameVersion_version
    (fun x y ha => ha.ancestor) ?_ hw.ordered hcode ht
  intro x
  obtain ⟨ns, h1, _⟩ := hw.shape.closed.line hw.shape.parent x
  exact ⟨_, h1⟩

/-- C61: the head that some first transactions have left can be loaded, and whoever loads it, in
whatever state of the cache, finds the triples that result from their changes. -/
theorem C61_head_loads_partial {h : LabelHistory L N} {w : World K V} (hw : World.Run true w)
    {code : N → Name} {n : L} {txs : Transaction N (VTriple K V) → Prop}
    {order : List (Transaction N (VTriple K V))}
    (hs : Serialized h w.log code n txs order)
    (hm : ∀ tx, txs tx → Transacts h (Asked true w code) w.log code n tx)
    {P S : List (Transaction N (VTriple K V))} (ho : order = P ++ S) {x : N}
    (hx : headOf P = some x) :
    (∃ l cs, w.store.getLayer w.cache (code x) = .ok (some l, cs)) ∧
    ∀ l, (code x, l) ∈ w.held → ∀ t, ∃ b, Stack.valueTripleExists l.stack t = some b ∧
      (b = true ↔ applied P t) := by
  constructor
  · obtain ⟨tx, h1, h2⟩ : ∃ tx ∈ P, tx.layer = x := by
      unfold headOf at hx
      cases hq : P.getLast? with
      | none => rw [hq] at hx; cases hx
      | some q =>
        rw [hq] at hx
        exact ⟨q, List.mem_of_getLast? hq, by simpa using hx⟩
    have hk : w.log.known (code x) :=
      ⟨_, (hm tx (hs.made tx (by rw [ho]; simp [h1]))).made, by rw [← h2]; rfl⟩
    obtain ⟨⟨l, cs⟩, g1, g2⟩ := World.C31_get_layer_total_partial hw (code x)
    have := g2.2 hk
    cases l with
    | none => cases this
    | some l => exact ⟨l, cs, g1⟩
  · intro l hl t
    obtain ⟨_, g1, _⟩ := World.C31_get_layer_partial hw hl
    obtain ⟨b, b1, b2⟩ := g1 t
    refine ⟨b, b1, b2.trans ?_⟩
    have := hs.triples P S ho t
    rw [hx] at this
    exact this

/-- C61, on disk: as long as a graph is moved with `set_head` only, to whatever layers, a layer
that was reported to be its head is and stays the head or an ancestor of it. -/
theorem C61_not_lost_disk [Inhabited L] {h : LabelHistory L LayerName} (hh : DiskHistory h)
    {safe : Bool} {w : World K V} {code : LayerName → Name} {n : L} {x : LayerName} {t u : Nat}
    {ids : List Nat} (ho : OnlySetHead h (Asked safe w code) n)
    (hp : Performs h (Asked safe w code) (NamedGraph.setHead n x) t ids (.ok true) u)
    {i t0 t1 : Nat} {r : Option (LabelData LayerName)}
    (hi : h i = some ⟨.get n, t0, some (.got r, t1)⟩) (hlt : u < t0) :
    ∃ l y, r = some l ∧ l.layer = some y ∧ w.log.Ancestor (code x) (code y) := by
  obtain ⟨G, hG⟩ := hh.lin
  exact not_lost hG (Exact.disk G n) (fun x y ha => ha.ancestor) ho hp hi hlt

/-- C61, in memory. -/
theorem C61_not_lost_memory {h : LabelHistory L N} (hh : MemoryHistory h)
    {safe : Bool} {w : World K V} {code : N → Name} {n : L} {x : N} {t u : Nat}
    {ids : List Nat} (ho : OnlySetHead h (Asked safe w code) n)
    (hp : Performs h (Asked safe w code) (NamedGraph.setHead n x) t ids (.ok true) u)
    {i t0 t1 : Nat} {r : Option (LabelData N)}
    (hi : h i = some ⟨.get n, t0, some (.got r, t1)⟩) (hlt : u < t0) :
    ∃ l y, r = some l ∧ l.layer = some y ∧ w.log.Ancestor (code x) (code y) := by
  obtain ⟨G, hG⟩ := hh.lin
  exact not_lost hG (Exact.memory hG (fun k c hk => ho.no_delete hk)) (fun x y ha => ha.ancestor)
    ho hp hi hlt

/-! ### An example -/

namespace TransactionExample

/-- A numbering of names. -/
def number (n : LayerName) : Nat :=
  n.a.val + 2 ^ 32 * (n.b.val + 2 ^ 32 * (n.c.val + 2 ^ 32 * (n.d.val + 2 ^ 32 * n.e.val)))

theorem number_injective : Function.Injective number := by
  rintro ⟨a, b, c, d, e⟩ ⟨a', b', c', d', e'⟩ hn
  simp only [number] at hn
  have h1 := a.isLt
  have h2 := b.isLt
  have h3 := c.isLt
  have h4 := d.isLt
  have h1' := a'.isLt
  have h2' := b'.isLt
  have h3' := c'.isLt
  have h4' := d'.isLt
  simp only [LayerName.mk.injEq, ← Fin.val_inj]
  omega

/-- Two layers on top of 100, and one on top of one of them. -/
def layers : List (Cmd Nat Nat) :=
  [.base 100 [.addValue ⟨1, 10, .node 2⟩], .load 100,
   .child 100 101 [.addValue ⟨1, 11, .node 2⟩], .load 101,
   .child 100 103 [.addValue ⟨5, 15, .node 5⟩],
   .child 101 102 [.removeValue ⟨1, 10, .node 2⟩], .load 102]

/-- Four clients. The second and the third read the head at the same time. The last is not
answered. -/
def acts : List (LabelAct Nat LayerName) :=
  [.call 0 (.create 7), .go 0,
   .call 1 (.get 7), .go 1, .call 2 (.get 7), .go 2, .call 3 (.set 7 ⟨none, 0⟩ (some (nm 100))), .go 3,
   .call 4 (.get 7), .call 5 (.get 7), .go 4, .go 5,
   .call 6 (.get 7), .go 6, .call 7 (.set 7 ⟨some (nm 100), 1⟩ (some (nm 101))), .go 7,
   .call 8 (.get 7), .go 8,
   .call 9 (.get 7), .go 9, .call 10 (.get 7), .go 10,
   .call 11 (.set 7 ⟨some (nm 101), 2⟩ (some (nm 102)))]

def tx1 : Transaction LayerName (VTriple Nat Nat) :=
  ⟨1, none, [.add ⟨1, 10, .node 2⟩], nm 100, [2, 3], some (true, 7)⟩
def tx2 : Transaction LayerName (VTriple Nat Nat) :=
  ⟨7, some (nm 100), [.add ⟨1, 11, .node 2⟩], nm 101, [6, 7], some (true, 15)⟩
def tx3 : Transaction LayerName (VTriple Nat Nat) :=
  ⟨8, some (nm 100), [.add ⟨5, 15, .node 5⟩], nm 103, [8], some (false, 17)⟩
def tx4 : Transaction LayerName (VTriple Nat Nat) :=
  ⟨17, some (nm 101), [.remove ⟨1, 10, .node 2⟩], nm 102, [10, 11], none⟩

/-- A test that the log has a commit. -/
def hasCommit (log : History (VTriple Nat Nat)) (x : Nat) (p : Option Nat) (add : Bool)
    (t : VTriple Nat Nat) : Bool :=
  log.any fun e =>
    match e with
    | .commit y q [.add u] => add && decide (y = x ∧ q = p ∧ u = t)
    | .commit y q [.remove u] => !add && decide (y = x ∧ q = p ∧ u = t)
    | _ => false

theorem hasCommit_sound {log : History (VTriple Nat Nat)} {x : Nat} {p : Option Nat} {add : Bool}
    {t : VTriple Nat Nat} (h : hasCommit log x p add t = true) :
    Event.commit x p [if add then .add t else .remove t] ∈ log := by
  unfold hasCommit at h
  obtain ⟨e, h1, h2⟩ := List.any_eq_true.1 h
  split at h2
  · simp only [Bool.and_eq_true, decide_eq_true_eq] at h2
    obtain ⟨rfl, rfl, rfl, rfl⟩ := h2
    exact h1
  · simp only [Bool.and_eq_true, decide_eq_true_eq, Bool.not_eq_true'] at h2
    obtain ⟨rfl, rfl, rfl, rfl⟩ := h2
    exact h1
  · cases h2

/-- The history and the layers meet the hypotheses; the first client is told that its layer is
the head, and the last one reads the label later (call 10), when the head is another one. -/
theorem meets : ∃ (h : LabelHistory Nat LayerName) (w : World Nat Nat), DiskHistory h ∧
    World.Run true w ∧ OnlyTransactions h (Asked true w number) w.log number 7
      (fun tx => tx ∈ [tx1, tx2, tx3, tx4]) ∧
    Performs h (Asked true w number) (NamedGraph.setHead 7 (nm 100)) 3 [2, 3] (.ok true) 7 ∧
    h 10 = some ⟨.get 7, 20, some (.got (some ⟨some (nm 101), 2⟩), 21)⟩ ∧
    ∃ l, (101, l) ∈ w.held := by
  have hw : ∃ w : World Nat Nat, World.Run true w ∧
      (World.lookup 101 w.held).isSome = true ∧
      hasCommit w.log 100 none true ⟨1, 10, .node 2⟩ = true ∧
      hasCommit w.log 101 (some 100) true ⟨1, 11, .node 2⟩ = true ∧
      hasCommit w.log 103 (some 100) true ⟨5, 15, .node 5⟩ = true ∧
      hasCommit w.log 102 (some 101) false ⟨1, 10, .node 2⟩ = true ∧
      w.store.isAncestor 101 100 = .ok true ∧ w.store.isAncestor 103 101 = .ok false ∧
      w.store.isAncestor 102 101 = .ok true :=
    Witness.reaches_run (cs := layers) (by decide +kernel)
  obtain ⟨w, h0, hl, h1, h2, h3, h4, h5, h6, h7⟩ := hw
  refine ⟨_, w, .cached (Shared.exec_run _ .start acts), h0, ⟨?_, ?_, ?_⟩,
    .call (t0 := 4) (t1 := 5) (r := .got (some ⟨none, 0⟩)) (by rfl) (by decide)
      (.call (t0 := 6) (t1 := 7) (r := .set (some ⟨some (nm 100), 1⟩)) (by rfl) (by decide) .ret),
    by rfl, ?_⟩
  · intro tx htx
    simp only [List.mem_cons, List.not_mem_nil, or_false] at htx
    rcases htx with rfl | rfl | rfl | rfl
    · refine ⟨hasCommit_sound h1, 0, 3, 3, [1], ?_, Nat.le_refl _, ?_, ?_⟩
      · exact .call (t0 := 2) (t1 := 3) (r := .got (some ⟨none, 0⟩)) (by rfl) (by decide) .ret
      · exact .call (t0 := 4) (t1 := 5) (r := .got (some ⟨none, 0⟩)) (by rfl) (by decide)
          (.call (t0 := 6) (t1 := 7) (r := .set (some ⟨some (nm 100), 1⟩)) (by rfl) (by decide) .idle)
      · intro r u hr
        cases hr
        exact ⟨.ok true, .call (t0 := 4) (t1 := 5) (r := .got (some ⟨none, 0⟩)) (by rfl) (by decide)
          (.call (t0 := 6) (t1 := 7) (r := .set (some ⟨some (nm 100), 1⟩)) (by rfl) (by decide) .ret),
          by simp⟩
    · refine ⟨hasCommit_sound h2, 1, 10, 11, [4], ?_, by decide, ?_, ?_⟩
      · exact .call (t0 := 8) (t1 := 10) (r := .got (some ⟨some (nm 100), 1⟩)) (by rfl) (by decide) .ret
      · exact .call (t0 := 12) (t1 := 13) (r := .got (some ⟨some (nm 100), 1⟩)) (by rfl) (by decide)
          (.ask (b := .ok true) ⟨w, h0, .now, h5.symm⟩ (Nat.le_refl _)
            (.call (t0 := 14) (t1 := 15) (r := .set (some ⟨some (nm 101), 2⟩)) (by rfl) (by decide)
              .idle))
      · intro r u hr
        cases hr
        exact ⟨.ok true, .call (t0 := 12) (t1 := 13) (r := .got (some ⟨some (nm 100), 1⟩)) (by rfl)
          (by decide) (.ask (b := .ok true) ⟨w, h0, .now, h5.symm⟩ (Nat.le_refl _)
            (.call (t0 := 14) (t1 := 15) (r := .set (some ⟨some (nm 101), 2⟩)) (by rfl) (by decide)
              .ret)), by simp⟩
    · refine ⟨hasCommit_sound h3, 1, 11, 15, [5], ?_, by decide, ?_, ?_⟩
      · exact .call (t0 := 9) (t1 := 11) (r := .got (some ⟨some (nm 100), 1⟩)) (by rfl) (by decide) .ret
      · exact .call (t0 := 16) (t1 := 17) (r := .got (some ⟨some (nm 101), 2⟩)) (by rfl) (by decide)
          (.ask (b := .ok false) ⟨w, h0, .now, h6.symm⟩ (Nat.le_refl _) .idle)
      · intro r u hr
        cases hr
        exact ⟨.ok false, .call (t0 := 16) (t1 := 17) (r := .got (some ⟨some (nm 101), 2⟩)) (by rfl)
          (by decide) (.ask (b := .ok false) ⟨w, h0, .now, h6.symm⟩ (Nat.le_refl _) .ret), by simp⟩
    · refine ⟨hasCommit_sound h4, 2, 19, 19, [9], ?_, Nat.le_refl _, ?_, ?_⟩
      · exact .call (t0 := 18) (t1 := 19) (r := .got (some ⟨some (nm 101), 2⟩)) (by rfl) (by decide) .ret
      · exact .call (t0 := 20) (t1 := 21) (r := .got (some ⟨some (nm 101), 2⟩)) (by rfl) (by decide)
          (.ask (b := .ok true) ⟨w, h0, .now, h7.symm⟩ (Nat.le_refl _)
            (.waits (t0 := 22) (by rfl) (by decide)))
      · intro r u hr
        cases hr
  · intro tx tx' ht ht' hl
    simp only [List.mem_cons, List.not_mem_nil, or_false] at ht ht'
    rcases ht with rfl | rfl | rfl | rfl <;> rcases ht' with rfl | rfl | rfl | rfl <;>
      first | rfl | exact absurd hl (by decide)
  · intro i c hi hn
    rcases Shared.exec_calls _ _ hi with ⟨_, g, _⟩ | g
    · cases g
    · simp only [acts, List.mem_cons, LabelAct.call.injEq, reduceCtorEq, false_or, or_false,
        List.not_mem_nil] at g
      rcases g with ⟨rfl, g⟩ | ⟨rfl, g⟩ | ⟨rfl, g⟩ | ⟨rfl, g⟩ | ⟨rfl, g⟩ | ⟨rfl, g⟩ | ⟨rfl, g⟩ |
        ⟨rfl, g⟩ | ⟨rfl, g⟩ | ⟨rfl, g⟩ | ⟨rfl, g⟩ | ⟨rfl, g⟩
      · exact Or.inl g
      · exact Or.inr (Or.inl g)
      · exact Or.inr (Or.inl g)
      · exact Or.inr (Or.inr ⟨tx1, by simp, by simp [tx1]⟩)
      · exact Or.inr (Or.inl g)
      · exact Or.inr (Or.inl g)
      · exact Or.inr (Or.inl g)
      · exact Or.inr (Or.inr ⟨tx2, by simp, by simp [tx2]⟩)
      · exact Or.inr (Or.inl g)
      · exact Or.inr (Or.inl g)
      · exact Or.inr (Or.inl g)
      · exact Or.inr (Or.inr ⟨tx4, by simp, by simp [tx4]⟩)
  · obtain ⟨l, hl⟩ := Option.isSome_iff_exists.1 hl
    exact ⟨l, World.lookup_mem hl⟩

/-- The hypotheses of `C61_serializable_disk` hold of a history in which two transactions succeed,
one that competes fails, and one is not answered. -/
example : ∃ (h : LabelHistory Nat LayerName) (w : World Nat Nat), DiskHistory h ∧
    World.Run true w ∧ Function.Injective number ∧
    OnlyTransactions h (Asked true w number) w.log number 7
      (fun tx => tx ∈ [tx1, tx2, tx3, tx4]) := by
  obtain ⟨h, w, h1, h2, h3, _⟩ := meets
  exact ⟨h, w, h1, h2, number_injective, h3⟩

/-- The order that C61 speaks of: the first two, in this order. -/
example : ∃ (h : LabelHistory Nat LayerName) (w : World Nat Nat) (order : List _),
    Serialized h w.log number 7 (fun tx => tx ∈ [tx1, tx2, tx3, tx4]) order ∧
    tx1 ∈ order ∧ tx2 ∈ order ∧ tx3 ∉ order := by
  obtain ⟨h, w, h1, h2, h3, _⟩ := meets
  obtain ⟨order, ho⟩ := C61_serializable_disk h1 h2 number_injective h3
  exact ⟨h, w, order, ho, ho.success tx1 7 (by simp) rfl, ho.success tx2 15 (by simp) rfl,
    ho.failure tx3 17 (by simp) rfl⟩

/-- The hypotheses of `C61_head_loads_partial` hold of the head that the second transaction left. -/
example : ∃ (h : LabelHistory Nat LayerName) (w : World Nat Nat) (txs : _ → Prop) (order P S : List _),
    World.Run true w ∧ Serialized h w.log number 7 txs order ∧
    (∀ tx, txs tx → Transacts h (Asked true w number) w.log number 7 tx) ∧ order = P ++ S ∧
    headOf P = some (nm 101) ∧ ∃ l, (number (nm 101), l) ∈ w.held := by
  obtain ⟨h, w, h1, h2, h3, _, _, h6⟩ := meets
  obtain ⟨order, ho⟩ := C61_serializable_disk h1 h2 number_injective h3
  obtain ⟨P, S, hPS⟩ := List.append_of_mem (ho.success tx2 15 (by simp) rfl)
  exact ⟨h, w, _, order, P ++ [tx2], S, h2, ho, h3.each, by rw [hPS]; simp, headOf_snoc _ _, h6⟩

/-- The hypotheses of `C61_not_lost_disk` hold. -/
example : ∃ (h : LabelHistory Nat LayerName) (w : World Nat Nat), DiskHistory h ∧
    OnlySetHead h (Asked true w number) 7 ∧
    Performs h (Asked true w number) (NamedGraph.setHead 7 (nm 100)) 3 [2, 3] (.ok true) 7 ∧
    h 10 = some ⟨.get 7, 20, some (.got (some ⟨some (nm 101), 2⟩), 21)⟩ := by
  obtain ⟨h, w, h1, h2, h3, h4, h5, _⟩ := meets
  refine ⟨h, w, h1, ?_, h4, h5⟩
  intro i c hi hn
  rcases h3.only i c hi hn with g | g | ⟨tx, g1, g2⟩
  · exact Or.inl g
  · exact Or.inr (Or.inl g)
  · obtain ⟨_, _, t2, _, _, _, k, _⟩ := (h3.each tx g1).sets
    exact Or.inr (Or.inr ⟨tx.layer, t2, tx.ids, k, g2⟩)

end TransactionExample

end Verif
