import Verif.Lemmas.TradeKept

/-!
C69: stores that exchange layers by packs while many calls are under way cannot be told from the
simple stores of `Verif/TradeSpec.lean`.
-/

set_option linter.unusedSectionVars false

namespace Verif.Trade

open Spec Store Net Conc

section Main

variable {K V L : Type} [LinearOrder K] [LinearOrder V] [DecidableEq L]

/-- C69: whatever happens in several new stores, on disk or in memory, on which any number of calls
are made at the same time, and between which layers are carried by packs while these calls are under
way, is as in the simple stores, up to the first step of a call outside of the contract, and at any
time a name stands for the same layer in all of them. Missing: calls outside of the contract, see
`State.InContract`, `State.Early` and `Conc.CState.InContract`. -/
theorem C69_exchange_partial {disk : Nat → Bool} {evs : List (Event K V L)} {N : Shops K V L}
    (h : Runs (.new disk) evs N) : Allowed {} evs :=
  allowed h TSim.start

/-- Either all that happens is as in the simple stores, or a call goes on outside of the
contract. -/
theorem C69_kept_partial {disk : Nat → Bool} {evs : List (Event K V L)} {N : Shops K V L}
    (h : Runs (.new disk) evs N) : (∃ B, Kept {} evs B) ∨ Left {} evs := by
  rcases kept h TSim.start with ⟨B, h1, _⟩ | h1
  · exact .inl ⟨B, h1⟩
  · exact .inr h1

/-- A call with a pack that is under way can end by its own steps, whatever other calls are under
way. -/
theorem C69_ends_partial {disk : Nat → Bool} {evs : List (Event K V L)} {N : Shops K V L}
    (h : Runs (.new disk) evs N) {t : Nat} (ht : N.jobs t ≠ none) :
    (∃ B, Kept {} evs B ∧ ((∀ j, B.jobs t = some j → B.InContract j) →
      ∃ k r N', Runs N (List.replicate k (.act t) ++ [.ret t r]) N')) ∨ Left {} evs := by
  obtain ⟨st, hst⟩ := Option.ne_none_iff_exists'.1 ht
  rcases kept h TSim.start with ⟨B, h1, h2⟩ | h1
  · exact .inl ⟨B, h1, fun hc => h2.ends hst hc⟩
  · exact .inr h1

end Main

section Spec

variable {K V L : Type} [DecidableEq L]

/-- A layer with the same name in two stores has the same triples and the same parent in both,
whenever it is asked. -/
theorem C69_same_layer {evs : List (Event K V L)} {B : State K V L} (h : Kept {} evs B)
    {i j k m n : Nat}
    (h1 : (.layerName k, .name n) ∈ Conc.pairs (fun _ => none) (within i evs))
    (h2 : (.layerName m, .name n) ∈ Conc.pairs (fun _ => none) (within j evs)) :
    (∀ t r r', (.query k (.has t), r) ∈ Conc.pairs (fun _ => none) (within i evs) →
      (.query m (.has t), r') ∈ Conc.pairs (fun _ => none) (within j evs) → r = r') ∧
    ∀ r r', (.parentName k, r) ∈ Conc.pairs (fun _ => none) (within i evs) →
      (.parentName m, r') ∈ Conc.pairs (fun _ => none) (within j evs) → r = r' := by
  have w := TWf.start (K := K) (V := V) (L := L)
  have wB := TWf.kept h w
  have right : ∀ i c r, (c, r) ∈ Conc.pairs (fun _ => none) (within i evs) → lasting c →
      Api.Step (B.stores i).now c r (B.stores i).now :=
    fun i => (h.store i w).pairs (w i) (fun _ => trivial)
  have g1 := name_right (right i _ _ h1 trivial)
  have g2 := name_right (right j _ _ h2 trivial)
  have same := h.consistent Agree.start.same i j n ((wB i).now.handle g1) ((wB j).now.handle g2)
  constructor
  · intro t r r' h3 h4
    obtain ⟨a, x, q1, rfl, q2⟩ := has_right (right i _ _ h3 trivial)
    obtain ⟨b, y, q3, rfl, q4⟩ := has_right (right j _ _ h4 trivial)
    rw [g1] at q1; cases q1
    rw [g2] at q3; cases q3
    have : (B.stores i).now.log.triples n t = (B.stores j).now.log.triples n t :=
      congrFun (congrArg Shipped.triples same) t
    rw [show x = y from Bool.eq_iff_iff.2 (by rw [q2, q4, this])]
  · intro r r' h3 h4
    obtain ⟨a, q1, rfl⟩ := parentName_right (right i _ _ h3 trivial)
    obtain ⟨b, q2, rfl⟩ := parentName_right (right j _ _ h4 trivial)
    rw [g1] at q1; cases q1
    rw [g2] at q2; cases q2
    have : (B.stores i).now.log.parent n = (B.stores j).now.log.parent n :=
      congrArg Shipped.parent same
    rw [this]

/-- A layer that was imported is found from then on, and is the layer that was asked for. -/
theorem C69_imported {a b : List (Event K V L)} {B : State K V L} (h : Kept {} (a ++ b) B)
    {i p n : Nat} {ns : List Nat} (h1 : (.unpack i p ns, .done) ∈ pairs (fun _ => none) a)
    (hn : n ∈ ns) {r : Api.Ans K V L}
    (h2 : (.getLayer n, r) ∈ Conc.pairs (fun _ => none) (within i b)) :
    ∃ k, r = .layer k ∧ ∀ r', (.layerName k, r') ∈ Conc.pairs (fun _ => none) (within i (a ++ b)) →
      r' = .name n := by
  have w := TWf.start (K := K) (V := V) (L := L)
  obtain ⟨M, k1, k2⟩ := h.split
  have wM := TWf.kept k1 w
  have g1 := k1.pairs w (fun t c hc => by cases hc) _ _ h1
  have hc : ∀ t, Found n (none : Option (Api.Req K V L)) ((M.stores i).calls t) := by
    intro t e; cases e
  obtain ⟨k, rfl, g2⟩ := (k2.store i wM).found (wM i) (g1 n hn) hc r h2
  refine ⟨k, rfl, fun r' h3 => ?_⟩
  obtain ⟨m, rfl, g3⟩ := layerName_right ((h.store i w).pairs (w i) (fun _ => trivial) _ _ h3 trivial)
  rw [g2] at g3
  cases g3
  rfl

/-- A pack has the layers that were asked for, with the parents that they have in all stores. -/
theorem C69_packed {evs : List (Event K V L)} {B : State K V L} (h : Kept {} evs B)
    {i p : Nat} {ns : List Nat} {l : List (Nat × Option Nat)}
    (h1 : (.pack i ns, .pack p) ∈ pairs (fun _ => none) evs)
    (h2 : (.parents p, .parents l) ∈ pairs (fun _ => none) evs) :
    (∀ n, n ∈ l.map Prod.fst ↔ n ∈ ns) ∧ (l.map Prod.fst).Nodup ∧
    ∀ j k n q r, (n, q) ∈ l →
      (.layerName k, .name n) ∈ Conc.pairs (fun _ => none) (within j evs) →
      (.parentName k, r) ∈ Conc.pairs (fun _ => none) (within j evs) → r = .maybeName q := by
  have w := TWf.start (K := K) (V := V) (L := L)
  have wB := TWf.kept h w
  obtain ⟨g1, g2⟩ := h.pairs w (fun t c hc => by cases hc) _ _ h1
  obtain ⟨X, g3, g4, g5⟩ := h.pairs w (fun t c hc => by cases hc) _ _ h2
  rw [g2] at g3
  cases g3
  refine ⟨fun n => ?_, g4, ?_⟩
  · constructor
    · intro hn
      obtain ⟨⟨m, q⟩, h3, rfl⟩ := List.mem_map.1 hn
      obtain ⟨x, h4, _⟩ := (g5 m q).1 h3
      dsimp only at h4
      split at h4
      · assumption
      · cases h4
    · intro hn
      exact List.mem_map.2 ⟨(n, _), (g5 n _).2 ⟨_, if_pos hn, rfl⟩, rfl⟩
  · intro j k n q r hq h3 h4
    have right : ∀ c r, (c, r) ∈ Conc.pairs (fun _ => none) (within j evs) → lasting c →
        Api.Step (B.stores j).now c r (B.stores j).now :=
      (h.store j w).pairs (w j) (fun _ => trivial)
    have q1 := name_right (right _ _ h3 trivial)
    obtain ⟨m, q2, rfl⟩ := parentName_right (right _ _ h4 trivial)
    rw [q1] at q2
    cases q2
    obtain ⟨x, h5, rfl⟩ := (g5 n q).1 hq
    dsimp only at h5
    split at h5
    · rename_i hn
      cases h5
      have := congrArg Shipped.parent
        (h.consistent Agree.start.same j i n ((wB j).now.handle q1) (g1 n hn))
      exact congrArg Api.Ans.maybeName this
    · cases h5

end Spec

/-! ### Programs -/

section Play

variable {K V L : Type} [LinearOrder K] [LinearOrder V] [DecidableEq L]

/-- What is to happen. -/
inductive Move (K V L : Type) where
  | on (i : Nat) (m : Conc.Move K V L)
  | inv (t : Nat) (c : Req)
  /-- The call goes on; if it imports layers, with this one. -/
  | act (t : Nat) (n : Name)
  | ret (t : Nat)

/-- The stores from `k` on are empty. -/
def Few (k : Nat) (N : Shops K V L) : Prop :=
  ∀ j, k ≤ j → (N.shops j).session.store = [] ∧ (N.shops j).session.builders = []

/-- A call with a pack goes on. -/
def goOn (k : Nat) (N : Shops K V L) (n : Name) :
    Stage K V → Option (Shops K V L × Stage K V)
  | .asked (.pack i ns) => some (N, .packing i ns [])
  | .asked (.unpack i p ns) =>
    match N.packs[p]? with
    | none => none
    | some P => if ns.all (fun n => (P.get? n).isSome && ((N.shops i).session.store.get? n).isNone)
      then some (N, .unpacking i P ns) else none
  | .asked (.parents p) =>
    match N.packs[p]? with
    | none => none
    | some P => some (N, .answered (.parents (listing P).reverse))
  | .packing i (m :: left) P =>
    match packLayer (N.shops i).session.store m with
    | none => some (N, .answered .failed)
    | some q => some (N, .packing i left (P ++ [q]))
  | .packing _ [] P => some ({ N with packs := N.packs ++ [P] }, .answered (.pack N.packs.length))
  | .unpacking _ _ [] => some (N, .answered .done)
  | .unpacking i P (m :: left) =>
    match P.get? n with
    | none => none
    | some e =>
      if i < k ∧ n ∈ m :: left ∧ (P.parent? n).all (fun p => decide (p ∉ m :: left)) then
        some (N.bring i n e, .unpacking i P ((m :: left).filter (· ≠ n)))
      else none
  | .answered _ => none

theorem goOn_acts {k : Nat} {N N' : Shops K V L} {n : Name} {st st' : Stage K V}
    (h : goOn k N n st = some (N', st')) (hf : Few k N) : Acts N st N' st' ∧ Few k N' := by
  unfold goOn at h
  split at h
  · cases h; exact ⟨.pack, hf⟩
  · split at h
    · cases h
    · rename_i P hP
      split at h
      · rename_i hall
        cases h
        exact ⟨.unpack hP hall, hf⟩
      · cases h
  · split at h
    · cases h
    · rename_i P hP
      cases h
      exact ⟨.parents hP (List.reverse_perm _), hf⟩
  · split at h
    · rename_i hq
      cases h
      exact ⟨.missing hq, hf⟩
    · rename_i q hq
      cases h
      exact ⟨.read hq, hf⟩
  · cases h; exact ⟨.packed, hf⟩
  · cases h; exact ⟨.written, hf⟩
  · split at h
    · cases h
    · rename_i e he
      split at h
      · rename_i hc
        cases h
        refine ⟨.write hc.2.1 he ?_, ?_⟩
        · intro p hp
          have := hc.2.2
          rw [hp] at this
          simpa using this
        · intro j hj
          have : j ≠ _ := Nat.ne_of_gt (Nat.lt_of_lt_of_le hc.1 hj)
          simp only [Shops.bring, Shops.set, if_neg this]
          exact hf j hj
      · cases h
  · cases h

/-- The name that a step may use is new in all stores. -/
def newIn (k : Nat) (N : Shops K V L) : Option (Conc.Event K V L) → Bool
  | some (.act _ new) => (List.range k).all fun j =>
    ((N.shops j).session.store.get? new).isNone &&
      (N.shops j).session.builders.all fun b => b.name != new
  | _ => true

/-- Let it happen. -/
def move (k : Nat) (N : Shops K V L) : Move K V L → Option (Option (Event K V L) × Shops K V L)
  | .on i m =>
    match Conc.move (N.shops i) m with
    | none => none
    | some (e, M) =>
      if i < k ∧ newIn k N e = true then some (e.map (.on i), N.set i M) else none
  | .inv t c =>
    match N.jobs t with
    | none => some (some (.inv t c), N.does t (some (.asked c)))
    | some _ => none
  | .act t n =>
    match N.jobs t with
    | none => none
    | some st => (goOn k N n st).map fun x => (some (.act t), x.1.does t (some x.2))
  | .ret t =>
    match N.jobs t with
    | some (.answered r) => some (some (.ret t r), N.does t none)
    | _ => none

theorem move_next {k : Nat} {N N' : Shops K V L} {m : Move K V L} {e : Option (Event K V L)}
    (h : move k N m = some (e, N')) (hf : Few k N) : Next N e N' ∧ Few k N' := by
  unfold move at h
  split at h
  · split at h
    · cases h
    · rename_i i m e M hm
      split at h
      · rename_i hc
        cases h
        refine ⟨.on (Conc.move_next hm) ?_, ?_⟩
        · rintro t new rfl j
          have h1 := hc.2
          simp only [newIn, List.all_eq_true, Bool.and_eq_true, Option.isNone_iff_eq_none, bne_iff_ne,
            ne_eq, List.mem_range] at h1
          rcases Nat.lt_or_ge j k with hj | hj
          · exact h1 j hj
          · obtain ⟨h2, h3⟩ := hf j hj
            rw [h2, h3]
            exact ⟨rfl, fun b hb => by cases hb⟩
        · intro j hj
          have : j ≠ _ := Nat.ne_of_gt (Nat.lt_of_lt_of_le hc.1 hj)
          simp only [Shops.set, if_neg this]
          exact hf j hj
      · cases h
  · split at h
    · rename_i hc
      cases h
      exact ⟨.inv hc, hf⟩
    · cases h
  · split at h
    · cases h
    · rename_i st hst
      obtain ⟨⟨N1, st1⟩, h1, h2⟩ := Option.map_eq_some_iff.mp h
      cases h2
      obtain ⟨h3, h4⟩ := goOn_acts h1 hf
      exact ⟨.act hst h3, h4⟩
  · split at h
    · rename_i hc
      cases h
      exact ⟨.ret hc, hf⟩
    · cases h

/-- Let these happen. -/
def play (k : Nat) : Shops K V L → List (Move K V L) → Option (List (Event K V L) × Shops K V L)
  | N, [] => some ([], N)
  | N, m :: ms =>
    match move k N m with
    | none => none
    | some r => (play k r.2 ms).map fun x => (r.1.toList ++ x.1, x.2)

theorem play_runs {k : Nat} : ∀ {ms : List (Move K V L)} {N : Shops K V L} {x},
    play k N ms = some x → Few k N → Runs N x.1 x.2
  | [], N, x, h, _ => by cases h; exact .nil
  | m :: ms, N, x, h, hf => by
    unfold play at h
    split at h
    · cases h
    · rename_i r hr
      obtain ⟨y, h1, rfl⟩ := Option.map_eq_some_iff.mp h
      obtain ⟨h2, h3⟩ := move_next (e := r.1) (N' := r.2) hr hf
      exact .cons h2 (play_runs h1 h3)

theorem few_new {k : Nat} {disk : Nat → Bool} : Few k (.new disk : Shops K V L) :=
  fun _ _ => ⟨rfl, rfl⟩

/-- What is seen at the ends of calls. -/
def seen : List (Event K V L) → List (Nat × Nat × Api.Ans K V L ⊕ Nat × Ans)
  | [] => []
  | .on i (.ret t r) :: evs => .inl (i, t, r) :: seen evs
  | .ret t r :: evs => .inr (t, r) :: seen evs
  | _ :: evs => seen evs

end Play

/-- The odd stores are on disk. -/
def disks : Nat → Bool := fun i => i == 1

/-- The store 0 is in memory, the store 1 is on disk. Two layers of the first are rolled up while
they are put into a pack; they come into the second while a layer is made there and the first of
them is read; a layer on top of them comes back. -/
def commerce : List (Move Nat Nat Nat) :=
  (Conc.whole 0 0 before).map (.on 0) ++
  [.on 0 (.inv 1 (.rollup 1)), .inv 5 (.pack 0 [35, 8]), .on 0 (.act 1 100), .act 5 0,
   .on 0 (.act 1 101), .act 5 0, .on 0 (.act 1 102), .on 0 (.act 1 103), .on 0 (.act 1 104),
   .on 0 (.act 1 105), .on 0 (.act 1 106), .act 5 0, .on 0 (.act 1 107), .act 5 0, .ret 5,
   .on 1 (.inv 2 .createBase), .inv 5 (.unpack 1 0 [35, 8]), .inv 6 (.parents 0), .act 5 0,
   .on 1 (.act 2 110), .act 6 0, .act 5 8, .ret 6, .on 1 (.ret 2), .on 1 (.inv 2 (.commit 0)),
   .on 1 (.inv 3 (.getLayer 8)), .on 1 (.act 3 111), .on 1 (.act 2 112), .on 1 (.act 3 113),
   .act 5 35, .on 1 (.act 2 114), .on 1 (.act 3 115), .act 5 0] ++
  (Conc.acts 2 4 120).map (.on 1) ++ (Conc.acts 3 3 130).map (.on 1) ++
  [.on 1 (.ret 2), .ret 5, .on 1 (.ret 3), .on 0 (.ret 1)] ++
  (Conc.whole 3 200 [.getLayer 35, .query 1 .triples, .query 2 .triples, .openWrite 2,
    .edit 1 (.removeValue ⟨1, 2, .node 3⟩), .commit 1, .layerName 3]).map (.on 1) ++
  [.inv 5 (.pack 1 [227]), .act 5 0, .act 5 0, .act 5 0, .ret 5, .inv 6 (.unpack 0 1 [227]),
   .act 6 0, .act 6 227, .act 6 0, .ret 6, .inv 7 (.pack 0 [229]), .act 7 0, .act 7 0, .ret 7] ++
  (Conc.whole 0 300 [.getLayer 227, .query 2 .triples, .stackNames 2]).map (.on 0)

/-- What is seen. -/
def commerceSeen : List (Nat × Nat × Api.Ans Nat Nat Nat ⊕ Nat × Ans) :=
  beforeAnswers.map (fun r => .inl (0, 0, r)) ++
  [.inr (5, .pack 0), .inr (6, .parents [(8, none), (35, some 8)]), .inl (1, 2, .builder 0),
   .inl (1, 2, .layer 0), .inr (5, .done), .inl (1, 3, .layer 1), .inl (0, 1, .done),
   .inl (1, 3, .layer 2), .inl (1, 3, .answer (.list [⟨1, 1, 2⟩])),
   .inl (1, 3, .answer (.list [⟨1, 1, 2⟩, ⟨1, 1, 3⟩])), .inl (1, 3, .builder 1),
   .inl (1, 3, .done), .inl (1, 3, .layer 3), .inl (1, 3, .name 227), .inr (5, .pack 1),
   .inr (6, .done), .inr (7, .failed), .inl (0, 0, .layer 2),
   .inl (0, 0, .answer (.list [⟨1, 1, 3⟩])), .inl (0, 0, .names [8, 35, 227])]

/-- The hypothesis of `C69_exchange_partial` and `C69_kept_partial`. -/
example : ∃ evs N, Runs (.new disks : Shops Nat Nat Nat) evs N ∧ seen evs = commerceSeen := by
  have h : ((play 2 (.new disks : Shops Nat Nat Nat) commerce).map fun x => seen x.1) =
      some commerceSeen := by decide +kernel
  obtain ⟨x, h1, h2⟩ := Option.map_eq_some_iff.mp h
  exact ⟨x.1, x.2, play_runs h1 few_new, h2⟩

/-- The hypotheses of `C69_ends_partial`: a pack of two layers is half made. -/
example : ∃ evs N, Runs (.new disks : Shops Nat Nat Nat) evs N ∧ N.jobs 5 ≠ none := by
  have h : ((play 2 (.new disks : Shops Nat Nat Nat) (commerce.take 78)).map fun x =>
      (x.2.jobs 5).isSome) = some true := by decide +kernel
  obtain ⟨x, h1, h2⟩ := Option.map_eq_some_iff.mp h
  refine ⟨x.1, x.2, play_runs h1 few_new, fun e => ?_⟩
  rw [e] at h2
  cases h2

end Verif.Trade
