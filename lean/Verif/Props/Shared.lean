import Verif.Lemmas.SharedSim
import Verif.Props.Lives
import Verif.Props.HeadLine

/-!
C68: processes that use a store on disk at the same time cannot tell it from the simple store of
`Verif/LifeSpec.lean`, which all of them use.
-/

namespace Verif.Conc

open Spec SimpleBuilder Store Api

section Main

variable {K V L : Type} [LinearOrder K] [LinearOrder V] [DecidableEq L] {l : L}

/-- C68: whatever calls are made on a store on disk by any number of processes at the same time,
each with a cache of its own, and at whatever moments they begin and are killed, the answers are
those of the simple store, up to the first step of a call outside of the contract. Missing: calls
outside of the contract, see `CState.InContract`, and a process that is killed in the middle of
writing a file. -/
theorem C68_processes_partial {evss : List (List (Conc.Event K V L))}
    (h : Shared.Lives { disk := true } evss) : LivesAllowed {} evss :=
  C66_lives_partial h.one

/-- Either all that happens is as in the simple store, or a call goes on outside of the
contract. -/
theorem C68_kept_partial {before : List (List (Conc.Event K V L))} {evs : List (Conc.Event K V L)}
    (h : Shared.Lives { disk := true } (before ++ [evs])) :
    (∃ s B, LivesKept {} before s ∧ Kept { now := s } evs B) ∨
      ∃ pre bad post s, before ++ [evs] = pre ++ bad :: post ∧ LivesKept {} pre s ∧
        Left { now := s } bad :=
  C66_kept_partial h.one

omit [LinearOrder K] [LinearOrder V] in
/-- The answer to `get_layer` for a layer that exists. -/
theorem getLayer_effect {past : List (State K V L)} {s s' : State K V L} {n k : Nat}
    {p : Conc.Pending K V L} (h : Effect past s (.asked (.getLayer n) k) s' p) :
    ∃ r held, p = .answered r held ∧ (s.log.known n → (∃ i, r = .layer i) ∧ held = [n]) := by
  cases h with
  | once hs hh =>
    cases hs with
    | getLayer _ =>
      exact ⟨_, _, rfl, fun _ => ⟨⟨_, rfl⟩,
        (List.append_cancel_left (hh : s.handles ++ [n] = _)).symm⟩⟩
    | getLayerAbsent h => exact ⟨_, _, rfl, fun hk => (h hk).elim⟩
    | rollupUptoNothing _ _ _ hc => rcases hc with hc | hc <;> cases hc
    | rollupUptoWrong _ _ _ _ _ hc => rcases hc with hc | hc <;> cases hc
    | rollupUpto _ _ _ _ _ _ _ hc => rcases hc with hc | hc <;> cases hc
    | commitTwice _ _ hc => rcases hc with hc | hc <;> cases hc
  | close hc => rcases hc with ⟨hc, _⟩ | ⟨hc, _⟩ <;> cases hc
  | hide hr =>
    cases hr with
    | upto _ _ hc => rcases hc with hc | hc <;> cases hc
  | again hr =>
    cases hr with
    | upto _ _ hc => rcases hc with hc | hc <;> cases hc

omit [LinearOrder K] [LinearOrder V] in
/-- A layer that exists is found, whatever calls are under way. -/
theorem getLayer_found {A B : CState K V L} {evs : List (Conc.Event K V L)} (hw : CWf A)
    (hk : Kept A evs B) {n : Nat} (hn : A.now.log.known n) {r : Ans K V L}
    (hr : (.getLayer n, r) ∈ pairs (fun _ => none) evs) :
    ∃ j, r = .layer j ∧ B.now.handles[j]? = some n := by
  obtain ⟨r0, held, i, ⟨e1, e2, C, t, k, new, s', rfl, m1, m2, _, _⟩, rfl, h3⟩ := moment
    (fun he => by obtain ⟨r, held, h, _⟩ := getLayer_effect he; exact ⟨r, held, h⟩) hk hw hr
  obtain ⟨r1, held1, e, q⟩ := getLayer_effect m2
  cases e
  obtain ⟨⟨x, rfl⟩, rfl⟩ := q ((m1.stays hw).known n hn)
  exact ⟨i, rfl, h3 0 n rfl⟩

omit [LinearOrder K] [LinearOrder V] in
/-- A layer whose name was told is found by all processes, and all of them see the same triples. -/
theorem C68_same_triples {before : List (List (Conc.Event K V L))} {s : State K V L}
    {a b : List (Conc.Event K V L)} {B : CState K V L} (h : LivesKept {} before s)
    (h' : Kept { now := s } (a ++ b) B) {i n : Nat} {t : VTriple K V} {r r1 r2 : Ans K V L}
    (h1 : (.layerName i, .name n) ∈ pairs (fun _ => none) a)
    (h2 : (.query i (.has t), r) ∈ pairs (fun _ => none) (a ++ b))
    (h3 : (.getLayer n, r1) ∈ pairs (fun _ => none) b) :
    ∃ j, r1 = .layer j ∧
      ((.query j (.has t), r2) ∈ pairs (fun _ => none) (a ++ b) → r2 = r) := by
  have w := (h.stays .start).2
  obtain ⟨M, k1, k2⟩ := h'.split
  have wM := CWf.kept k1 w.alone
  have g1 := name_right (pairs_kept k1 w.alone (fun _ => trivial) _ _ h1 trivial)
  obtain ⟨j, rfl, g2⟩ := getLayer_found wM k2 (wM.now.handle g1) h3
  refine ⟨j, rfl, fun h4 => ?_⟩
  obtain ⟨m, x, q1, rfl, q2⟩ := has_right (pairs_kept h' w.alone (fun _ => trivial) _ _ h2 trivial)
  obtain ⟨m', y, q3, rfl, q4⟩ := has_right (pairs_kept h' w.alone (fun _ => trivial) _ _ h4 trivial)
  rw [g2] at q3
  cases q3
  rw [k2.handles wM g1] at q1
  cases q1
  rw [show y = x from Bool.eq_iff_iff.2 (q4.trans q2.symm)]

/-- A layer that `set_head` of one process has made the head is the head, or below it, whenever any
process reads the head afterwards, unless a call goes on outside of the contract. -/
theorem C68_heads_partial
    {evss : List (List (Conc.Event K V L))} {a wa b wb : List (Conc.Event K V L)}
    (h : Shared.Lives { disk := true } evss) (hp : After evss a wa b wb)
    (hc : ∀ evs ∈ evss, Careful l evs)
    {i n : Nat} {r : Ans K V L} (h1 : (.setHead l i, .flag true) ∈ pairs (fun _ => none) a)
    (h2 : (.layerName i, .name n) ∈ pairs (fun _ => none) wa)
    (h3 : (.head l, r) ∈ pairs (fun _ => none) b) :
    (∃ j v, r = .head (some j) v ∧ ∀ r', (.stackNames j, r') ∈ pairs (fun _ => none) wb →
      ∃ ns, r' = .names ns ∧ n ∈ ns) ∨
    ∃ pre bad post s, evss = pre ++ bad :: post ∧ LivesKept {} pre s ∧ Left { now := s } bad :=
  C67_store_partial h.one hp hc h1 h2 h3

end Main

/-! ### Programs -/

section Play

variable {K V L : Type} [LinearOrder K] [LinearOrder V] [DecidableEq L] {N : Nat}

/-- Let it happen; the process `p` is the one whose cache changes. -/
def Shared.move (proc : Nat → Fin N) (S : Shared N K V L) (p : Fin N) :
    Move K V L → Option (Option (Conc.Event K V L) × Shared N K V L)
  | .inv t c =>
    match S.calls t with
    | none => some (some (.inv t c), S.goes t (some (.start c)))
    | some _ => none
  | .act t new =>
    match S.calls t with
    | none => none
    | some st =>
      match viewOf (S.shop (proc t)) st with
      | none => none
      | some v =>
        if (S.session.store.get? new).isNone && S.session.builders.all (fun b => b.name != new) &&
            S.session.lost.all (· != new) && atEnd (S.shop (proc t)) v st then
          some (some (.act t new), S.stepped (proc t) t (advance (S.shop (proc t)) (choiceOf v new) st))
        else none
  | .ret t =>
    match S.calls t with
    | some (.done r ls) => some (some (.ret t (CState.numbered S.session.layers.length r)),
      { S with session := { S.session with layers := S.session.layers ++ ls } }.goes t none)
    | _ => none
  | .evict => some (none, (S.setCache p noCache).seeing)
  | .cache =>
    match S.loaded p with
    | [] => none
    | l :: _ => some (none, (S.setCache p ((S.caches p).insert l)).seeing)

theorem Shared.move_next {proc : Nat → Fin N} {S S' : Shared N K V L} {p : Fin N}
    {m : Move K V L} {e : Option (Conc.Event K V L)} (h : S.move proc p m = some (e, S')) :
    Shared.Next proc S e S' := by
  unfold Shared.move at h
  split at h
  · split at h
    · rename_i hc
      cases h
      exact .inv hc
    · cases h
  · split at h
    · cases h
    · rename_i st hst
      split at h
      · cases h
      · rename_i v hv
        split at h
        · rename_i hok
          simp only [Bool.and_eq_true, List.all_eq_true, bne_iff_ne, ne_eq,
            Option.isNone_iff_eq_none] at hok
          cases h
          refine .act (ch := choiceOf v _) hst ⟨plainChoice_possible hok.1.1.1 hok.1.1.2
            (fun hn => hok.1.2 _ hn rfl), ?_, ?_⟩
          · rintro g n k rfl
            simp only [viewOf] at hv
            split at hv
            · rename_i hk
              exact ⟨fun _ => (S.shop _).seen.length - k, Nat.sub_add_cancel hk,
                fun _ => Nat.le_refl _, fun _ => hv⟩
            · cases hv
          · rintro g n k rfl f hf
            have he := hok.2
            simp only [atEnd] at he
            show getLayerView (fun _ => v) f _ _ = getLayerView (fun _ => v) 50 _ _
            split at he
            · rename_i res hres
              rw [hres]
              exact getLayerView_more hres hf
            · cases he
        · cases h
  · split at h
    · rename_i hc
      cases h
      exact .ret hc
    · cases h
  · cases h
    exact .evict (fun n l h => by cases h)
  · split at h
    · cases h
    · rename_i l ls hl
      cases h
      exact .cache (l := l) (by rw [hl]; exact List.mem_cons_self ..)

/-- Let these happen. -/
def Shared.play (proc : Nat → Fin N) : Shared N K V L → List (Fin N × Move K V L) →
    Option (List (Conc.Event K V L) × Shared N K V L)
  | S, [] => some ([], S)
  | S, (p, m) :: ms =>
    match S.move proc p m with
    | none => none
    | some r => (Shared.play proc r.2 ms).map fun x => (r.1.toList ++ x.1, x.2)

theorem Shared.play_runs {proc : Nat → Fin N} : ∀ {ms : List (Fin N × Move K V L)}
    {S : Shared N K V L} {x}, Shared.play proc S ms = some x → Shared.Runs proc S x.1 x.2
  | [], S, x, h => by cases h; exact .nil
  | (p, m) :: ms, S, x, h => by
    unfold Shared.play at h
    split at h
    · cases h
    · rename_i r hr
      obtain ⟨y, h1, rfl⟩ := Option.map_eq_some_iff.mp h
      exact .cons (Shared.move_next hr) (Shared.play_runs h1)

end Play

/-- The calls with even numbers are those of one process, the others are those of another. -/
def two (t : Nat) : Fin 2 := ⟨t % 2, Nat.mod_lt _ (by decide)⟩

/-- One process rolls up a layer that the other uses. Both put layers on top of it and set the head
to them. -/
def work : List (Move Nat Nat Nat) :=
  [.inv 0 (.rollup 1), .inv 1 (.openWrite 2), .act 0 200, .act 1 201, .act 0 202, .act 1 203,
   .act 0 204, .act 1 205, .act 0 206, .act 0 207, .act 1 208, .act 0 209, .act 0 210, .ret 0,
   .ret 1, .inv 0 (.openWrite 1), .inv 1 (.edit 2 (.removeValue ⟨1, 2, .node 3⟩)), .act 1 211,
   .ret 1] ++ acts 0 6 212 ++ [.ret 0, .inv 1 (.commit 2), .inv 0 (.commit 3)] ++ acts 1 5 220 ++
  acts 0 5 230 ++ [.ret 1, .ret 0, .inv 0 (.setHead 7 4), .inv 1 (.setHead 7 3), .act 0 240,
   .act 1 241, .act 0 242, .act 1 243, .act 1 244, .act 0 245, .ret 0, .ret 1]

/-- One process makes two layers and sets the head. The other reads the head and keeps the layer in
its cache. -/
def both : List (Fin 2 × Move Nat Nat Nat) :=
  (whole 0 0 (before ++ [.setHead 7 1])).map (0, ·) ++ (whole 1 100 [.head 7]).map (1, ·) ++
  [(1, .cache)] ++ work.map (0, ·) ++
  (whole 0 300 [.head 7, .query 5 .triples, .layerName 5, .stackNames 5]).map (0, ·) ++
  (whole 1 400 [.query 2 .triples]).map (1, ·)

/-- What they see: only one of them sets the head. -/
def bothAnswers : List (Nat × Ans Nat Nat Nat) :=
  beforeAnswers.map (fun r => (0, r)) ++
    [(0, .flag true), (1, .head (some 2) 1), (0, .done), (1, .builder 2), (1, .done),
     (0, .builder 3), (1, .layer 3), (0, .layer 4), (0, .flag false), (1, .flag true),
     (0, .head (some 5) 2), (0, .answer (.list [⟨1, 1, 3⟩])), (0, .name 208),
     (0, .names [8, 35, 208]), (1, .answer (.list [⟨1, 1, 2⟩, ⟨1, 1, 3⟩]))]

/-- The hypothesis of `C68_processes_partial`, `C68_kept_partial` and `C68_heads_partial`: two
processes, and one that comes after them. -/
example : ∃ evs evs' : List (Conc.Event Nat Nat Nat),
    Shared.Lives { disk := true } ([evs] ++ [evs']) ∧ answers evs = bothAnswers ∧
    answers evs' = [(0, .head (some 0) 2), (0, .names [8, 35, 208])] := by
  have h : ((Shared.play two (Shared.opened 2 { disk := true }) both).bind fun x =>
      if leavesB { session := x.2.session } [1000] then
        (Shared.play (N := 1) (fun _ => 0) (Shared.opened 1
          { store := x.2.session.store, labels := x.2.session.labels,
            disk := x.2.session.disk, lost := [1000] })
          ((whole 0 500 [.head 7, .stackNames 0]).map (0, ·))).map fun y => (answers x.1, answers y.1)
      else none) = some (bothAnswers, [(0, .head (some 0) 2), (0, .names [8, 35, 208])]) := by
    decide +kernel
  obtain ⟨x, h1, h2⟩ := Option.bind_eq_some_iff.mp h
  split at h2
  · rename_i h3
    obtain ⟨y, h4, h5⟩ := Option.map_eq_some_iff.mp h2
    obtain ⟨h6, h7⟩ := Prod.mk.inj h5
    exact ⟨x.1, y.1, .stop (Shared.play_runs h1) (leavesB_leaves h3) (.last (Shared.play_runs h4)),
      h6, h7⟩
  · cases h2

/-- A process makes a layer and tells its name. -/
def telling : List (Conc.Event Nat Nat Nat) :=
  [.inv 0 .createBase, .act 0 5, .ret 0 (.builder 0), .inv 0 (.commit 0), .act 0 6, .act 0 7,
   .ret 0 (.layer 0), .inv 0 (.layerName 0), .inv 2 (.query 0 (.has ⟨1, 2, .node 3⟩)), .act 0 8,
   .ret 0 (.name 5)]

/-- Another process uses the name. -/
def told : List (Conc.Event Nat Nat Nat) :=
  [.inv 1 (.getLayer 5), .act 1 8, .act 2 8, .ret 2 (.answer (.flag false)), .ret 1 (.layer 1),
   .inv 1 (.query 1 (.has ⟨1, 2, .node 3⟩)), .act 1 8, .ret 1 (.answer (.flag false))]

/-- The hypotheses of `C68_same_triples`. -/
example : (∃ B, LivesKept {} [] ({} : State Nat Nat Nat) ∧ Kept {} (telling ++ told) B) ∧
    (.layerName 0, .name 5) ∈ pairs (fun _ => none) telling ∧
    (.query 0 (.has ⟨1, 2, .node 3⟩), .answer (.flag false)) ∈ pairs (fun _ => none) (telling ++ told) ∧
    (.getLayer 5, .layer 1) ∈ pairs (fun _ => none) told ∧
    (.query 1 (.has ⟨1, 2, .node 3⟩), .answer (.flag false)) ∈ pairs (fun _ => none) (telling ++ told) := by
  refine ⟨?_, by decide, by decide, by decide, by decide⟩
  have fits : ({} : Ids Nat Nat).Fits {} (after (fun _ => False) []) := by
    constructor <;> simp [after, Ids.code, added]
    all_goals (intro a h; omega)
  have more : ∀ {A A' : CState Nat Nat Nat} {e rest} {P : Prop}, Goes A e A' →
      (∃ B, P ∧ Kept A' rest B) → ∃ B, P ∧ Kept A (e :: rest) B :=
    fun h1 ⟨B, h2, h3⟩ => ⟨B, h2, .cons h1 h3⟩
  have back : ∀ {A : CState Nat Nat Nat} {t r r' held rest} {P : Prop},
      A.calls t = some (.answered r held) →
      CState.numbered A.now.handles.length r = r' → (∃ B, P ∧ Kept _ rest B) →
      ∃ B, P ∧ Kept A (.ret t r' :: rest) B := fun h1 h2 h3 => h2 ▸ more (.ret h1) h3
  have none_asked : ∀ {P : Nat → Prop}, ∀ n ∈ ([] : List Nat), P n := by intro P n hn; cases hn
  have same : ∀ {s : State Nat Nat Nat} {new : Nat}, ∀ n, s.Fresh n → n ≠ new → s.Fresh n :=
    fun n h _ => h
  refine more (.inv rfl) ?_
  refine more (.act rfl ⟨trivial, none_asked⟩ (.once (.createBase (new := 5) ?_) (held := []) rfl) ?_) ?_
  · simp [State.Fresh, History.known]
  · simp [State.Fresh, History.known, eq_comm]
  refine back rfl rfl ?_
  refine more (.inv rfl) ?_
  refine more (.act rfl ⟨⟨_, rfl⟩, none_asked⟩ (.close (.inl ⟨rfl, rfl⟩) rfl rfl) ?_) ?_
  · simp only [State.Fresh, History.known, State.setBuilder]
    intro n h _
    simpa using h
  refine more (.act rfl trivial (.write rfl fits (.inr ⟨rfl, rfl, rfl⟩)) ?_) ?_
  · simp [State.Fresh, History.known, State.setBuilder, State.add, Spec.Event.new]
    omega
  refine back rfl rfl ?_
  refine more (.inv rfl) ?_
  refine more (.inv rfl) ?_
  refine more (.act rfl ⟨⟨_, rfl⟩, none_asked⟩ (.once (.layerName rfl) (held := []) rfl) same) ?_
  refine back rfl rfl ?_
  refine more (.inv rfl) ?_
  refine more (.act rfl ⟨⟨by simp [State.setBuilder, State.add], by simp [State.setBuilder, State.add],
    by simp [State.setBuilder, State.add]⟩, ?_⟩
    (.once (.getLayer (by simp [History.known, State.setBuilder, State.add, Spec.Event.new]))
      (held := [5]) rfl) same) ?_
  · intro n _ t b cs load x h
    by_cases h1 : t = 1
    · simp [h1] at h
    · by_cases h0 : t = 0
      · simp [h0] at h
      · by_cases h2 : t = 2
        · simp [h2] at h
        · simp [h1, h0, h2] at h
  refine more (.act rfl ⟨⟨⟨_, rfl⟩, by simp⟩, none_asked⟩
    (.once (.query (a := .flag false) rfl ?_) (held := []) rfl) same) ?_
  · simp [Right, History.triples, State.add, State.hold, after, added, Spec.Event.new]
  refine back rfl rfl ?_
  refine back rfl rfl ?_
  refine more (.inv rfl) ?_
  refine more (.act rfl ⟨⟨⟨_, rfl⟩, by simp⟩, none_asked⟩
    (.once (.query (a := .flag false) rfl ?_) (held := []) rfl) same) ?_
  · simp [Right, History.triples, State.add, State.hold, after, added, Spec.Event.new]
  exact back rfl rfl ⟨_, .nil, .nil⟩

end Verif.Conc
