import Verif.Lemmas.ConcRuns
import Verif.Props.Api

/-!
Programs that make many calls at the same time, for examples.
-/

namespace Verif.Conc

open Spec SimpleBuilder Store Api

set_option linter.unusedSectionVars false

section Play

variable {K V L : Type} [LinearOrder K] [LinearOrder V] [DecidableEq L]

theorem findAncestor_more {v : Nat → View K V} : ∀ (f t : Nat) (qs : List Store.Pending)
    {res}, findAncestor v f t qs = .ok res → ∀ f', f ≤ f' → findAncestor v f' t qs = .ok res
  | 0, _, _, res, h, _, _ => by simp [findAncestor] at h
  | f + 1, _, [], res, h, _, _ => by simp [findAncestor] at h
  | f + 1, t, q :: rest, res, h, 0, hf => by omega
  | f + 1, t, q :: rest, res, h, f' + 1, hf => by
    have hf : f ≤ f' := by omega
    unfold findAncestor at h ⊢
    split at h
    · exact h
    · split at h
      · split at h
        · cases h
        · rename_i hc _ r hr hne
          simp only [hne, if_false]
          exact findAncestor_more f _ _ h f' hf
      · rename_i hr
        split at h
        · rename_i hp
          exact findAncestor_more f _ _ h f' hf
        · exact h

theorem getLayerView_more {v : Nat → View K V} {last : Store K V} {n : Name} {f : Nat}
    {res} (h : getLayerView v f last n = .ok res) {f' : Nat} (hf : f ≤ f') :
    getLayerView v f' last n = .ok res := by
  unfold getLayerView at h ⊢
  split
  · rename_i hc; rw [hc] at h; exact h
  · rename_i hc
    rw [hc] at h
    dsimp only at h ⊢
    split
    · rename_i hh
      rw [if_pos hh] at h
      cases hr : findAncestor v f 1 [(n, none)] with
      | ok r => rw [hr] at h; rw [findAncestor_more f 1 _ hr f' hf]; exact h
      | err => rw [hr] at h; cases h
      | panic => rw [hr] at h; cases h
    · rename_i hh
      rw [if_neg hh] at h
      exact h

/-- What is to happen next. -/
inductive Move (K V L : Type) where
  | inv (t : Nat) (c : Req K V L)
  | act (t : Nat) (new : Name)
  | ret (t : Nat)
  /-- All cached layers vanish. -/
  | evict
  /-- The layer that was loaded last is put into the cache. -/
  | cache

/-- What a load sees, always the same. -/
def viewOf (M : Shop K V L) : Stage K V L → Option (View K V)
  | .search _ _ k => if k ≤ M.seen.length then M.seen[M.seen.length - k]? else none
  | _ => some ⟨[], noCache⟩

def choiceOf (v : View K V) (new : Name) : CChoice K V L := ⟨plainChoice new, fun _ => v, 50⟩

/-- The load has come to its end. -/
def atEnd (M : Shop K V L) (v : View K V) : Stage K V L → Bool
  | .search _ n _ => match getLayerView (fun _ => v) 50 M.session.store n with
    | .ok _ => true
    | _ => false
  | _ => true

/-- Let it happen. -/
def move (M : Shop K V L) : Move K V L → Option (Option (Conc.Event K V L) × Shop K V L)
  | .inv t c =>
    match M.calls t with
    | none => some (some (.inv t c), M.goes t (some (.start c)))
    | some _ => none
  | .act t new =>
    match M.calls t with
    | none => none
    | some st =>
      match viewOf M st with
      | none => none
      | some v =>
        if (M.session.store.get? new).isNone && M.session.builders.all (fun b => b.name != new) &&
            M.session.lost.all (· != new) && atEnd M v st then
          some (some (.act t new), stepped M t (advance M (choiceOf v new) st))
        else none
  | .ret t =>
    match M.calls t with
    | some (.done r ls) => some (some (.ret t (CState.numbered M.session.layers.length r)),
      { M with session := { M.session with layers := M.session.layers ++ ls } }.goes t none)
    | _ => none
  | .evict => some (none, { M with session := { M.session with cache := noCache } }.seeing)
  | .cache =>
    match M.loaded with
    | [] => none
    | l :: _ =>
      some (none, { M with session := { M.session with cache := M.session.cache.insert l } }.seeing)

/-- Let these happen, and see what the program sees. -/
def playC : Shop K V L → List (Move K V L) → Option (List (Conc.Event K V L))
  | _, [] => some []
  | M, m :: ms =>
    match move M m with
    | none => none
    | some r => (playC r.2 ms).map (r.1.toList ++ ·)

/-- The state that is reached. -/
def playTo : Shop K V L → List (Move K V L) → Option (Shop K V L)
  | M, [] => some M
  | M, m :: ms =>
    match move M m with
    | none => none
    | some r => playTo r.2 ms

theorem move_next {M M' : Shop K V L} {m : Move K V L} {e : Option (Conc.Event K V L)}
    (h : move M m = some (e, M')) : Next M e M' := by
  unfold move at h
  split at h
  · split at h
    · rename_i hc
      cases h
      exact .inv hc
    · cases h
  · split at h
    · cases h
    · rename_i st hst
      split at h
      · cases h
      · rename_i v hv
        split at h
        · rename_i hok
          simp only [Bool.and_eq_true, List.all_eq_true, bne_iff_ne, ne_eq,
            Option.isNone_iff_eq_none] at hok
          cases h
          refine .act (ch := choiceOf v _) hst ⟨plainChoice_possible hok.1.1.1 hok.1.1.2
            (fun hn => hok.1.2 _ hn rfl), ?_, ?_⟩
          · rintro g n k rfl
            simp only [viewOf] at hv
            split at hv
            · rename_i hk
              exact ⟨fun _ => M.seen.length - k, Nat.sub_add_cancel hk, fun _ => Nat.le_refl _, fun _ => hv⟩
            · cases hv
          · rintro g n k rfl f hf
            have he := hok.2
            simp only [atEnd] at he
            show getLayerView (fun _ => v) f _ _ = getLayerView (fun _ => v) 50 _ _
            split at he
            · rename_i res hres
              rw [hres]
              exact getLayerView_more hres hf
            · cases he
        · cases h
  · split at h
    · rename_i hc
      cases h
      exact .ret hc
    · cases h
  · cases h
    exact .evict (fun n l h => by cases h)
  · split at h
    · cases h
    · rename_i l ls hl
      cases h
      exact .cache (l := l) (by rw [hl]; exact List.mem_cons_self ..)

theorem playC_trace : ∀ {ms : List (Move K V L)} {M : Shop K V L} {evs : List (Conc.Event K V L)},
    playC M ms = some evs → Trace M evs
  | [], M, evs, h => by cases h; exact ⟨M, .nil⟩
  | m :: ms, M, evs, h => by
    unfold playC at h
    split at h
    · cases h
    · rename_i r hr
      obtain ⟨evs', h1, rfl⟩ := Option.map_eq_some_iff.mp h
      obtain ⟨N, h2⟩ := playC_trace h1
      exact ⟨N, .cons (move_next hr) h2⟩

theorem playTo_runs : ∀ {ms : List (Move K V L)} {M N : Shop K V L},
    playTo M ms = some N → ∃ evs, playC M ms = some evs ∧ Runs M evs N
  | [], M, N, h => by cases h; exact ⟨[], rfl, .nil⟩
  | m :: ms, M, N, h => by
    unfold playTo at h
    split at h
    · cases h
    · rename_i r hr
      obtain ⟨evs, h1, h2⟩ := playTo_runs h
      refine ⟨r.1.toList ++ evs, ?_, .cons (move_next hr) h2⟩
      unfold playC
      rw [hr]
      dsimp only
      rw [h1]
      rfl

/-- Steps of a call, with names from `new` on. -/
def acts (t k new : Nat) : List (Move K V L) := (List.range k).map fun j => .act t (new + j)

/-- Calls one after the other. -/
def whole (t : Nat) : Nat → List (Req K V L) → List (Move K V L)
  | _, [] => []
  | new, c :: cs => .inv t c :: (acts t 8 new ++ .ret t :: whole t (new + 8) cs)

/-- What the program sees at the ends of calls. -/
def answers : List (Conc.Event K V L) → List (Nat × Ans K V L)
  | [] => []
  | .ret t r :: evs => (t, r) :: answers evs
  | _ :: evs => answers evs

end Play

end Verif.Conc
