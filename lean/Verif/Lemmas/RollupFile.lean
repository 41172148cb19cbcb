import Verif.Model.RollupFile
import Verif.RollupFileSpec
import Verif.Lemmas.CrashFiles
import Verif.Lemmas.LockedRollups

/-!
What holds of the rollup files of a directory store at every moment, when each is read and written in
one piece: the invariant behind C71.
-/

namespace Verif

open Spec

namespace RollupFile

open LockedLabels (writeAt readAt)
open LockedRollups (upd upd_same upd_other)

abbrev RC := TimedCall (RollupOp LayerName) (RollupRes LayerName)
abbrev RH := Calls (RollupOp LayerName) (RollupRes LayerName)

/-- How calls and moments of registrations go on at time `T`. -/
structure Grows (h : RH) (m : Nat → Option Nat) (T : Nat) (h' : RH) (m' : Nat → Option Nat) : Prop where
  keep : ∀ j d, h j = some d → ∃ d', h' j = some d' ∧ d'.op = d.op ∧ d'.start = d.start ∧
    ∀ a t, d'.answer = some (a, t) → d.answer = some (a, t) ∨ t = T
  back : ∀ j d', h' j = some d' → (∃ d, h j = some d ∧ d.op = d'.op) ∨ h j = none
  mkeep : ∀ j x, m j = some x → m' j = some x
  mback : ∀ j x, m' j = some x → m j = some x ∨ x = T

/-- The moments are those of calls. -/
def Known (h : RH) (m : Nat → Option Nat) : Prop := ∀ j x, m j = some x → ∃ d, h j = some d

section
variable {h h' : RH} {m m' : Nat → Option Nat} {T y : Nat} {n r : LayerName}

theorem Grows.set_back (g : Grows h m T h' m') (hk : Known h m) {j : Nat} {d : RC} {x : Nat}
    (hd : h' j = some d) (hx : m' j = some x) (hlt : x < T) :
    ∃ d0, h j = some d0 ∧ d0.op = d.op ∧ m j = some x := by
  have hm : m j = some x := (g.mback j x hx).resolve_right (by omega)
  obtain ⟨d1, h1⟩ := hk j x hm
  rcases g.back j d hd with ⟨d0, h0, ho⟩ | h0
  · exact ⟨d0, h0, ho, hm⟩
  · rw [h0] at h1; cases h1

theorem Grows.noneBefore (g : Grows h m T h' m') (hk : Known h m) (hy : y ≤ T)
    (hn : NoneBefore h m n y) : NoneBefore h' m' n y := by
  intro j d r x hd ho hx hlt
  obtain ⟨d0, h0, ho0, hm⟩ := g.set_back hk hd hx (by omega)
  exact hn j d0 r x h0 (ho0.trans ho) hm hlt

theorem Grows.lastBefore (g : Grows h m T h' m') (hk : Known h m) (hy : y ≤ T)
    (hn : LastBefore h m n y r) : LastBefore h' m' n y r := by
  obtain ⟨j, d, x, hd, ho, hx, hlt, hall⟩ := hn
  obtain ⟨d', hd', ho', -, -⟩ := g.keep j d hd
  refine ⟨j, d', x, hd', ho'.trans ho, g.mkeep j x hx, hlt, fun j' e r' x' he heo hx' hlt' => ?_⟩
  obtain ⟨d0, h0, ho0, hm⟩ := g.set_back hk he hx' (by omega)
  exact hall j' d0 r' x' h0 (ho0.trans heo) hm hlt'

theorem Grows.underWay (g : Grows h m T h' m') (hy : y < T) (hn : UnderWay h m n y) :
    UnderWay h' m' n y := by
  obtain ⟨j, d, r, hd, ho, hs, hx, ha⟩ := hn
  obtain ⟨d', hd', ho', hs', ha'⟩ := g.keep j d hd
  refine ⟨j, d', r, hd', ho'.trans ho, hs' ▸ hs, fun x hx' => ?_, fun a t hat => ?_⟩
  · rcases g.mback j x hx' with h1 | rfl
    · exact hx x h1
    · omega
  · rcases ha' a t hat with h1 | rfl
    · exact ha a t h1
    · exact hy
end

/-- What a read of the rollup of `n` at the moment `y` can give. -/
def Got (trunc : Bool) (h : RH) (m : Nat → Option Nat) (n : LayerName) (y : Nat) (b : Bytes) : Prop :=
  (b = [] ∧ UnderWay h m n y ∧ (trunc = false → NoneBefore h m n y)) ∨
    ∃ r, b = rollupFile r ∧ LastBefore h m n y r

theorem Grows.got {trunc : Bool} {h h' : RH} {m m' : Nat → Option Nat} {T y : Nat} {n : LayerName}
    {b : Bytes} (g : Grows h m T h' m') (hk : Known h m) (hy : y < T) (hb : Got trunc h m n y b) :
    Got trunc h' m' n y b := by
  rcases hb with ⟨e, hu, hn⟩ | ⟨r, e, hl⟩
  · exact .inl ⟨e, g.underWay hy hu, fun ht => g.noneBefore hk (Nat.le_of_lt hy) (hn ht)⟩
  · exact .inr ⟨r, e, g.lastBefore hk (Nat.le_of_lt hy) hl⟩

theorem Grows.tells {trunc : Bool} {h h' : RH} {m m' : Nat → Option Nat} {T y : Nat} {n : LayerName}
    {r : RollupRes LayerName} (g : Grows h m T h' m') (hk : Known h m) (hy : y < T)
    (hb : Tells (!trunc) h m n y r) : Tells (!trunc) h' m' n y r := by
  match r, hb with
  | .got none, hb => exact g.noneBefore hk (Nat.le_of_lt hy) hb
  | .got (some r), hb => exact g.lastBefore hk (Nat.le_of_lt hy) hb
  | .unreadable, hb => exact ⟨g.underWay hy hb.1, fun ht => g.noneBefore hk (Nat.le_of_lt hy) (hb.2 ht)⟩

theorem Got.tells {trunc : Bool} {h : RH} {m : Nat → Option Nat} {y : Nat} {n : LayerName} {b : Bytes}
    (hb : Got trunc h m n y b) : Tells (!trunc) h m n y (result b) := by
  rcases hb with ⟨rfl, hu⟩ | ⟨r, rfl, hl⟩
  · have : readRollupFile [] = .err := by decide +kernel
    unfold result
    rw [this]
    exact ⟨hu.1, fun ht => hu.2 (by cases trunc <;> first | rfl | cases ht)⟩
  · have : readRollupFile (rollupFile r) = .ok r := by
      have := readRollupFile_long r (i := 43) (by omega)
      rwa [List.take_of_length_le (by rw [rollupFile_length])] at this
    unfold result
    rw [this]
    exact hl

/-- Where a call can be. -/
def CallOk (trunc : Bool) (s : RollupFile) (m : Nat → Option Nat) (i : Nat) (c : RC) : Prop :=
  match s.phase i, c.op with
  | .begun, _ => c.answer = none ∧ m i = none
  | .opened, .get n => c.answer = none ∧ (s.file n).isSome
  | .got b, .get n => c.answer = none ∧ (s.file n).isSome ∧
      ∃ y, c.start < y ∧ y < s.now ∧ Got trunc s.calls m n y b
  | .writing pos rest, .set _ r => c.answer = none ∧
      ((pos = 0 ∧ rest = rollupFile r ∧ m i = none) ∨ (rest = [] ∧ ∃ x, m i = some x))
  | .returning q, .get n => c.answer = none ∧
      ∃ y, c.start < y ∧ y < s.now ∧ Tells (!trunc) s.calls m n y q
  | .returning q, .set _ _ => c.answer = none ∧ q = .done ∧ ∃ x, m i = some x
  | .done, .get n => ∃ q t y, c.answer = some (q, t) ∧ c.start < y ∧ y < t ∧ t < s.now ∧
      Tells (!trunc) s.calls m n y q
  | .done, .set _ _ => ∃ t x, c.answer = some (.done, t) ∧ m i = some x
  | _, _ => False

/-- What a rollup file can be. -/
def FileOk (trunc : Bool) (s : RollupFile) (m : Nat → Option Nat) (n : LayerName) : Prop :=
  match s.file n with
  | none => NoneBefore s.calls m n s.now
  | some b => (b = [] ∧ (∃ j d r, s.calls j = some d ∧ d.op = .set n r ∧
        s.phase j = .writing 0 (rollupFile r)) ∧ (trunc = false → NoneBefore s.calls m n s.now)) ∨
      ∃ r, b = rollupFile r ∧ LastBefore s.calls m n s.now r

/-- The invariant. -/
structure Inv (trunc : Bool) (s : RollupFile) (m : Nat → Option Nat) : Prop where
  past : ∀ i x, m i = some x → x < s.now
  within : ∀ i x, m i = some x → ∃ c n r, s.calls i = some c ∧ c.op = .set n r ∧ c.start < x ∧
    ∀ a t, c.answer = some (a, t) → x < t
  one : ∀ i j x, m i = some x → m j = some x → i = j
  early : ∀ i c, s.calls i = some c → c.start < s.now
  call : ∀ i c, s.calls i = some c → CallOk trunc s m i c
  file : ∀ n, FileOk trunc s m n

theorem Inv.known {trunc : Bool} {s : RollupFile} {m : Nat → Option Nat} (v : Inv trunc s m) :
    Known s.calls m := fun j x h => by
  obtain ⟨c, _, _, h1, -⟩ := v.within j x h
  exact ⟨c, h1⟩

theorem result_done_writing {rest : Bytes} {r : LayerName} (h : rest = rollupFile r) : rest ≠ [] := by
  intro e
  have := rollupFile_length r
  rw [← h, e] at this
  cases this

/-- What is in the file now is what a read gets now. -/
theorem Inv.got_now {trunc : Bool} {s : RollupFile} {m : Nat → Option Nat} (v : Inv trunc s m)
    {n : LayerName} (h : (s.file n).isSome) : Got trunc s.calls m n s.now ((s.file n).getD []) := by
  have hf := v.file n
  unfold FileOk at hf
  cases hs : s.file n with
  | none => rw [hs] at h; cases h
  | some b =>
    rw [hs] at hf
    rcases hf with ⟨e, ⟨j, d, r, hj, ho, hp⟩, hn⟩ | hr
    · refine .inl ⟨e, ⟨j, d, r, hj, ho, v.early j d hj, fun x hx => ?_, fun a t hat => ?_⟩, hn⟩
      all_goals
        have hc := v.call j d hj
        unfold CallOk at hc
        rw [hp, ho] at hc
      · rcases hc.2 with ⟨-, -, h1⟩ | ⟨h1, -⟩
        · rw [h1] at hx; cases hx
        · exact absurd h1 (result_done_writing rfl)
      · rw [hc.1] at hat; cases hat
    · exact .inr hr

theorem Got.length {trunc : Bool} {h : RH} {m : Nat → Option Nat} {n : LayerName} {y : Nat} {b : Bytes}
    (hb : Got trunc h m n y b) : b = [] ∨ b.length = 43 := by
  rcases hb with ⟨e, -⟩ | ⟨r, e, -⟩
  · exact .inl e
  · exact .inr (e ▸ rollupFile_length r)

/-- A call that is not `i` stays as it is. -/
theorem CallOk.stays {trunc : Bool} {s s' : RollupFile} {m m' : Nat → Option Nat} {j : Nat} {c : RC}
    (hc : CallOk trunc s m j c) (hk : Known s.calls m) (g : Grows s.calls m s.now s'.calls m')
    (hp : s'.phase j = s.phase j) (hm : m' j = m j) (hn : s.now ≤ s'.now)
    (hf : ∀ n, (s.file n).isSome → (s'.file n).isSome) : CallOk trunc s' m' j c := by
  unfold CallOk at hc ⊢
  rw [hp, hm]
  cases h : s.phase j <;> cases ho : c.op <;> rw [h, ho] at hc <;> simp only at hc ⊢
  all_goals first
    | exact hc
    | exact ⟨hc.1, hf _ hc.2⟩
    | (obtain ⟨h1, h2, y, h3, h4, h5⟩ := hc
       exact ⟨h1, hf _ h2, y, h3, by omega, g.got hk h4 h5⟩)
    | (obtain ⟨h1, y, h3, h4, h5⟩ := hc
       exact ⟨h1, y, h3, by omega, g.tells hk h4 h5⟩)
    | (obtain ⟨q, t, y, h1, h3, h4, h6, h5⟩ := hc
       exact ⟨q, t, y, h1, h3, h4, by omega, g.tells hk (by omega) h5⟩)

theorem Inv.lift_none {trunc : Bool} {s : RollupFile} {m : Nat → Option Nat} (v : Inv trunc s m)
    {n : LayerName} {h' : RH} {m' : Nat → Option Nat} (g : Grows s.calls m s.now h' m')
    (hm : ∀ j d r, h' j = some d → d.op = .set n r → m' j ≠ some s.now)
    (hn : NoneBefore s.calls m n s.now) : NoneBefore h' m' n (s.now + 1) := by
  intro j d r x hd ho hx hlt
  have hne : x ≠ s.now := fun e => hm j d r hd ho (e ▸ hx)
  obtain ⟨d0, h0, ho0, hm0⟩ := g.set_back v.known hd hx (by omega)
  exact hn j d0 r x h0 (ho0.trans ho) hm0 (by omega)

theorem Inv.lift_last {trunc : Bool} {s : RollupFile} {m : Nat → Option Nat} (v : Inv trunc s m)
    {n r : LayerName} {h' : RH} {m' : Nat → Option Nat} (g : Grows s.calls m s.now h' m')
    (hm : ∀ j d r, h' j = some d → d.op = .set n r → m' j ≠ some s.now)
    (hn : LastBefore s.calls m n s.now r) : LastBefore h' m' n (s.now + 1) r := by
  obtain ⟨j, d, x, hd, ho, hx, hlt, hall⟩ := hn
  obtain ⟨d', hd', ho', -, -⟩ := g.keep j d hd
  refine ⟨j, d', x, hd', ho'.trans ho, g.mkeep j x hx, by omega, fun j' e r' x' he heo hx' hlt' => ?_⟩
  have hne : x' ≠ s.now := fun e1 => hm j' e r' he heo (e1 ▸ hx')
  obtain ⟨d0, h0, ho0, hm0⟩ := g.set_back v.known he hx' (by omega)
  exact hall j' d0 r' x' h0 (ho0.trans heo) hm0 (by omega)

/-- A file that is not written stays as it is, if no registration takes effect. -/
theorem Inv.file_stays {trunc : Bool} {s s' : RollupFile} {m m' : Nat → Option Nat} (v : Inv trunc s m)
    {n : LayerName} (g : Grows s.calls m s.now s'.calls m') (hf : s'.file n = s.file n)
    (hnow : s'.now = s.now + 1)
    (hm : ∀ j d r, s'.calls j = some d → d.op = .set n r → m' j ≠ some s.now)
    (hp : ∀ j d r, s.calls j = some d → d.op = .set n r → s.phase j = .writing 0 (rollupFile r) →
      s'.phase j = .writing 0 (rollupFile r)) : FileOk trunc s' m' n := by
  have h := v.file n
  unfold FileOk at h ⊢
  rw [hf, hnow]
  cases hs : s.file n with
  | none => rw [hs] at h; exact v.lift_none g hm h
  | some b =>
    rw [hs] at h
    rcases h with ⟨e, ⟨j, d, r, hj, ho, hph⟩, hn⟩ | ⟨r, e, hl⟩
    · obtain ⟨d', hd', ho', -, -⟩ := g.keep j d hj
      exact .inl ⟨e, ⟨j, d', r, hd', ho'.trans ho, hp j d r hj ho hph⟩,
        fun ht => v.lift_none g hm (hn ht)⟩
    · exact .inr ⟨r, e, v.lift_last g hm hl⟩

theorem Grows.refl (h : RH) (m : Nat → Option Nat) (T : Nat) : Grows h m T h m where
  keep _ d hd := ⟨d, hd, rfl, rfl, fun _ _ => .inl⟩
  back _ d hd := .inl ⟨d, hd, rfl⟩
  mkeep _ _ := id
  mback _ _ := .inl

/-- A call goes on without writing. -/
theorem Inv.goto {trunc : Bool} {s : RollupFile} {m : Nat → Option Nat} (v : Inv trunc s m) {i : Nat}
    {c : RC} {p : Phase} (hi : s.calls i = some c)
    (hw : ∀ n r, c.op = .set n r → s.phase i ≠ .writing 0 (rollupFile r))
    (hc : CallOk trunc (s.goto i p) m i c) : Inv trunc (s.goto i p) m where
  past j x h := Nat.lt_succ_of_lt (v.past j x h)
  within := v.within
  one := v.one
  early j d h := Nat.lt_succ_of_lt (v.early j d h)
  call j d h := by
    by_cases e : j = i
    · subst e
      replace h : s.calls j = some d := h
      rw [hi] at h; cases h
      exact hc
    · exact (v.call j d h).stays v.known (Grows.refl _ _ _) (upd_other _ _ e) rfl (Nat.le_succ _)
        (fun _ => id)
  file n := by
    refine v.file_stays (Grows.refl _ _ _) rfl rfl (fun j d r _ _ h => ?_) (fun j d r hj ho hph => ?_)
    · exact absurd (v.past j _ h) (Nat.lt_irrefl _)
    · by_cases e : j = i
      · subst e
        rw [hi] at hj; cases hj
        exact absurd hph (hw n r ho)
      · exact (upd_other _ _ e).trans hph

/-- A call begins. -/
theorem Inv.start {trunc : Bool} {s : RollupFile} {m : Nat → Option Nat} (v : Inv trunc s m) {i : Nat}
    {op : RollupOp LayerName} (hi : s.calls i = none) :
    Inv trunc { s with calls := upd s.calls i (some ⟨op, s.now, none⟩)
                       phase := upd s.phase i .begun
                       now := s.now + 1 } m := by
  have hmi : m i = none := by
    cases h : m i with
    | none => rfl
    | some x =>
      obtain ⟨d, h1⟩ := v.known i x h
      rw [hi] at h1; cases h1
  have ne : ∀ j d, s.calls j = some d → j ≠ i := fun j d h e => by
    rw [e, hi] at h; cases h
  have g : Grows s.calls m s.now (upd s.calls i (some ⟨op, s.now, none⟩)) m :=
    { keep := fun j d hd => ⟨d, (upd_other _ _ (ne j d hd)).trans hd, rfl, rfl, fun _ _ => .inl⟩
      back := fun j d hd => by
        by_cases e : j = i
        · exact .inr (e ▸ hi)
        · rw [upd_other _ _ e] at hd
          exact .inl ⟨d, hd, rfl⟩
      mkeep := fun _ _ => id
      mback := fun _ _ => .inl }
  refine { past := fun j x h => Nat.lt_succ_of_lt (v.past j x h), within := fun j x h => ?_,
           one := v.one, early := fun j d h => ?_, call := fun j d h => ?_, file := fun n => ?_ }
  · obtain ⟨c, n, r, h1, h2⟩ := v.within j x h
    exact ⟨c, n, r, (upd_other _ _ (ne j c h1)).trans h1, h2⟩
  · by_cases e : j = i
    · subst e
      replace h : upd s.calls j _ j = some d := h
      rw [upd_same] at h; cases h
      exact Nat.lt_succ_self _
    · replace h : upd s.calls i _ j = some d := h
      rw [upd_other _ _ e] at h
      exact Nat.lt_succ_of_lt (v.early j d h)
  · by_cases e : j = i
    · subst e
      replace h : upd s.calls j _ j = some d := h
      rw [upd_same] at h; cases h
      unfold CallOk
      dsimp only
      rw [show upd s.phase j .begun j = Phase.begun from upd_same _ _ _]
      exact ⟨rfl, hmi⟩
    · replace h : upd s.calls i _ j = some d := h
      rw [upd_other _ _ e] at h
      exact (v.call j d h).stays v.known g (upd_other _ _ e) rfl (Nat.le_succ _) (fun _ => id)
  · refine v.file_stays g rfl rfl (fun j d r _ _ h => ?_) (fun j d r hj _ hph => ?_)
    · exact absurd (v.past j _ h) (Nat.lt_irrefl _)
    · exact (upd_other _ _ (ne j d hj)).trans hph

/-- A call returns. -/
theorem Inv.answer {trunc : Bool} {s : RollupFile} {m : Nat → Option Nat} (v : Inv trunc s m) {i : Nat}
    {c : RC} {q : RollupRes LayerName} (hi : s.calls i = some c) (hp : s.phase i = .returning q) :
    Inv trunc { s with calls := upd s.calls i (some { c with answer := some (q, s.now) })
                       phase := upd s.phase i .done
                       now := s.now + 1 } m := by
  have hci := v.call i c hi
  have ha : c.answer = none := by
    unfold CallOk at hci
    rw [hp] at hci
    cases ho : c.op <;> rw [ho] at hci
    · exact hci.elim
    · exact hci.1
    · exact hci.1
  have g : Grows s.calls m s.now (upd s.calls i (some { c with answer := some (q, s.now) })) m :=
    { keep := fun j d hd => by
        by_cases e : j = i
        · subst e
          rw [hi] at hd; cases hd
          refine ⟨_, upd_same _ _ _, rfl, rfl, fun a t h => ?_⟩
          cases h
          exact .inr rfl
        · exact ⟨d, (upd_other _ _ e).trans hd, rfl, rfl, fun _ _ => .inl⟩
      back := fun j d hd => by
        by_cases e : j = i
        · subst e
          rw [upd_same] at hd; cases hd
          exact .inl ⟨c, hi, rfl⟩
        · rw [upd_other _ _ e] at hd
          exact .inl ⟨d, hd, rfl⟩
      mkeep := fun _ _ => id
      mback := fun _ _ => .inl }
  refine { past := fun j x h => Nat.lt_succ_of_lt (v.past j x h), within := fun j x h => ?_,
           one := v.one, early := fun j d h => ?_, call := fun j d h => ?_, file := fun n => ?_ }
  · obtain ⟨d, n, r, h1, h2, h3, h4⟩ := v.within j x h
    by_cases e : j = i
    · subst e
      rw [hi] at h1; cases h1
      refine ⟨_, n, r, upd_same _ _ _, h2, h3, fun a t hat => ?_⟩
      cases hat
      exact v.past j x h
    · exact ⟨d, n, r, (upd_other _ _ e).trans h1, h2, h3, h4⟩
  · by_cases e : j = i
    · subst e
      replace h : upd s.calls j _ j = some d := h
      rw [upd_same] at h; cases h
      exact Nat.lt_succ_of_lt (v.early j c hi)
    · replace h : upd s.calls i _ j = some d := h
      rw [upd_other _ _ e] at h
      exact Nat.lt_succ_of_lt (v.early j d h)
  · by_cases e : j = i
    · subst e
      replace h : upd s.calls j _ j = some d := h
      rw [upd_same] at h; cases h
      unfold CallOk at hci ⊢
      rw [hp] at hci
      dsimp only
      rw [show upd s.phase j .done j = Phase.done from upd_same _ _ _]
      cases ho : c.op <;> rw [ho] at hci <;> simp only at hci ⊢
      · obtain ⟨-, y, h1, h2, h3⟩ := hci
        exact ⟨q, s.now, y, rfl, h1, h2, Nat.lt_succ_self _, ho ▸ g.tells v.known h2 h3⟩
      · obtain ⟨-, rfl, x, hx⟩ := hci
        exact ⟨s.now, x, rfl, hx⟩
    · replace h : upd s.calls i _ j = some d := h
      rw [upd_other _ _ e] at h
      exact (v.call j d h).stays v.known g (upd_other _ _ e) rfl (Nat.le_succ _) (fun _ => id)
  · refine v.file_stays g rfl rfl (fun j d r _ _ h => ?_) (fun j d r hj _ hph => ?_)
    · exact absurd (v.past j _ h) (Nat.lt_irrefl _)
    · refine (upd_other _ _ (fun e => ?_)).trans hph
      rw [e, hp] at hph; cases hph

theorem putFile_isSome (s : RollupFile) (n k : LayerName) (b : Bytes) (h : (s.file k).isSome) :
    ((s.putFile n b).file k).isSome := by
  show (upd s.file n (some b) k).isSome
  by_cases e : k = n
  · rw [e, upd_same]; rfl
  · rw [upd_other _ _ e]; exact h

/-- A file is opened for writing. -/
theorem Inv.openWrite {trunc : Bool} {s : RollupFile} {m : Nat → Option Nat} (v : Inv trunc s m) {i : Nat}
    {c : RC} {n r : LayerName} (hi : s.calls i = some c) (ho : c.op = .set n r)
    (hp : s.phase i = .begun) :
    Inv trunc ((s.putFile n (if trunc then [] else (s.file n).getD [])).goto i
      (.writing 0 (rollupFile r))) m := by
  have hci := v.call i c hi
  unfold CallOk at hci
  rw [hp] at hci
  have g := Grows.refl s.calls m s.now
  have hph : ∀ j k, s.phase j = .writing 0 k → upd s.phase i (.writing 0 (rollupFile r)) j = .writing 0 k :=
    fun j k h => (upd_other _ _ (fun e => by rw [e, hp] at h; cases h)).trans h
  have hm : ∀ j, m j ≠ some s.now := fun j h => absurd (v.past j _ h) (Nat.lt_irrefl _)
  refine { past := fun j x h => Nat.lt_succ_of_lt (v.past j x h), within := v.within, one := v.one,
           early := fun j d h => Nat.lt_succ_of_lt (v.early j d h), call := fun j d h => ?_,
           file := fun k => ?_ }
  · by_cases e : j = i
    · subst e
      replace h : s.calls j = some d := h
      rw [hi] at h; cases h
      unfold CallOk
      rw [show ((s.putFile n _).goto j (.writing 0 (rollupFile r))).phase j = Phase.writing 0 (rollupFile r)
        from upd_same _ _ _, ho]
      exact ⟨hci.1, .inl ⟨rfl, rfl, hci.2⟩⟩
    · exact (v.call j d h).stays v.known g (upd_other _ _ e) rfl (Nat.le_succ _)
        (fun k => putFile_isSome s n k _)
  · by_cases e : k = n
    · subst e
      unfold FileOk
      rw [show ((s.putFile k (if trunc then [] else (s.file k).getD [])).goto i
        (.writing 0 (rollupFile r))).file k = some (if trunc then [] else (s.file k).getD [])
        from upd_same _ _ _]
      simp only
      cases trunc with
      | true => exact .inl ⟨rfl, ⟨i, c, r, hi, ho, upd_same _ _ _⟩, fun h => by cases h⟩
      | false =>
        have hf := v.file k
        unfold FileOk at hf
        cases hs : s.file k with
        | none =>
          rw [hs] at hf
          exact .inl ⟨rfl, ⟨i, c, r, hi, ho, upd_same _ _ _⟩,
            fun _ => v.lift_none g (fun j _ _ _ _ => hm j) hf⟩
        | some b =>
          rw [hs] at hf
          rcases hf with ⟨e, ⟨j, d, q, h1, h2, h3⟩, h4⟩ | ⟨q, e, h⟩
          · exact .inl ⟨e, ⟨j, d, q, h1, h2, hph j _ h3⟩,
              fun ht => v.lift_none g (fun j _ _ _ _ => hm j) (h4 ht)⟩
          · exact .inr ⟨q, e, v.lift_last g (fun j _ _ _ _ => hm j) h⟩
    · exact v.file_stays g (upd_other _ _ e) rfl (fun j _ _ _ _ => hm j) (fun j _ _ _ _ h => hph j _ h)

theorem writeAt_all {old b : Bytes} (h : old.length ≤ b.length) : writeAt old 0 b = b := by
  unfold LockedLabels.writeAt
  rw [List.drop_of_length_le (by omega)]
  simp

/-- A file is written. -/
theorem Inv.write {trunc : Bool} {s : RollupFile} {m : Nat → Option Nat} (v : Inv trunc s m) {i : Nat}
    {c : RC} {n r : LayerName} (hi : s.calls i = some c) (ho : c.op = .set n r)
    (hp : s.phase i = .writing 0 (rollupFile r)) :
    Inv trunc ((s.putFile n (rollupFile r)).goto i (.writing 43 [])) (upd m i (some s.now)) := by
  have hci := v.call i c hi
  unfold CallOk at hci
  rw [hp, ho] at hci
  have hmi : m i = none := by
    rcases hci.2 with h | h
    · exact h.2.2
    · exact absurd h.1 (result_done_writing rfl)
  have hne : ∀ j x, m j = some x → j ≠ i := fun j x h e => by rw [e, hmi] at h; cases h
  have g : Grows s.calls m s.now s.calls (upd m i (some s.now)) :=
    { keep := fun _ d hd => ⟨d, hd, rfl, rfl, fun _ _ => .inl⟩
      back := fun _ d hd => .inl ⟨d, hd, rfl⟩
      mkeep := fun j x h => (upd_other _ _ (hne j x h)).trans h
      mback := fun j x h => by
        by_cases e : j = i
        · subst e
          rw [upd_same] at h; cases h
          exact .inr rfl
        · rw [upd_other _ _ e] at h
          exact .inl h }
  refine { past := fun j x h => ?_, within := fun j x h => ?_, one := fun j k x hj hk => ?_,
           early := fun j d h => Nat.lt_succ_of_lt (v.early j d h), call := fun j d h => ?_,
           file := fun k => ?_ }
  · rcases g.mback j x h with h1 | rfl
    · exact Nat.lt_succ_of_lt (v.past j x h1)
    · exact Nat.lt_succ_self _
  · by_cases e : j = i
    · subst e
      rw [upd_same] at h; cases h
      refine ⟨c, n, r, hi, ho, v.early j c hi, fun a t hat => ?_⟩
      rw [hci.1] at hat; cases hat
    · rw [upd_other _ _ e] at h
      exact v.within j x h
  · by_cases e : j = i <;> by_cases e' : k = i
    · rw [e, e']
    · rw [e, upd_same] at hj
      rw [upd_other _ _ e'] at hk
      cases hj
      exact absurd (v.past k _ hk) (Nat.lt_irrefl _)
    · rw [e', upd_same] at hk
      rw [upd_other _ _ e] at hj
      cases hk
      exact absurd (v.past j _ hj) (Nat.lt_irrefl _)
    · rw [upd_other _ _ e] at hj
      rw [upd_other _ _ e'] at hk
      exact v.one j k x hj hk
  · by_cases e : j = i
    · subst e
      replace h : s.calls j = some d := h
      rw [hi] at h; cases h
      unfold CallOk
      rw [show ((s.putFile n (rollupFile r)).goto j (.writing 43 [])).phase j = Phase.writing 43 []
        from upd_same _ _ _, ho]
      exact ⟨hci.1, .inr ⟨rfl, s.now, upd_same _ _ _⟩⟩
    · exact (v.call j d h).stays v.known g (upd_other _ _ e) (upd_other _ _ e) (Nat.le_succ _)
        (fun k => putFile_isSome s n k _)
  · by_cases e : k = n
    · subst e
      unfold FileOk
      rw [show ((s.putFile k (rollupFile r)).goto i (.writing 43 [])).file k = some (rollupFile r)
        from upd_same _ _ _]
      refine .inr ⟨r, rfl, i, c, s.now, hi, ho, upd_same _ _ _, Nat.lt_succ_self _, ?_⟩
      intro j' d' r' x' _ _ _ h
      exact Nat.le_of_lt_succ h
    · refine v.file_stays g (upd_other _ _ e) rfl (fun j d q hj hoj h => ?_) (fun j d q hj hoj h => ?_)
      · by_cases e' : j = i
        · subst e'
          replace hj : s.calls j = some d := hj
          rw [hi] at hj; cases hj
          rw [ho] at hoj; cases hoj
          exact e rfl
        · rw [upd_other _ _ e'] at h
          exact absurd (v.past j _ h) (Nat.lt_irrefl _)
      · refine (upd_other _ _ (fun e' => ?_)).trans h
        subst e'
        rw [hi] at hj; cases hj
        rw [ho] at hoj; cases hoj
        exact e rfl

theorem Inv.init (trunc : Bool) : Inv trunc {} (fun _ => none) where
  past _ _ h := by cases h
  within _ _ h := by cases h
  one _ _ _ h := by cases h
  early _ _ h := by cases h
  call _ _ h := by cases h
  file _ := fun _ _ _ _ h => by cases h

theorem readAt_whole {b : Bytes} {pos k : Nat} (h : b.length ≤ k + 1) : readAt b pos k = b.drop pos := by
  unfold LockedLabels.readAt
  exact List.take_of_length_le (by rw [List.length_drop]; omega)

theorem Inv.go {trunc : Bool} {s s' : RollupFile} {m : Nat → Option Nat} (v : Inv trunc s m) {i k : Nat}
    {c : RC} (hi : s.calls i = some c) (hk : 43 ≤ k + 1) (h : next trunc s i k c = some s') :
    ∃ m', Inv trunc s' m' := by
  have hci := v.call i c hi
  unfold CallOk at hci
  unfold next at h
  have glen : ∀ n, (s.file n).isSome → ((s.file n).getD []).length ≤ k + 1 := fun n hn => by
    rcases (v.got_now hn).length with h1 | h1
    · rw [h1]; exact Nat.zero_le _
    · omega
  cases hp : s.phase i <;> cases ho : c.op <;> rw [hp, ho] at h hci <;> simp only at h hci
  case begun.store => cases h
  case begun.get n =>
    split at h
    · rename_i hf
      cases h
      refine ⟨m, v.goto hi (fun _ _ e => by rw [ho] at e; cases e) ?_⟩
      unfold CallOk
      rw [show (s.goto i _).phase i = _ from upd_same _ _ _, ho]
      refine ⟨hci.1, s.now, v.early i c hi, Nat.lt_succ_self _, ?_⟩
      have := v.file n
      unfold FileOk at this
      rw [hf] at this
      exact this
    · rename_i b hf
      cases h
      refine ⟨m, v.goto hi (fun _ _ e => by rw [ho] at e; cases e) ?_⟩
      unfold CallOk
      rw [show (s.goto i _).phase i = _ from upd_same _ _ _, ho]
      exact ⟨hci.1, by rw [show (s.goto i Phase.opened).file n = some b from hf]; rfl⟩
  case begun.set n r =>
    cases h
    exact ⟨m, v.openWrite hi ho hp⟩
  case opened.get n =>
    cases h
    refine ⟨m, v.goto hi (fun _ _ e => by rw [ho] at e; cases e) ?_⟩
    unfold CallOk
    rw [show (s.goto i _).phase i = _ from upd_same _ _ _, ho]
    refine ⟨hci.1, hci.2, s.now, v.early i c hi, Nat.lt_succ_self _, ?_⟩
    rw [readAt_whole (glen n hci.2), List.drop_zero]
    exact v.got_now hci.2
  case got.get b n =>
    obtain ⟨h1, h2, y, h3, h4, h5⟩ := hci
    split at h
    · rename_i hlt
      cases h
      refine ⟨m, v.goto hi (fun _ _ e => by rw [ho] at e; cases e) ?_⟩
      unfold CallOk
      rw [show (s.goto i _).phase i = _ from upd_same _ _ _, ho]
      refine ⟨h1, h2, s.now, v.early i c hi, Nat.lt_succ_self _, ?_⟩
      have hb : b = [] := by
        rcases h5.length with hb | hb
        · exact hb
        · have := (v.got_now h2).length
          rcases this with e | e
          · rw [e] at hlt; simp at hlt
          · omega
      subst hb
      rw [readAt_whole (glen n h2)]
      exact v.got_now h2
    · cases h
      refine ⟨m, v.goto hi (fun _ _ e => by rw [ho] at e; cases e) ?_⟩
      unfold CallOk
      rw [show (s.goto i _).phase i = _ from upd_same _ _ _, ho]
      exact ⟨h1, y, h3, Nat.lt_succ_of_lt h4, h5.tells⟩
  case writing.set pos rest n r =>
    obtain ⟨h1, h2⟩ := hci
    rcases h2 with ⟨rfl, rfl, h2⟩ | ⟨rfl, h2⟩
    · rw [if_neg (result_done_writing rfl)] at h
      have hl := rollupFile_length r
      rw [List.take_of_length_le (by omega), List.drop_of_length_le (by omega), hl,
        writeAt_all (by
          rw [hl]
          by_cases hn : (s.file n).isSome
          · rcases (v.got_now hn).length with e | e
            · rw [e]; exact Nat.zero_le _
            · omega
          · rw [Option.not_isSome_iff_eq_none.mp hn]; exact Nat.zero_le _)] at h
      cases h
      exact ⟨_, v.write hi ho hp⟩
    · rw [if_pos rfl] at h
      cases h
      refine ⟨m, v.goto hi (fun n' r' _ e => ?_) ?_⟩
      · rw [hp] at e
        injection e with e1 e2
        exact result_done_writing rfl e2.symm
      · unfold CallOk
        rw [show (s.goto i _).phase i = _ from upd_same _ _ _, ho]
        exact ⟨h1, rfl, h2⟩
  case returning.get q n =>
    cases h
    exact ⟨m, ho ▸ v.answer hi hp⟩
  case returning.set q n r =>
    cases h
    exact ⟨m, ho ▸ v.answer hi hp⟩
  all_goals cases h

theorem Run.inv {trunc : Bool} {s : RollupFile} (h : Run trunc true s) : ∃ m, Inv trunc s m := by
  induction h with
  | start => exact ⟨_, Inv.init trunc⟩
  | step _ hs ih =>
    obtain ⟨m, v⟩ := ih
    cases hs with
    | start hi => exact ⟨m, v.start hi⟩
    | go hi hk hn => exact v.go hi (hk rfl) hn

end RollupFile

end Verif
