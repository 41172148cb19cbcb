import Verif.Lemmas.TradeSim

/-!
Whatever happens in the model of stores that exchange layers while many calls are under way
(`Verif/Model/Trade.lean`) is as specified (`Verif/TradeSpec.lean`).
-/

set_option linter.unusedSectionVars false

namespace Verif.Trade

open Spec Store Net Conc

variable {K V L : Type} [LinearOrder K] [LinearOrder V] [DecidableEq L]
  {N N' : Shops K V L} {A A' : State K V L}

theorem does_same (A : State K V L) {t : Nat} {j : Option (Job K V)} (h : A.jobs t = j) :
    A.does t j = A := by
  unfold State.does
  congr
  funext u
  split
  · rename_i e; rw [e, h]
  · rfl

theorem does_does (A : State K V L) (t : Nat) (j j' : Option (Job K V)) :
    (A.does t j).does t j' = A.does t j' := by
  unfold State.does
  congr
  funext u
  dsimp only
  split <;> rfl

theorem bring_does (N : Shops K V L) (t : Nat) (j j' : Option (Stage K V)) (i : Nat) (n : Name)
    (e : Entry K V) : ((N.does t j).bring i n e).does t j' = (N.bring i n e).does t j' := by
  unfold Shops.bring Shops.does Shops.set
  congr
  funext u
  dsimp only
  split <;> rfl

theorem set_does (A : State K V L) (t : Nat) (j j' : Option (Job K V)) (i : Nat)
    (a : CState K V L) : ((A.does t j).set i a).does t j' = (A.set i a).does t j' := by
  unfold State.does State.set
  congr
  funext u
  dsimp only
  split <;> rfl

/-- A call with a pack goes on. -/
theorem TSim.acts (h : TSim N A) {t : Nat} {st st' : Stage K V} (hs : N.jobs t = some st)
    (hx : Acts N st N' st') :
    (∃ A', TSim (N'.does t (some st')) A' ∧ Goes A (.act t) A') ∨ A.Leaves (.act t) := by
  have hjob := h.jobs t
  rw [hs] at hjob
  generalize hj : A.jobs t = j at hjob
  by_cases hc : ∀ j', j = some j' → A.InContract j'
  · left
    cases hx with
    | @pack i ns =>
      cases hjob with
      | asked =>
        refine ⟨A, ?_, .skip hj (hc _ rfl)⟩
        have := h.does (t := t) (st := some (.packing i ns [])) (j := some (.asked (.pack i ns)))
          (.packing (done := []) rfl (fun n => Or.inl ⟨rfl, List.not_mem_nil⟩))
          (by intro u i X ns X' ns' n _ h; cases h)
        rwa [does_same A hj] at this
    | @read i n left P q hq =>
      cases hjob with
      | @packing _ _ _ ns dn e hr =>
        have hin := hc _ rfl
        refine ⟨A, ?_, .skip hj hin⟩
        have := h.does (t := t) (st := some (.packing i left (P ++ [q])))
          (j := some (.asked (.pack i ns)))
          (.packing (done := dn ++ [n]) (by rw [e]; simp)
            (hr.more h hq (hin n (by rw [e]; simp)).1))
          (by intro u i X ns X' ns' n _ h; cases h)
        rwa [does_same A hj] at this
    | @missing i n left P hq =>
      cases hjob with
      | @packing _ _ _ ns dn e hr =>
        refine ⟨_, h.does (st := some (.answered .failed)) (j := some (.answered .failed)) .answered
          (by intro u i X ns X' ns' n _ h; cases h), .act hj (hc _ rfl) (.packFailed ⟨n, ?_, ?_⟩)⟩
        · rw [e]; simp
        · intro hk
          have : (N.net.at i).get? n = none := Option.map_eq_none_iff.1 hq
          exact (h.get?_none i n).1 this (Or.inl hk)
    | @packed i P =>
      cases hjob with
      | @packing _ _ _ ns dn e hr =>
        rw [List.append_nil] at e
        subst e
        obtain ⟨k1, k2⟩ := hr.pack h
        have hlen : N.packs.length = A.packs.length := h.net.packs.length_eq
        refine ⟨_, (h.morePacks k2).does (st := some (.answered (.pack N.packs.length)))
          (j := some (.answered (.pack A.packs.length))) ?_
          (by intro u i X ns X' ns' n _ h; cases h), .act hj (hc _ rfl) (.pack k1)⟩
        rw [hlen]
        exact .answered
    | @unpack i p ns P hP hall =>
      cases hjob with
      | asked =>
        obtain ⟨X, hX, hfit, hco⟩ := hc _ rfl
        obtain ⟨P', hP', hPX⟩ := Api.forall₂_get h.net.packs hX
        rw [show N.net.packs[p]? = some P from hP] at hP'
        cases hP'
        refine ⟨_, h.does (st := some (.unpacking i P ns)) (j := some (.taking i X ns))
          (.unpacking hPX fun n hn => ?_) ?_, .act hj (hc _ rfl) (.unpack hX)⟩
        · have h1 := List.all_eq_true.1 hall n hn
          rw [Bool.and_eq_true, Option.isSome_iff_exists, Option.isNone_iff_eq_none] at h1
          obtain ⟨⟨e, he⟩, hnone⟩ := h1
          refine ⟨e, he, hnone, fun q hq => ?_⟩
          obtain ⟨x, hx, _, hpar⟩ := hfit n hn
          refine hpar q ?_
          rcases hPX n with ⟨g, _⟩ | ⟨e1, x1, _, _, _, g1, g2, _, _, _, _, _, g3, _⟩
          · rw [he] at g; cases g
          · rw [he] at g1; rw [hx] at g2
            cases g1; cases g2
            rw [g3, hq]
        · intro u i' Y ms Y' ms' n _ h1 h2 h3 h4
          cases h1
          exact hco n h3 ⟨u, Y', ms', h2, h4⟩
    | @unpackInvalid i p ns hno =>
      cases hjob with
      | asked =>
        exfalso
        obtain ⟨X, hX, hfit, hco⟩ := hc _ rfl
        obtain ⟨P, hP, hPX⟩ := Api.forall₂_get h.net.packs hX
        have h1 := hno P hP
        rw [List.all_eq_false] at h1
        obtain ⟨n, hn, h1⟩ := h1
        apply h1
        obtain ⟨x, hx, hnk, hpar⟩ := hfit n hn
        rcases hPX n with ⟨_, g⟩ | ⟨e1, x1, k, _, _, g1, g2, _, g4, _⟩
        · rw [hx] at g; cases g
        · rw [Bool.and_eq_true, g1]
          refine ⟨rfl, ?_⟩
          have : (N.net.at i).get? n = none := (h.get?_none i n).2 (by
            rintro (h2 | h2)
            · exact hnk h2
            · exact h.net.kinds k i n g4 h2)
          rw [show (N.shops i).session.store.get? n = none from this]
          rfl
    | @write i n e left P hn he hfirst =>
      cases hjob with
      | @unpacking _ _ _ X hPX hl =>
        obtain ⟨e', he', hnone, hpar⟩ := hl n hn
        rw [he] at he'
        cases he'
        have hp : ∀ p, e.parent = some p → A.net.has i p := by
          intro p hp
          refine (hpar p hp).resolve_left (hfirst p ?_)
          unfold Pack.parent?
          rw [he]
          exact hp
        have h0 := h.does (t := t) (st := none) (j := none) .idle
          (by intro u i X ns X' ns' n _ h; cases h)
        obtain ⟨⟨x, hx, hxp⟩, hfr, h1⟩ := h0.bring (i := i) (n := n) (P := P) (X := X) (e := e)
          hPX he hnone hp (by
            intro u Y ms h1 h2
            change (if u = t then none else A.jobs u) = _ at h1
            split at h1
            · cases h1
            · rename_i hu
              exact hu (h.once u t i Y ms X left n h1 hj h2 hn))
        have hmono : ∀ j m, A.net.has j m → (A.set i { A.stores i with
            now := receive X (A.stores i).now n
            past := (A.stores i).now :: (A.stores i).past }).net.has j m := by
          intro j m
          rw [aset_net]
          unfold Net.State.has
          by_cases hj : j = i
          · subst hj
            rw [aset_at]
            exact fun hm => (receive_known hx m).2 (Or.inr hm)
          · rw [aset_ne _ _ hj]; exact id
        have hext : ∀ j, Ext (N.net.at j) ((N.bring i n e).net.at j) := by
          intro j
          unfold Shops.bring
          rw [set_net]
          unfold Stores.at
          by_cases hj : j = i
          · subst hj; rw [set_at]; exact Ext.cons hnone e
          · rw [set_ne _ _ hj]; exact Ext.refl _
        have h2 := h1.does (t := t) (st := some (.unpacking i P (left.filter (· ≠ n))))
          (j := some (.taking i X (left.filter (· ≠ n)))) (by
            refine JobSim.same (N := N.bring i n e) (A := A.set i { A.stores i with
              now := receive X (A.stores i).now n
              past := (A.stores i).now :: (A.stores i).past }) ?_ rfl rfl
            refine .unpacking (hPX.mono hext hmono) fun m hm => ?_
            rw [List.mem_filter, decide_eq_true_eq] at hm
            obtain ⟨e1, k1, k2, k3⟩ := hl m hm.1
            refine ⟨e1, k1, ?_, fun p hp => ?_⟩
            · unfold Shops.bring
              rw [set_net]
              unfold Stores.at
              rw [set_at]
              show Store.get? ((n, e) :: _) m = none
              rw [get?_cons_ne (Ne.symm hm.2)]
              exact k2
            · by_cases hpn : p = n
              · right
                rw [aset_net]
                unfold Net.State.has
                rw [aset_at]
                exact (receive_known hx p).2 (Or.inl hpn)
              · rcases k3 p hp with h3 | h3
                · left
                  rw [List.mem_filter, decide_eq_true_eq]
                  exact ⟨h3, hpn⟩
                · exact Or.inr (hmono i p h3)) (by
            intro u i' Y ms Y' ms' m hu h1 h2 h3 h4
            cases h1
            rw [List.mem_filter] at h3
            change (if u = t then none else A.jobs u) = _ at h2
            rw [if_neg hu] at h2
            exact hu (h.once u t i Y' ms' X left m h2 hj h4 h3.1))
        rw [bring_does, set_does] at h2
        exact ⟨_, h2, .act hj (hc _ rfl) (.take hn hx hfr fun p hq => hp p (by rw [← hxp]; exact hq))⟩
    | @written i P =>
      cases hjob with
      | unpacking =>
        exact ⟨_, h.does (st := some (.answered .done)) (j := some (.answered .done)) .answered
          (by intro u i X ns X' ns' n _ h; cases h), .act hj (hc _ rfl) .taken⟩
    | @parents p P l hP hl =>
      cases hjob with
      | asked =>
        obtain ⟨X, hX⟩ := hc _ rfl
        obtain ⟨P', hP', hPX⟩ := Api.forall₂_get h.net.packs hX
        rw [show N.net.packs[p]? = some P from hP] at hP'
        cases hP'
        refine ⟨_, h.does (st := some (.answered (.parents l))) (j := some (.answered (.parents l)))
          .answered (by intro u i X ns X' ns' n _ h; cases h),
          .act hj (hc _ rfl) (.parents hX ?_ ?_)⟩
        · exact ((hl.map Prod.fst).nodup_iff).2 (listing_nodup P)
        · intro n q
          rw [hl.mem_iff, mem_listing]
          rcases hPX n with ⟨h1, h2⟩ | ⟨e, x, _, _, _, h1, h2, _, _, _, _, _, h3, _⟩
          · simp [h1, h2]
          · simp [h1, h2, h3]
    | @parentsInvalid p hP =>
      cases hjob with
      | asked =>
        obtain ⟨X, hX⟩ := hc _ rfl
        obtain ⟨P', hP', hPX⟩ := Api.forall₂_get h.net.packs hX
        rw [show N.net.packs[p]? = none from hP] at hP'
        cases hP'
  · right
    rw [Classical.not_forall] at hc
    obtain ⟨j', hc⟩ := hc
    rw [Classical.not_imp] at hc
    exact ⟨j', hj.trans hc.1, hc.2⟩

/-- Whatever happens next. -/
theorem TSim.next (h : TSim N A) {e : Option (Event K V L)} (hx : Next N e N') :
    (∃ A', TSim N' A' ∧ ((e = none ∧ A' = A) ∨ ∃ e', e = some e' ∧ Goes A e' A')) ∨
      ∃ e', e = some e' ∧ A.Leaves e' := by
  cases hx with
  | @on i e M h1 h2 =>
    rcases h.on h1 h2 with ⟨A', h3, ⟨rfl, rfl⟩ | ⟨e, rfl, h4⟩⟩ | ⟨e, rfl, h3⟩
    · exact .inl ⟨_, h3, .inl ⟨rfl, rfl⟩⟩
    · exact .inl ⟨_, h3, .inr ⟨_, rfl, h4⟩⟩
    · exact .inr ⟨_, rfl, h3⟩
  | @inv t c h1 =>
    refine .inl ⟨_, h.does (st := some (.asked c)) (j := some (.asked c)) .asked
      (by intro u i X ns X' ns' n _ h; cases h), .inr ⟨_, rfl, .inv ?_⟩⟩
    have := h.jobs t
    rw [h1] at this
    generalize hj : A.jobs t = j at this
    cases this
    rfl
  | act h1 h2 =>
    rcases h.acts h1 h2 with ⟨A', h3, h4⟩ | h3
    · exact .inl ⟨A', h3, .inr ⟨_, rfl, h4⟩⟩
    · exact .inr ⟨_, rfl, h3⟩
  | @ret t r h1 =>
    refine .inl ⟨_, h.does (st := none) (j := none) .idle
      (by intro u i X ns X' ns' n _ h; cases h), .inr ⟨_, rfl, .ret ?_⟩⟩
    have := h.jobs t
    rw [h1] at this
    generalize hj : A.jobs t = j at this
    cases this
    rfl

theorem TSim.consistent (h : TSim N A) : A.net.Consistent := h.net.consistent

theorem allowed {evs : List (Event K V L)} (hr : Runs N evs N') :
    ∀ {A : State K V L}, TSim N A → Allowed A evs := by
  induction hr with
  | nil => intro A _; exact .nil
  | cons h1 _ ih =>
    intro A h
    rcases h.next h1 with ⟨A', h2, ⟨rfl, rfl⟩ | ⟨e, rfl, h3⟩⟩ | ⟨e, rfl, h3⟩
    · exact ih h2
    · exact .cons h3 h2.consistent (ih h2)
    · exact .out h3

theorem kept {evs : List (Event K V L)} (hr : Runs N evs N') :
    ∀ {A : State K V L}, TSim N A → (∃ B, Kept A evs B ∧ TSim N' B) ∨ Left A evs := by
  induction hr with
  | nil => intro A h; exact .inl ⟨A, .nil, h⟩
  | cons h1 _ ih =>
    intro A h
    rcases h.next h1 with ⟨A', h2, ⟨rfl, rfl⟩ | ⟨e, rfl, h3⟩⟩ | ⟨e, rfl, h3⟩
    · exact ih h2
    · rcases ih h2 with ⟨B, h4, h5⟩ | ⟨pre, e', post, B, h4, h5, h6⟩
      · exact .inl ⟨B, .cons h3 h2.consistent h4, h5⟩
      · exact .inr ⟨e :: pre, e', post, B, by rw [h4]; rfl, .cons h3 h2.consistent h5, h6⟩
    · exact .inr ⟨[], e, _, A, rfl, .nil, h3⟩

/-! ### Calls with packs come to an end -/

/-- The call `t` can end, whatever else is under way. -/
def Ends (N : Shops K V L) (t : Nat) : Prop :=
  ∃ k r N', Runs N (List.replicate k (.act t) ++ [.ret t r]) N'

theorem Ends.answered {t : Nat} {r : Ans} (h : N.jobs t = some (.answered r)) : Ends N t :=
  ⟨0, r, _, .cons (.ret h) .nil⟩

theorem Ends.step {t : Nat} {st st' : Stage K V} (h : N.jobs t = some st) (hx : Acts N st N' st')
    (he : Ends (N'.does t (some st')) t) : Ends N t := by
  obtain ⟨k, r, M, h1⟩ := he
  exact ⟨k + 1, r, M, .cons (.act h hx) h1⟩

theorem does_at (N : Shops K V L) (t : Nat) (j : Option (Stage K V)) : (N.does t j).jobs t = j := by
  simp [Shops.does]

theorem Ends.packing {t i : Nat} : ∀ {left : List Name} {P : Pack K V} {N : Shops K V L},
    N.jobs t = some (.packing i left P) → Ends N t
  | [], P, N, h => .step h .packed (.answered (does_at _ _ _))
  | n :: left, P, N, h => by
    cases hq : packLayer (N.shops i).session.store n with
    | none => exact .step h (.missing hq) (.answered (does_at _ _ _))
    | some q => exact .step h (.read hq) (.packing (does_at _ _ _))

theorem TSim.unpackingEnds {t i : Nat} {P : Pack K V} : ∀ (k : Nat) {left : List Name}
    {N : Shops K V L} {A : State K V L}, left.length ≤ k → TSim N A →
    N.jobs t = some (.unpacking i P left) → Ends N t
  | k, [], N, A, _, _, hj => .step hj .written (.answered (does_at _ _ _))
  | 0, n :: left, N, A, hk, _, _ => by simp at hk
  | k + 1, n :: left, N, A, hk, h, hj => by
    have hjob := h.jobs t
    rw [hj] at hjob
    generalize ha : A.jobs t = j at hjob
    cases hjob with
    | @unpacking _ _ _ X hPX hl =>
      obtain ⟨m, hm, hfirst⟩ : ∃ m ∈ n :: left, ∀ p, P.parent? m = some p → p ∉ n :: left := by
        obtain ⟨e, he, _⟩ := hl n List.mem_cons_self
        rcases hPX n with ⟨h1, _⟩ | ⟨_, _, q, _, _, _, _, _, h4, _⟩
        · rw [he] at h1; cases h1
        · obtain ⟨w, hs⟩ := h.sim q
          obtain ⟨S, g1, _⟩ := hs.layers.raw h4
          rw [hs.store] at g1
          exact h.net.ready hPX g1 List.mem_cons_self
      obtain ⟨e, he, _⟩ := hl m hm
      have hx : Acts N (.unpacking i P (n :: left)) (N.bring i m e)
          (.unpacking i P ((n :: left).filter (· ≠ m))) := .write hm he hfirst
      have hlt : ((n :: left).filter (· ≠ m)).length ≤ k := by
        have : ((n :: left).filter (· ≠ m)).length < (n :: left).length := by
          rcases Nat.lt_or_ge ((n :: left).filter (· ≠ m)).length (n :: left).length with h1 | h1
          · exact h1
          · have h2 : (n :: left).filter (· ≠ m) = n :: left :=
              List.filter_sublist.eq_of_length_le h1
            have := List.filter_eq_self.1 h2 m hm
            simp at this
        omega
      rcases h.acts hj hx with ⟨A', h1, _⟩ | ⟨j, h1, h2⟩
      · exact .step hj hx (TSim.unpackingEnds k hlt h1 (does_at _ _ _))
      · rw [ha] at h1
        cases h1
        exact (h2 trivial).elim

/-- A call with a pack can always end. -/
theorem TSim.ends (h : TSim N A) {t : Nat} {st : Stage K V} (hj : N.jobs t = some st)
    (hc : ∀ j, A.jobs t = some j → A.InContract j) : Ends N t := by
  match st, hj with
  | .answered r, hj => exact .answered hj
  | .packing i left P, hj => exact .packing hj
  | .unpacking i P left, hj => exact h.unpackingEnds left.length (Nat.le_refl _) hj
  | .asked (.pack i ns), hj => exact .step hj .pack (.packing (does_at _ _ _))
  | .asked (.parents p), hj =>
    cases hP : N.packs[p]? with
    | none => exact .step hj (.parentsInvalid hP) (.answered (does_at _ _ _))
    | some P => exact .step hj (.parents hP (List.Perm.refl _)) (.answered (does_at _ _ _))
  | .asked (.unpack i p ns), hj =>
    by_cases hex : ∃ P : Pack K V, N.packs[p]? = some P ∧ ns.all (fun n =>
        (P.get? n).isSome && ((N.shops i).session.store.get? n).isNone) = true
    · obtain ⟨P, hP, hall⟩ := hex
      have hx : Acts N (.asked (.unpack i p ns)) N (.unpacking i P ns) := .unpack hP hall
      rcases h.acts hj hx with ⟨A', h1, _⟩ | ⟨j, h1, h2⟩
      · exact .step hj hx (h1.unpackingEnds ns.length (Nat.le_refl _) (does_at _ _ _))
      · exact (h2 (hc j h1)).elim
    · refine .step hj (.unpackInvalid fun P hP => ?_) (.answered (does_at _ _ _))
      cases hb : ns.all (fun n =>
        (P.get? n).isSome && ((N.shops i).session.store.get? n).isNone) with
      | false => rfl
      | true => exact (hex ⟨P, hP, hb⟩).elim

end Verif.Trade
