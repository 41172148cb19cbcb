import Verif.Lemmas.TradeRuns
import Verif.Props.Shared

/-!
What follows from the specification of stores that exchange layers while many calls are under way
(`Verif/TradeSpec.lean`) alone.
-/

set_option linter.unusedSectionVars false

namespace Verif.Conc

open Spec Api

variable {K V L : Type} [DecidableEq L]

/-- What happens in one store, into which layers come from elsewhere. -/
inductive KeptEnv : CState K V L → List (Conc.Event K V L) → CState K V L → Prop
  | nil {A} : KeptEnv A [] A
  | cons {A e A' rest B} : Goes A e A' → KeptEnv A' rest B → KeptEnv A (e :: rest) B
  | env {A : CState K V L} {a past rest B} : Grew (fun _ => False) A.now a →
      CWf { A with now := a, past := past } → KeptEnv { A with now := a, past := past } rest B →
      KeptEnv A rest B

theorem KeptEnv.lasts {A B : CState K V L} {evs : List (Conc.Event K V L)} (hk : KeptEnv A evs B) :
    ∀ {c : Req K V L} {r : Ans K V L}, CWf A → lasting c → Step A.now c r A.now →
      Step B.now c r B.now := by
  induction hk with
  | nil => intro c r _ _ h; exact h
  | cons hg _ ih =>
    intro c r hw hl hs
    obtain ⟨exc, h⟩ := hw.grewGoes hg
    exact ih (hw.goes hg) hl (Conc.lasts h hw.now hl hs)
  | env h hw' _ ih =>
    intro c r hw hl hs
    exact ih hw' hl (Conc.lasts h hw.now hl hs)

/-- All questions about layers that were answered are answered rightly for the last state. -/
theorem KeptEnv.pairs {A B : CState K V L} {evs : List (Conc.Event K V L)} (hk : KeptEnv A evs B) :
    ∀ {cur : Nat → Option (Req K V L)}, CWf A → (∀ t, Tied A.now (cur t) (A.calls t)) →
      ∀ c r, (c, r) ∈ Conc.pairs cur evs → lasting c → Step B.now c r B.now := by
  induction hk with
  | nil => intro cur _ _ c r hm; cases hm
  | env h hw' _ ih =>
    intro cur hw ht c r hm hl
    exact ih hw' (fun t => (ht t).grew hw.now h) c r hm hl
  | @cons A e A' rest B hg hk ih =>
    intro cur hw ht c r hm hl
    have hw' := hw.goes hg
    cases hg with
    | @inv t c0 h0 =>
      refine ih (cur := fun u => if u = t then some c0 else cur u) hw' ?_ c r hm hl
      intro u
      by_cases hu : u = t
      · subst hu
        simp only [if_true]
        rfl
      · simp only [if_neg hu]
        exact ht u
    | skip => exact ih hw' ht c r hm hl
    | @act t new p s' p' hp _ he _ =>
      refine ih (cur := cur) hw' ?_ c r hm hl
      intro u
      by_cases hu : u = t
      · subst hu
        simp only [if_true]
        have := ht u
        rw [hp] at this
        exact this.effect he
      · simp only [if_neg hu]
        exact (ht u).grew hw.now (hw.grew hp he).1
    | @ret t r0 held hp =>
      have hg : Grew (fun _ => False) A.now { A.now with handles := A.now.handles ++ held } :=
        Grew.refl.handed (List.prefix_append ..)
      have htt := ht t
      rw [hp] at htt
      rcases List.mem_append.1 hm with hm | hm
      · obtain ⟨c1, hc1, he⟩ := List.mem_map.1 hm
        have hc1 : cur t = some c1 := by simpa using hc1
        cases he
        have hs := htt c hc1 hl
        have hs' := Conc.lasts hg hw.now hl hs
        rw [lasting_number hl hs]
        exact hk.lasts hw' hl hs'
      · refine ih (cur := cur) hw' ?_ c r hm hl
        intro u
        by_cases hu : u = t
        · simp only [if_pos hu]; trivial
        · simp only [if_neg hu]
          exact (ht u).grew hw.now hg

/-- A call for a layer that exists. -/
def Found (n : Nat) (c : Option (Req K V L)) (p : Option (Conc.Pending K V L)) : Prop :=
  c = some (.getLayer n) → (∃ k, p = some (.asked (.getLayer n) k)) ∨
    (∃ x, p = some (.answered (.layer x) [n])) ∨ p = none

/-- A layer that exists is found. -/
theorem KeptEnv.found {A B : CState K V L} {evs : List (Conc.Event K V L)} {n : Nat}
    (hk : KeptEnv A evs B) : ∀ {cur : Nat → Option (Req K V L)}, CWf A → A.now.log.known n →
      (∀ t, Found n (cur t) (A.calls t)) → ∀ r, (.getLayer n, r) ∈ Conc.pairs cur evs →
      ∃ j, r = .layer j ∧ B.now.handles[j]? = some n := by
  induction hk with
  | nil => intro cur _ _ _ r hm; cases hm
  | env h hw' _ ih =>
    intro cur hw hn ht r hm
    exact ih hw' (h.known hn) ht r hm
  | @cons A e A' rest B hg hk ih =>
    intro cur hw hn ht r hm
    have hw' := hw.goes hg
    obtain ⟨exc, hgr⟩ := hw.grewGoes hg
    have hn' := hgr.known hn
    cases hg with
    | @inv t c0 h0 =>
      refine ih (cur := fun u => if u = t then some c0 else cur u) hw' hn' ?_ r hm
      intro u
      by_cases hu : u = t
      · subst hu
        simp only [if_true]
        intro e
        cases e
        exact .inl ⟨_, rfl⟩
      · simp only [if_neg hu]
        exact ht u
    | skip => exact ih hw' hn ht r hm
    | @act t new p s' p' hp _ he _ =>
      refine ih (cur := cur) hw' hn' ?_ r hm
      intro u
      by_cases hu : u = t
      · subst hu
        simp only [if_true]
        intro hc
        rcases ht u hc with ⟨k, e⟩ | ⟨x, e⟩ | e
        · rw [hp] at e
          cases e
          obtain ⟨r1, held1, rfl, q⟩ := getLayer_effect he
          obtain ⟨⟨x, rfl⟩, rfl⟩ := q hn
          exact .inr (.inl ⟨x, rfl⟩)
        · rw [hp] at e
          cases e
          cases he
        · rw [hp] at e
          cases e
      · simp only [if_neg hu]
        exact ht u
    | @ret t r0 held hp =>
      rcases List.mem_append.1 hm with hm | hm
      · obtain ⟨c1, hc1, he⟩ := List.mem_map.1 hm
        have hc1 : cur t = some c1 := by simpa using hc1
        cases he
        rcases ht t hc1 with ⟨k, e⟩ | ⟨x, e⟩ | e
        · rw [hp] at e
          cases e
        · rw [hp] at e
          cases e
          refine ⟨_, rfl, name_right (hk.lasts hw' (c := .layerName A.now.handles.length)
            (r := .name n) trivial (.layerName ?_))⟩
          exact List.getElem?_concat_length
        · rw [hp] at e
          cases e
      · refine ih (cur := cur) hw' hn' ?_ r hm
        intro u
        by_cases hu : u = t
        · simp only [if_pos hu]
          exact fun _ => .inr (.inr rfl)
        · simp only [if_neg hu]
          exact ht u

theorem parentName_right {s s' : Api.State K V L} {i : Nat} {r : Ans K V L}
    (hs : Step s (.parentName i) r s') : ∃ n, s.handles[i]? = some n ∧
      r = .maybeName (s.log.parent n) := by
  cases hs with
  | parentName hn => exact ⟨_, hn, rfl⟩
  | rollupUptoNothing _ _ _ hc => rcases hc with hc | hc <;> cases hc
  | rollupUptoWrong _ _ _ _ _ hc => rcases hc with hc | hc <;> cases hc
  | rollupUpto _ _ _ _ _ _ _ hc => rcases hc with hc | hc <;> cases hc
  | commitTwice _ _ hc => rcases hc with hc | hc <;> cases hc

end Verif.Conc

namespace Verif.Trade

open Spec Net Conc

variable {K V L : Type} [DecidableEq L] {A A' B : State K V L}

/-- All stores are as they can be. -/
def TWf (A : State K V L) : Prop := ∀ i, CWf (A.stores i)

theorem TWf.start : TWf ({} : State K V L) := fun _ => .start

/-- A layer comes from a pack. -/
theorem receives {a : CState K V L} (h : CWf a) {X : Shipment K V} {n : Nat} {x : Shipped K V}
    (hx : X n = some x) (hf : a.now.Fresh n) (hp : ∀ p, x.parent = some p → a.now.log.known p) :
    Grew (fun _ => False) a.now (receive X a.now n) ∧
      CWf { a with now := receive X a.now n, past := a.now :: a.past } := by
  unfold receive
  rw [hx]
  refine ⟨Grew.addFresh hf, ?_⟩
  exact {
    now := h.now.addFresh (e := .imported n x.parent x.triples) hf hp
    closing := by
      intro t b cs load ht
      obtain ⟨y, h1, h2, h3, h4⟩ := h.closing t b cs load ht
      refine ⟨y, h1, h2, ?_, h4⟩
      intro hk
      rcases History.known_cons.1 hk with hk | hk
      · exact hf.2.2.1 y (List.mem_of_getElem? h1) hk.symm
      · exact h3 hk
    apart := h.apart
    held := fun t r held ht m hm => History.known_cons.2 (.inr (h.held t r held ht m hm)) }

/-- What something does to one of the stores. -/
theorem Goes.store (h : TWf A) {e : Event K V L} (hg : Goes A e A') (i : Nat) :
    (∃ e', e = .on i e' ∧ Conc.Goes (A.stores i) e' (A'.stores i)) ∨
    ((∀ e', e ≠ .on i e') ∧ (A'.stores i = A.stores i ∨
      ∃ a past, Grew (fun _ => False) (A.stores i).now a ∧
        A'.stores i = { A.stores i with now := a, past := past } ∧ CWf (A'.stores i))) := by
  have at' : ∀ (j : Nat) a, (A.set j a).stores i = if i = j then a else A.stores i := fun _ _ => rfl
  cases hg with
  | @on j e a h1 _ _ =>
    by_cases hj : i = j
    · subst hj
      exact .inl ⟨e, rfl, by rw [at', if_pos rfl]; exact h1⟩
    · refine .inr ⟨?_, .inl ?_⟩
      · intro e' he; cases he; exact hj rfl
      · rw [at', if_neg hj]
  | inv => exact .inr ⟨(by intro e' he; cases he), .inl rfl⟩
  | skip => exact .inr ⟨(by intro e' he; cases he), .inl rfl⟩
  | act _ _ he =>
    refine .inr ⟨(by intro e' he; cases he), ?_⟩
    cases he with
    | @take j X ns n x hn hx hf hp =>
      show ((A.set j _).stores i = _) ∨ ∃ a past, _ ∧ (A.set j _).stores i = _ ∧ CWf ((A.set j _).stores i)
      rw [at']
      by_cases hj : i = j
      · subst hj
        rw [if_pos rfl]
        obtain ⟨k1, k2⟩ := receives (h i) hx hf hp
        exact .inr ⟨_, _, k1, rfl, k2⟩
      · rw [if_neg hj]
        exact .inl rfl
    | _ => exact .inl rfl
  | ret => exact .inr ⟨(by intro e' he; cases he), .inl rfl⟩

theorem TWf.goes (h : TWf A) {e : Event K V L} (hg : Goes A e A') : TWf A' := by
  intro i
  rcases hg.store h i with ⟨e', _, h1⟩ | ⟨_, h1 | ⟨_, _, _, _, h1⟩⟩
  · exact (h i).goes h1
  · rw [h1]; exact h i
  · exact h1

theorem TWf.grew (h : TWf A) {e : Event K V L} (hg : Goes A e A') (i : Nat) :
    ∃ exc, Grew exc (A.stores i).now (A'.stores i).now := by
  rcases hg.store h i with ⟨e', _, h1⟩ | ⟨_, h1 | ⟨_, _, h1, h2, _⟩⟩
  · exact (h i).grewGoes h1
  · rw [h1]; exact ⟨fun _ => False, .refl⟩
  · rw [h2]; exact ⟨_, h1⟩

theorem TWf.kept {evs : List (Event K V L)} (hk : Kept A evs B) : TWf A → TWf B := by
  induction hk with
  | nil => exact id
  | cons hg _ _ ih => exact fun h => ih (h.goes hg)

theorem Kept.split {b : List (Event K V L)} : ∀ {a : List (Event K V L)} {A : State K V L},
    Kept A (a ++ b) B → ∃ M, Kept A a M ∧ Kept M b B
  | [], A, h => ⟨A, .nil, h⟩
  | e :: a, A, h => by
    cases h with
    | cons h1 h2 h3 =>
      obtain ⟨M, h4, h5⟩ := Kept.split h3
      exact ⟨M, .cons h1 h2 h4, h5⟩

theorem Kept.consistent {evs : List (Event K V L)} (hk : Kept A evs B) :
    A.net.Consistent → B.net.Consistent := by
  induction hk with
  | nil => exact id
  | cons _ hc _ ih => exact fun _ => ih hc

/-- What happens in one of the stores. -/
theorem Kept.store {evs : List (Event K V L)} (hk : Kept A evs B) (i : Nat) :
    TWf A → KeptEnv (A.stores i) (within i evs) (B.stores i) := by
  induction hk with
  | nil => intro _; exact .nil
  | @cons A e A' rest B hg _ _ ih =>
    intro h
    have h' := ih (h.goes hg)
    rcases hg.store h i with ⟨e', rfl, h1⟩ | ⟨h0, h1⟩
    · have : within i (Event.on i e' :: rest) = e' :: within i rest := by
        simp [within]
      rw [this]
      exact .cons h1 h'
    · have : within i (e :: rest) = within i rest := by
        cases e with
        | on j e' =>
          have hj : j ≠ i := by rintro rfl; exact h0 e' rfl
          simp [within, hj]
        | _ => simp [within]
      rw [this]
      rcases h1 with h1 | ⟨a, past, h1, h2, h3⟩
      · rw [← h1]; exact h'
      · rw [h2] at h' h3
        exact .env h1 h3 h'

/-! ### Calls with packs -/

/-- What an answer means. -/
def Holds (A : State K V L) : Req → Ans → Prop
  | .pack i ns, .pack p => (∀ n ∈ ns, A.net.has i n) ∧
      A.packs[p]? = some fun n => if n ∈ ns then some (A.net.layer i n) else none
  | .unpack i _ ns, .done => ∀ n ∈ ns, A.net.has i n
  | .parents p, .parents l => ∃ X, A.packs[p]? = some X ∧ (l.map Prod.fst).Nodup ∧
      ∀ n q, (n, q) ∈ l ↔ ∃ x, X n = some x ∧ x.parent = q
  | _, _ => True

/-- How far a call with a pack is. -/
def JTied (A : State K V L) (c : Req) : Option (Job K V) → Prop
  | none => True
  | some (.asked c') => c' = c
  | some (.taking i _ ms) => ∃ p ns, c = .unpack i p ns ∧ ∀ n ∈ ns, n ∈ ms ∨ A.net.has i n
  | some (.answered r) => Holds A c r

theorem Goes.packs {e : Event K V L} (hg : Goes A e A') {p : Nat} {X : Shipment K V}
    (hp : A.packs[p]? = some X) : A'.packs[p]? = some X := by
  cases hg with
  | act _ _ he =>
    cases he with
    | pack =>
      show (A.packs ++ _)[p]? = _
      rw [List.getElem?_append_left (List.getElem?_eq_some_iff.1 hp).1]
      exact hp
    | _ => exact hp
  | _ => exact hp

theorem layer_stays {i : Nat} {exc : Nat → Prop} (hg : Grew exc (A.stores i).now (A'.stores i).now)
    {n : Nat} (hn : A.net.has i n) : A'.net.layer i n = A.net.layer i n := by
  unfold Net.State.layer
  have h1 : (A'.net.stores i).log.parent n = (A.net.stores i).log.parent n := hg.parent hn
  have h2 : (A'.net.stores i).log.triples n = (A.net.stores i).log.triples n := hg.triples hn
  have h3 : (A'.net.stores i).ids n = (A.net.stores i).ids n := hg.ids n hn
  rw [h1, h2, h3]

theorem Holds.goes (hw : TWf A) {e : Event K V L} (hg : Goes A e A') :
    ∀ {c : Req} {r : Ans}, Holds A c r → Holds A' c r := by
  have has : ∀ {i n}, A.net.has i n → A'.net.has i n := by
    intro i n hn
    obtain ⟨exc, h⟩ := hw.grew hg i
    exact h.known hn
  intro c r h
  match c, r, h with
  | .pack i ns, .pack p, h =>
    refine ⟨fun n hn => has (h.1 n hn), ?_⟩
    have h1 := hg.packs h.2
    rw [h1]
    congr 1
    funext n
    split
    · rename_i hn
      obtain ⟨exc, h2⟩ := hw.grew hg i
      rw [layer_stays h2 (h.1 n hn)]
    · rfl
  | .unpack i _ ns, .done, h => exact fun n hn => has (h n hn)
  | .parents p, .parents l, ⟨X, h1, h2⟩ => exact ⟨X, hg.packs h1, h2⟩
  | .pack _ _, .done, _ | .pack _ _, .parents _, _ | .pack _ _, .failed, _ | .pack _ _, .invalid, _
  | .unpack _ _ _, .pack _, _ | .unpack _ _ _, .parents _, _ | .unpack _ _ _, .failed, _
  | .unpack _ _ _, .invalid, _ | .parents _, .pack _, _ | .parents _, .done, _
  | .parents _, .failed, _ | .parents _, .invalid, _ => trivial

theorem JTied.goes (hw : TWf A) {e : Event K V L} (hg : Goes A e A') {c : Req}
    {j : Option (Job K V)} (h : JTied A c j) : JTied A' c j := by
  match j, h with
  | none, _ => trivial
  | some (.asked _), h => exact h
  | some (.taking i _ _), ⟨p, ns, h1, h2⟩ =>
    refine ⟨p, ns, h1, fun n hn => (h2 n hn).imp id fun h3 => ?_⟩
    obtain ⟨exc, h4⟩ := hw.grew hg i
    exact h4.known h3
  | some (.answered _), h => exact Holds.goes hw hg h

/-- The call itself. -/
theorem JTied.effect {j j' : Job K V} {c : Req} (h : JTied A c (some j)) (he : Effect A j A' j') :
    JTied A' c (some j') := by
  cases he with
  | @pack i ns hn =>
    cases (show Req.pack i ns = c from h)
    refine ⟨hn, ?_⟩
    exact List.getElem?_concat_length
  | @packFailed i ns hn =>
    cases (show Req.pack i ns = c from h)
    trivial
  | @unpack i p X ns hp =>
    cases (show Req.unpack i p ns = c from h)
    exact ⟨p, ns, rfl, fun n hn => .inl hn⟩
  | @take i X ms n x hn hx hf hp =>
    obtain ⟨p, ns, rfl, h1⟩ := h
    refine ⟨p, ns, rfl, fun m hm => ?_⟩
    have known : ∀ m, m = n ∨ A.net.has i m → (A.set i { A.stores i with
        now := receive X (A.stores i).now n
        past := (A.stores i).now :: (A.stores i).past }).net.has i m := by
      intro m hm
      show ((A.set i _).stores i).now.log.known m
      simp only [State.set, if_true]
      unfold receive
      rw [hx]
      rcases hm with rfl | hm
      · exact History.known_cons.2 (.inl rfl)
      · exact History.known_cons.2 (.inr hm)
    by_cases hmn : m = n
    · exact .inr (known m (.inl hmn))
    · rcases h1 m hm with h2 | h2
      · left
        rw [List.mem_filter, decide_eq_true_eq]
        exact ⟨h2, hmn⟩
      · exact .inr (known m (.inr h2))
  | taken =>
    obtain ⟨p, ns, rfl, h1⟩ := h
    intro n hn
    rcases h1 n hn with h2 | h2
    · cases h2
    · exact h2
  | @parents p X l hp h1 h2 =>
    cases (show Req.parents p = c from h)
    exact ⟨X, hp, h1, h2⟩

theorem JTied.does {c : Req} {t : Nat} {k : Option (Job K V)} :
    ∀ {j : Option (Job K V)}, JTied A c j → JTied (A.does t k) c j
  | none, _ => trivial
  | some (.asked _), h => h
  | some (.taking _ _ _), h => h
  | some (.answered r), h => by
    cases c <;> cases r <;> exact h

theorem Holds.kept {evs : List (Event K V L)} (hk : Kept A evs B) :
    ∀ {c : Req} {r : Ans}, TWf A → Holds A c r → Holds B c r := by
  induction hk with
  | nil => exact fun _ h => h
  | cons hg _ _ ih => exact fun hw h => ih (hw.goes hg) (Holds.goes hw hg h)

/-- What the answers to calls with packs mean is so in the last state. -/
theorem Kept.pairs {evs : List (Event K V L)} (hk : Kept A evs B) :
    ∀ {cur : Nat → Option Req}, TWf A → (∀ t c, cur t = some c → JTied A c (A.jobs t)) →
      ∀ c r, (c, r) ∈ Trade.pairs cur evs → Holds B c r := by
  induction hk with
  | nil => intro cur _ _ c r hm; cases hm
  | @cons A e A' rest B hg _ hk ih =>
    intro cur hw ht c r hm
    have hw' := hw.goes hg
    have hst := fun t c (h : cur t = some c) => (ht t c h).goes hw hg
    cases hg with
    | on => exact ih (cur := cur) hw' hst c r hm
    | @inv t c0 h0 =>
      refine ih (cur := fun u => if u = t then some c0 else cur u) hw' ?_ c r hm
      intro u c1 hc1
      show JTied _ c1 (if u = t then _ else A.jobs u)
      by_cases hu : u = t
      · rw [if_pos hu] at hc1 ⊢
        cases hc1
        exact (rfl : c0 = c0)
      · rw [if_neg hu] at hc1 ⊢
        exact hst u c1 hc1
    | skip => exact ih (cur := cur) hw' hst c r hm
    | @act t j A1 j' hj _ he =>
      refine ih (cur := cur) hw' ?_ c r hm
      intro u c1 hc1
      have hjobs : A1.jobs = A.jobs := by cases he <;> rfl
      show JTied _ c1 (if u = t then _ else A1.jobs u)
      split
      · rename_i hu
        subst hu
        have h1 := ht u c1 hc1
        rw [hj] at h1
        exact (h1.effect he).does
      · rw [hjobs]; exact hst u c1 hc1
    | @ret t r0 hj =>
      have hm : (c, r) ∈ (cur t).toList.map (·, r0) ++ Trade.pairs cur rest := hm
      rcases List.mem_append.1 hm with hm | hm
      · obtain ⟨c1, hc1, he⟩ := List.mem_map.1 hm
        have hc1 : cur t = some c1 := by simpa using hc1
        cases he
        have h1 := hst t c hc1
        rw [hj] at h1
        exact Holds.kept hk hw' h1
      · refine ih (cur := cur) hw' ?_ c r hm
        intro u c1 hc1
        show JTied _ c1 (if u = t then _ else A.jobs u)
        split
        · trivial
        · exact hst u c1 hc1

/-! ### A name stands for the same layer everywhere -/

/-- A pack with layers that some stores have. -/
def PackOk (A : State K V L) (X : Shipment K V) : Prop :=
  ∀ n x, X n = some x → ∃ k, A.net.has k n ∧ A.net.layer k n = x

/-- The stores agree with each other and with the packs. -/
structure Agree (A : State K V L) : Prop where
  same : A.net.Consistent
  packs : ∀ X ∈ A.packs, PackOk A X
  jobs : ∀ t i X ns, A.jobs t = some (.taking i X ns) → PackOk A X

theorem Agree.start : Agree ({} : State K V L) :=
  { same := by rintro i j n ⟨e, h, _⟩; cases h
    packs := by intro X h; cases h
    jobs := by intro t i X ns h; cases h }

theorem PackOk.mono {X : Shipment K V} (h : PackOk A X)
    (h1 : ∀ k, ∃ exc, Grew exc (A.stores k).now (A'.stores k).now) : PackOk A' X := by
  intro n x hx
  obtain ⟨k, h2, h3⟩ := h n x hx
  obtain ⟨exc, hg⟩ := h1 k
  exact ⟨k, hg.known h2, (layer_stays hg h2).trans h3⟩

/-- One store changes, others do not. -/
theorem Agree.set (h : Agree A) {i : Nat} {exc : Nat → Prop}
    (hg : Grew exc (A.stores i).now (A'.stores i).now) (ho : ∀ j, j ≠ i → A'.stores j = A.stores j)
    (hn : ∀ n, A'.net.has i n → A.net.has i n ∨
      ∀ j, j ≠ i → A.net.has j n → A'.net.layer i n = A.net.layer j n) : A'.net.Consistent := by
  have other : ∀ j, j ≠ i → ∀ n, (A'.net.has j n ↔ A.net.has j n) ∧
      A'.net.layer j n = A.net.layer j n := by
    intro j hj n
    have : A'.net.stores j = A.net.stores j := by
      show (A'.stores j).now = _
      rw [ho j hj]
      rfl
    unfold Net.State.has Net.State.layer
    rw [this]
    exact ⟨Iff.rfl, rfl⟩
  have one : ∀ j, j ≠ i → ∀ n, A'.net.has i n → A.net.has j n →
      A'.net.layer i n = A.net.layer j n := by
    intro j hj n h1 h2
    rcases hn n h1 with h3 | h3
    · rw [layer_stays hg h3]
      exact h.same i j n h3 h2
    · exact h3 j hj h2
  intro j k n h1 h2
  by_cases hj : j = i <;> by_cases hk : k = i
  · rw [hj, hk]
  · subst hj
    rw [(other k hk n).2]
    exact one k hk n h1 ((other k hk n).1.1 h2)
  · subst hk
    rw [(other j hj n).2]
    exact (one j hj n h2 ((other j hj n).1.1 h1)).symm
  · rw [(other j hj n).2, (other k hk n).2]
    exact h.same j k n ((other j hj n).1.1 h1) ((other k hk n).1.1 h2)

/-- The specification has a name stand for the same layer in all stores. -/
theorem Agree.goes (h : Agree A) (hw : TWf A) {e : Event K V L} (hg : Goes A e A') : Agree A' := by
  have hgr := hw.grew hg
  have ok : ∀ {X}, PackOk A X → PackOk A' X := fun h => h.mono hgr
  cases hg with
  | @on i e a h1 _ h3 =>
    refine { same := ?_, packs := fun X hX => ok (h.packs X hX)
             jobs := fun t j X ns hj => ok (h.jobs t j X ns hj) }
    obtain ⟨exc, hi⟩ := hgr i
    refine h.set hi (fun j hj => by simp [State.set, hj]) fun n hn => ?_
    have hn : a.now.log.known n := by
      have : ((A.set i a).stores i).now.log.known n := hn
      simpa [State.set] using this
    rcases h3 n hn with h4 | h4
    · exact .inl h4
    · exact .inr fun j _ h5 => (h4 j h5).elim
  | @inv t c _ =>
    refine { same := h.same, packs := fun X hX => ok (h.packs X hX), jobs := ?_ }
    intro u j X ns hj
    change (if u = t then _ else A.jobs u) = _ at hj
    split at hj
    · cases hj
    · exact ok (h.jobs u j X ns hj)
  | skip => exact h
  | @ret t r _ =>
    refine { same := h.same, packs := fun X hX => ok (h.packs X hX), jobs := ?_ }
    intro u j X ns hj
    change (if u = t then _ else A.jobs u) = _ at hj
    split at hj
    · cases hj
    · exact ok (h.jobs u j X ns hj)
  | @act t j A1 j' hj _ he =>
    have hjobs : ∀ {u i X ns}, u ≠ t → (A1.does t (some j')).jobs u = some (.taking i X ns) →
        A.jobs u = some (.taking i X ns) := by
      intro u i X ns hu h1
      change (if u = t then _ else A1.jobs u) = _ at h1
      rw [if_neg hu] at h1
      have : A1.jobs = A.jobs := by cases he <;> rfl
      rw [← this]
      exact h1
    have own : ∀ {i X ns}, (A1.does t (some j')).jobs t = some (.taking i X ns) →
        j' = .taking i X ns := by
      intro i X ns h1
      change (if t = t then _ else A1.jobs t) = _ at h1
      rw [if_pos rfl] at h1
      exact Option.some.inj h1
    have jobs : (∀ i X ns, j' = .taking i X ns → PackOk A X) → ∀ u i X ns,
        (A1.does t (some j')).jobs u = some (.taking i X ns) →
        PackOk (A1.does t (some j')) X := by
      intro h0 u i X ns h1
      by_cases hu : u = t
      · rw [hu] at h1
        exact ok (h0 i X ns (own h1))
      · exact ok (h.jobs u i X ns (hjobs hu h1))
    cases he with
    | @pack i ns hn =>
      refine { same := h.same, packs := ?_, jobs := jobs (by intro i X ns e; cases e) }
      intro X hX
      rcases List.mem_append.1 hX with hX | hX
      · exact ok (h.packs X hX)
      · cases List.mem_singleton.1 hX
        intro n x hx
        dsimp only at hx
        split at hx
        · rename_i hm
          cases hx
          exact ⟨i, hn n hm, rfl⟩
        · cases hx
    | @unpack i p X ns hp =>
      refine { same := h.same, packs := fun X hX => ok (h.packs X hX), jobs := jobs ?_ }
      intro i' X' ns' e
      cases e
      exact h.packs X (List.mem_of_getElem? hp)
    | @take i X ns n x hn hx hf hp =>
      refine { same := ?_, packs := fun X hX => ok (h.packs X hX), jobs := jobs ?_ }
      · obtain ⟨exc, hi⟩ := hgr i
        refine h.set hi (fun j hj => by simp [State.set, State.does, hj]) fun m hm => ?_
        have hs : ((A.set i { A.stores i with
            now := receive X (A.stores i).now n
            past := (A.stores i).now :: (A.stores i).past }).does t
            (some (.taking i X (ns.filter (· ≠ n))))).net.stores i =
            (A.stores i).now.add (.imported n x.parent x.triples) x.ids := by
          simp [State.net, State.set, State.does, receive, hx]
        unfold Net.State.has at hm
        rw [hs] at hm
        rcases History.known_cons.1 hm with hm | hm
        · right
          intro j _ hj
          have hm : n = m := hm
          subst hm
          obtain ⟨k, h1, h2⟩ := h.jobs t i X ns ‹_› n x hx
          rw [h.same j k n hj h1, h2]
          unfold Net.State.layer
          rw [hs]
          simp only [Api.State.add, History.parent, History.triples, Spec.Event.new,
            Spec.Event.parent, if_true]
        · exact .inl hm
      · intro i' X' ns' e
        cases e
        exact h.jobs t i X ns ‹_›
    | packFailed =>
      exact { same := h.same, packs := fun X hX => ok (h.packs X hX),
              jobs := jobs (by intro i X ns e; cases e) }
    | taken =>
      exact { same := h.same, packs := fun X hX => ok (h.packs X hX),
              jobs := jobs (by intro i X ns e; cases e) }
    | parents =>
      exact { same := h.same, packs := fun X hX => ok (h.packs X hX),
              jobs := jobs (by intro i X ns e; cases e) }

/-- One step more. -/
theorem Kept.more {e : Event K V L} {rest : List (Event K V L)} (hw : TWf A ∧ Agree A)
    (hg : Goes A e A') (h : TWf A' ∧ Agree A' → ∃ B, Kept A' rest B) : ∃ B, Kept A (e :: rest) B := by
  have h1 := hw.2.goes hw.1 hg
  obtain ⟨B, h2⟩ := h ⟨hw.1.goes hg, h1⟩
  exact ⟨B, .cons hg h1.same h2⟩

end Verif.Trade
