import Verif.Props.Trade

/-!
A history that meets the hypotheses of the theorems of `Verif/Props/Trade.lean` about the
specification.
-/

set_option linter.unusedSectionVars false

namespace Verif.Trade

open Spec Store Net Conc

section Hand

variable {K V L : Type} [DecidableEq L]

/-- Two stores. -/
def pair (c d : CState K V L) (ps : List (Shipment K V)) (js : Nat → Option (Job K V)) :
    State K V L :=
  { stores := fun i => if i = 0 then c else if i = 1 then d else {}, packs := ps, jobs := js }

variable {c d a : CState K V L} {ps : List (Shipment K V)} {js : Nat → Option (Job K V)}
  {rest : List (Event K V L)}

theorem pair_set0 : (pair c d ps js).set 0 a = pair a d ps js := by
  unfold pair State.set
  congr
  funext j
  by_cases h : j = 0 <;> simp [h]

theorem pair_set1 : (pair c d ps js).set 1 a = pair c a ps js := by
  unfold pair State.set
  congr
  funext j
  by_cases h : j = 0
  · simp [h]
  · by_cases h1 : j = 1 <;> simp [h, h1]

/-- Two calls with packs. -/
def jobs (x y : Option (Job K V)) (u : Nat) : Option (Job K V) :=
  if u = 1 then x else if u = 2 then y else none

/-- It can go on like this when no calls are under way in the two stores. -/
def Fine (s s1 : Api.State K V L) (ps : List (Shipment K V)) (x y : Option (Job K V))
    (rest : List (Event K V L)) : Prop :=
  ∀ p p1, TWf (pair { now := s, past := p } { now := s1, past := p1 } ps (jobs x y)) ∧
    Agree (pair { now := s, past := p } { now := s1, past := p1 } ps (jobs x y)) →
    ∃ B, Kept (pair { now := s, past := p } { now := s1, past := p1 } ps (jobs x y)) rest B

variable {s s1 s' : Api.State K V L} {x y : Option (Job K V)} {t new : Nat}
  {q : Api.Req K V L} {r r' : Api.Ans K V L} {held : List Nat}

/-- A call as a whole. -/
theorem goes_ask {p : List (Api.State K V L)} (h : Api.Step s q r s')
    (hh : s'.handles = s.handles ++ held) (hc : Api.InContract s q)
    (hf : ∀ n, s.Fresh n → n ≠ new → s'.Fresh n)
    (hr : CState.numbered s.handles.length r = r') :
    ∃ a b : CState K V L, Conc.Goes { now := s, past := p } (.inv t q) a ∧
      Conc.Goes a (.act t new) b ∧ Conc.Goes b (.ret t r') { now := s', past := s :: p } ∧
      a.now.log = s.log ∧ b.now.log = s'.log ∧ a.calls t = some (.asked q p.length) := by
  let a : CState K V L :=
    { now := s, past := p, calls := fun u => if u = t then some (.asked q p.length) else none }
  let b : CState K V L :=
    { now := { s' with handles := s.handles }, past := s :: p
      calls := fun u => if u = t then some (.answered r held) else a.calls u }
  have ha : a.calls t = some (.asked q p.length) := if_pos rfl
  have hb : b.calls t = some (.answered r held) := if_pos rfl
  refine ⟨a, b, .inv rfl, .act ha ⟨hc, ?_⟩ (.once h hh) hf, ?_, rfl, rfl, ha⟩
  · intro n _ u b cs load x hu
    dsimp only [a] at hu
    split at hu <;> cases hu
  · have := Conc.Goes.ret hb
    rw [← hr]
    convert this using 1
    rw [CState.mk.injEq]
    refine ⟨?_, rfl, ?_⟩
    · show s' = { s' with handles := s.handles ++ held }
      rw [← hh]
    · funext u
      show none = if u = t then none else if u = t then _ else if u = t then _ else none
      by_cases hu : u = t <;> simp [hu]

/-- A call as a whole in the first store. -/
theorem Fine.ask0 (h : Api.Step s q r s') (hh : s'.handles = s.handles ++ held)
    (hc : Api.InContract s q) (hf : ∀ n, s.Fresh n → n ≠ new → s'.Fresh n)
    (hr : CState.numbered s.handles.length r = r') (hl : s'.log = s.log) (hq : asks q = [])
    (hn : Fine s' s1 ps x y rest) :
    Fine s s1 ps x y (.on 0 (.inv t q) :: .on 0 (.act t new) :: .on 0 (.ret t r') :: rest) := by
  intro p p1 hw
  obtain ⟨a, b, g1, g2, g3, la, lb, ca⟩ := goes_ask (p := p) (t := t) h hh hc hf hr
  refine Kept.more hw (.on g1 (by intro u new' e; cases e) ?_) ?_
  · intro n hn
    rw [la] at hn
    exact .inl hn
  rw [pair_set0]
  intro hw
  refine Kept.more hw (.on (a := b) g2 ?_ ?_) ?_
  · rintro u new' e ⟨q', k, n, h1, h2, _⟩
    cases e
    have h1 : a.calls t = _ := h1
    rw [ca] at h1
    cases h1
    rw [hq] at h2
    cases h2
  · intro n hn
    rw [lb, hl, ← la] at hn
    exact .inl hn
  rw [pair_set0]
  intro hw
  refine Kept.more hw (.on g3 (by intro u new' e; cases e) ?_) ?_
  · intro n hn
    have hn : s'.log.known n := hn
    rw [← lb] at hn
    exact .inl hn
  rw [pair_set0]
  exact hn _ _

/-- A call as a whole in the second store, when no layers come into it. -/
theorem Fine.ask1 (h : Api.Step s1 q r s') (hh : s'.handles = s1.handles ++ held)
    (hc : Api.InContract s1 q) (hf : ∀ n, s1.Fresh n → n ≠ new → s'.Fresh n)
    (hr : CState.numbered s1.handles.length r = r') (hl : s'.log = s1.log)
    (hn : Fine s s' ps none none rest) :
    Fine s s1 ps none none (.on 1 (.inv t q) :: .on 1 (.act t new) :: .on 1 (.ret t r') :: rest) := by
  intro p p1 hw
  obtain ⟨a, b, g1, g2, g3, la, lb, ca⟩ := goes_ask (p := p1) (t := t) h hh hc hf hr
  refine Kept.more hw (.on (i := 1) g1 (by intro u new' e; cases e) ?_) ?_
  · intro n hn
    rw [la] at hn
    exact .inl hn
  rw [pair_set1]
  intro hw
  refine Kept.more hw (.on (i := 1) (a := b) g2 ?_ ?_) ?_
  · rintro u new' e ⟨q', k, n, _, _, v, X, ns, h1, _⟩
    have h1 : jobs none none v = _ := h1
    unfold jobs at h1
    split at h1
    · cases h1
    · split at h1 <;> cases h1
  · intro n hn
    rw [lb, hl, ← la] at hn
    exact .inl hn
  rw [pair_set1]
  intro hw
  refine Kept.more hw (.on (i := 1) g3 (by intro u new' e; cases e) ?_) ?_
  · intro n hn
    have hn : s'.log.known n := hn
    rw [← lb] at hn
    exact .inl hn
  rw [pair_set1]
  exact hn _ _

theorem jobs_first {j : Option (Job K V)} :
    (pair c d ps (jobs x y)).does 1 j = pair c d ps (jobs j y) := by
  unfold State.does pair
  congr
  funext u
  unfold jobs
  by_cases h : u = 1 <;> simp [h]

theorem jobs_second {j : Option (Job K V)} :
    (pair c d ps (jobs x y)).does 2 j = pair c d ps (jobs x j) := by
  unfold State.does pair
  congr
  funext u
  unfold jobs
  by_cases h : u = 2 <;> simp [h]

/-- A call with a pack begins. -/
theorem Fine.inv1 {q : Req} (hn : Fine s s1 ps (some (.asked q)) y rest) :
    Fine s s1 ps none y (.inv 1 q :: rest) :=
  fun p p1 hw => Kept.more hw (.inv rfl) (by rw [jobs_first]; exact hn p p1)

theorem Fine.inv2 {q : Req} (hn : Fine s s1 ps x (some (.asked q)) rest) :
    Fine s s1 ps x none (.inv 2 q :: rest) :=
  fun p p1 hw => Kept.more hw (.inv rfl) (by rw [jobs_second]; exact hn p p1)

/-- A call with a pack ends. -/
theorem Fine.ret1 {r : Ans} (hn : Fine s s1 ps none y rest) :
    Fine s s1 ps (some (.answered r)) y (.ret 1 r :: rest) :=
  fun p p1 hw => Kept.more hw (.ret rfl) (by rw [jobs_first]; exact hn p p1)

theorem Fine.ret2 {r : Ans} (hn : Fine s s1 ps x none rest) :
    Fine s s1 ps x (some (.answered r)) (.ret 2 r :: rest) :=
  fun p p1 hw => Kept.more hw (.ret rfl) (by rw [jobs_second]; exact hn p p1)

/-- The first store has no layers that come or are made. -/
theorem Fine.pack {ns : List Nat} (hh : ∀ n ∈ ns, n ∉ s.hidden) (hk : ∀ n ∈ ns, s.log.known n)
    (hn : Fine s s1 (ps ++ [fun n => if n ∈ ns then some
        { parent := s.log.parent n, triples := s.log.triples n, ids := s.ids n } else none])
      (some (.answered (.pack ps.length))) none rest) :
    Fine s s1 ps (some (.asked (.pack 0 ns))) none (.act 1 :: rest) := by
  intro p p1 hw
  refine Kept.more hw (.act (j := .asked (.pack 0 ns)) rfl ?_ (.pack hk)) ?_
  · intro n h
    refine ⟨hh n h, ?_, ?_⟩
    · rintro ⟨t, b, cs, load, x, h, _⟩
      cases h
    · rintro ⟨t, X, ns', h, _⟩
      have h : jobs _ _ t = _ := h
      unfold jobs at h
      split at h
      · cases h
      · split at h <;> cases h
  · show TWf ((pair _ _ _ (jobs _ _)).does 1 _) ∧ _ → _
    have e := jobs_first (c := { now := s, past := p }) (d := { now := s1, past := p1 })
      (ps := ps ++ [fun n => if n ∈ ns then some
        { parent := s.log.parent n, triples := s.log.triples n, ids := s.ids n } else none])
      (x := some (.asked (.pack 0 ns))) (y := none) (j := some (.answered (.pack ps.length)))
    have := hn p p1
    rw [← e] at this
    exact this

/-- The second store takes the layers of a pack. -/
theorem Fine.unpack {ns : List Nat} {X : Shipment K V} {k : Nat} (hX : ps[k]? = some X)
    (hh : ∀ n ∈ ns, ∃ e, X n = some e ∧ ¬ s1.log.known n ∧
      ∀ p, e.parent = some p → p ∈ ns ∨ s1.log.known p)
    (hy : ∀ X ns, y ≠ some (.taking 1 X ns))
    (hn : Fine s s1 ps (some (.taking 1 X ns)) y rest) :
    Fine s s1 ps (some (.asked (.unpack 1 k ns))) y (.act 1 :: rest) := by
  intro p p1 hw
  refine Kept.more hw (.act (j := .asked (.unpack 1 k ns)) rfl ⟨X, hX, hh, ?_⟩ (.unpack hX)) ?_
  · rintro n _ ⟨t, X, ns', h, _⟩
    have h : jobs _ _ t = _ := h
    unfold jobs at h
    split at h
    · cases h
    · split at h
      · exact hy _ _ h
      · cases h
  · rw [jobs_first]
    exact hn p p1

/-- The parents are listed. -/
theorem Fine.parents {X : Shipment K V} {k : Nat} {l : List (Nat × Option Nat)}
    (hX : ps[k]? = some X) (hd : (l.map Prod.fst).Nodup)
    (hl : ∀ n q, (n, q) ∈ l ↔ ∃ x, X n = some x ∧ x.parent = q)
    (hn : Fine s s1 ps x (some (.answered (.parents l))) rest) :
    Fine s s1 ps x (some (.asked (.parents k))) (.act 2 :: rest) := by
  intro p p1 hw
  refine Kept.more hw (.act (j := .asked (.parents k)) rfl ⟨X, hX⟩ (.parents hX hd hl)) ?_
  rw [jobs_second]
  exact hn p p1

/-- A layer comes. -/
theorem Fine.take {n : Nat} {X : Shipment K V} {ns : List Nat} {e : Shipped K V}
    (hm : n ∈ ns) (hx : X n = some e) (hf : s1.Fresh n)
    (hp : ∀ p, e.parent = some p → s1.log.known p)
    (hn : Fine s (s1.add (.imported n e.parent e.triples) e.ids) ps
      (some (.taking 1 X (ns.filter (· ≠ n)))) y rest) :
    Fine s s1 ps (some (.taking 1 X ns)) y (.act 1 :: rest) := by
  intro p p1 hw
  refine Kept.more hw (.act (j := .taking 1 X ns) rfl trivial (.take hm hx hf hp)) ?_
  have e' : receive X s1 n = s1.add (.imported n e.parent e.triples) e.ids := by
    unfold receive; rw [hx]
  have := hn p (s1 :: p1)
  rw [← e', ← jobs_first (x := some (.taking 1 X ns)), ← pair_set1 (d := { now := s1, past := p1 })]
    at this
  exact this

/-- All are there. -/
theorem Fine.taken {X : Shipment K V} (hn : Fine s s1 ps (some (.answered .done)) y rest) :
    Fine s s1 ps (some (.taking 1 X [])) y (.act 1 :: rest) := by
  intro p p1 hw
  refine Kept.more hw (.act (j := .taking 1 X []) rfl trivial .taken) ?_
  rw [jobs_first]
  exact hn p p1

/-- A commit as a whole, in the first store, when there are no other layers. -/
theorem Fine.commit {n u u' : Nat} {i : Api.Ids K V}
    (hi : i.Fits {} (after (fun _ => False) []))
    (hn : Fine ({ builders := [⟨n, none, none⟩], handles := [n], log := [.commit n none []],
                  ids := fun m => if m = n then i else {} }) ({} : Api.State K V L) ps none none rest) :
    Fine { builders := [⟨n, none, some []⟩] } ({} : Api.State K V L) ps none none
      (.on 0 (.inv t (.commit 0)) :: .on 0 (.act t u) :: .on 0 (.act t u') ::
       .on 0 (.ret t (.layer 0)) :: rest) := by
  intro p p1 hw
  let s : Api.State K V L := { builders := [⟨n, none, some []⟩] }
  let a : CState K V L := { now := s, past := p
                            calls := fun v => if v = t then some (.asked (.commit 0) p.length) else none }
  let sb : Api.State K V L := { builders := [⟨n, none, none⟩] }
  let b : CState K V L := { now := sb, past := s :: p
                            calls := fun v => if v = t then some (.closing 0 [] true) else a.calls v }
  let sc : Api.State K V L := { builders := [⟨n, none, none⟩], log := [.commit n none []],
                                ids := fun m => if m = n then i else {} }
  let c : CState K V L := { now := sc, past := sb :: s :: p
                            calls := fun v => if v = t then some (.answered (.layer 0) [n]) else b.calls v }
  let e : CState K V L := { now := { sc with handles := [n] }, past := sb :: s :: p
                            calls := fun _ => none }
  have g1 : Conc.Goes { now := s, past := p } (.inv t (.commit 0)) a := .inv rfl
  have g2 : Conc.Goes a (.act t u) b := by
    refine .act (p := .asked (.commit 0) p.length) (if_pos rfl) ⟨⟨_, rfl⟩, ?_⟩
      (.close (x := ⟨n, none, some []⟩) (.inl ⟨rfl, rfl⟩) rfl rfl) ?_
    · intro n hn; cases hn
    · intro m hm _
      obtain ⟨h1, h2, h3, h4⟩ := hm
      exact ⟨h1, h2, fun b hb => by cases List.mem_singleton.1 hb; exact h3 ⟨n, none, some []⟩ List.mem_cons_self, h4⟩
  have g3 : Conc.Goes b (.act t u') c := by
    refine .act (p := .closing 0 [] true) (if_pos rfl) trivial
      (.write (x := ⟨n, none, none⟩) rfl hi (.inr ⟨rfl, rfl, rfl⟩)) ?_
    intro m hm _
    obtain ⟨_, h2, h3, h4⟩ := hm
    refine ⟨?_, h2, h3, h4⟩
    rintro ⟨x, hx, h⟩
    cases List.mem_singleton.1 hx
    exact h3 _ List.mem_cons_self h
  have g4 : Conc.Goes c (.ret t (.layer 0)) e := by
    have := Conc.Goes.ret (A := c) (t := t) (r := .layer 0) (held := [n]) (if_pos rfl)
    have e1 : e.calls = fun v => if v = t then none else c.calls v := by
      funext v
      show none = if v = t then none else if v = t then _ else if v = t then _ else if v = t then _ else none
      by_cases hv : v = t <;> simp [hv]
    have e2 : e = { c with now := { c.now with handles := c.now.handles ++ [n] }
                           calls := fun v => if v = t then none else c.calls v } := by
      rw [← e1]; rfl
    rw [e2]
    exact this
  have nope : ∀ {A : State K V L} {x v : Nat} {q : Conc.Pending K V L},
      (A.stores 0).calls v = some q → (∀ r k, q = .asked r k → asks r = []) → ¬ A.Early 0 v := by
    rintro A x v q h1 h2 ⟨r, k, m, h3, h4, _⟩
    rw [h1] at h3
    cases h3
    rw [h2 _ _ rfl] at h4
    cases h4
  refine Kept.more hw (.on g1 (by intro u new' e; cases e) (fun n h => .inl h)) ?_
  rw [pair_set0]
  intro hw
  refine Kept.more hw (.on (a := b) g2 ?_ (fun n h => .inl h)) ?_
  · intro v new' e
    cases e
    exact nope (x := 0) (if_pos rfl) (by intro r k e; cases e; rfl)
  rw [pair_set0]
  intro hw
  refine Kept.more hw (.on (a := c) g3 ?_ ?_) ?_
  · intro v new' e
    cases e
    exact nope (x := 0) (if_pos rfl) (by intro r k e; cases e)
  · rintro m _
    refine .inr fun j hj => ?_
    obtain ⟨x, hx, _⟩ := hj
    change x ∈ (if j = 0 then b else if j = 1 then _ else {}).now.log at hx
    split at hx
    · cases hx
    · split at hx <;> cases hx
  rw [pair_set0]
  intro hw
  refine Kept.more hw (.on (a := e) g4 (by intro u new' e; cases e) (fun n h => .inl h)) ?_
  rw [pair_set0]
  exact hn _ _

end Hand

/-- A layer is made in the store 0 and asked about while it is packed. -/
def sends : List (Event Nat Nat Nat) :=
  [.on 0 (.inv 0 .createBase), .on 0 (.act 0 5), .on 0 (.ret 0 (.builder 0)),
   .on 0 (.inv 0 (.commit 0)), .on 0 (.act 0 6), .on 0 (.act 0 7), .on 0 (.ret 0 (.layer 0)),
   .inv 1 (.pack 0 [5]), .on 0 (.inv 0 (.layerName 0)), .on 0 (.act 0 8), .on 0 (.ret 0 (.name 5)),
   .act 1, .ret 1 (.pack 0), .inv 1 (.unpack 1 0 [5]), .inv 2 (.parents 0),
   .act 1, .act 2, .act 1, .ret 2 (.parents [(5, none)]),
   .on 0 (.inv 0 (.query 0 (.has ⟨1, 2, .node 3⟩))), .on 0 (.act 0 8),
   .on 0 (.ret 0 (.answer (.flag false))), .act 1, .ret 1 .done]

/-- It is the same in the store 1. -/
def gets : List (Event Nat Nat Nat) :=
  [.on 1 (.inv 4 (.getLayer 5)), .on 1 (.act 4 8), .on 1 (.ret 4 (.layer 0)),
   .on 1 (.inv 4 (.query 0 (.has ⟨1, 2, .node 3⟩))), .on 1 (.act 4 8),
   .on 1 (.ret 4 (.answer (.flag false))), .on 1 (.inv 4 (.layerName 0)),
   .on 1 (.act 4 8), .on 1 (.ret 4 (.name 5)), .on 1 (.inv 4 (.parentName 0)),
   .on 1 (.act 4 8), .on 1 (.ret 4 (.maybeName none))]

/-- The hypotheses of `C69_same_layer`, `C69_imported` and `C69_packed`. -/
example : (∃ B, Kept {} (sends ++ gets) B) ∧
    (.layerName 0, .name 5) ∈ Conc.pairs (fun _ => none) (within 0 (sends ++ gets)) ∧
    (.layerName 0, .name 5) ∈ Conc.pairs (fun _ => none) (within 1 (sends ++ gets)) ∧
    (.query 0 (.has ⟨1, 2, .node 3⟩), .answer (.flag false)) ∈
      Conc.pairs (fun _ => none) (within 0 (sends ++ gets)) ∧
    (.query 0 (.has ⟨1, 2, .node 3⟩), .answer (.flag false)) ∈
      Conc.pairs (fun _ => none) (within 1 (sends ++ gets)) ∧
    (.unpack 1 0 [5], .done) ∈ pairs (fun _ => none) sends ∧
    (.getLayer 5, .layer 0) ∈ Conc.pairs (fun _ => none) (within 1 gets) ∧
    (.pack 0 [5], .pack 0) ∈ pairs (fun _ => none) (sends ++ gets) ∧
    (.parents 0, .parents [(5, none)]) ∈ pairs (fun _ => none) (sends ++ gets) ∧
    (.parentName 0, .maybeName none) ∈
      Conc.pairs (fun _ => none) (within 1 (sends ++ gets)) := by
  refine ⟨?_, by decide, by decide, by decide, by decide, by decide, by decide, by decide,
    by decide, by decide⟩
  have fits : ({} : Api.Ids Nat Nat).Fits {} (after (fun _ => False) []) := by
    constructor <;> simp [after, Api.Ids.code, added]
    all_goals (intro a h; omega)
  have same : ∀ {s : Api.State Nat Nat Nat} {new : Nat}, ∀ n, s.Fresh n → n ≠ new → s.Fresh n :=
    fun n h _ => h
  suffices h : Fine {} {} [] none none (sends ++ gets) by
    have e : pair {} {} [] (jobs none none) = ({} : State Nat Nat Nat) := by
      unfold pair
      congr
      · funext j
        split
        · rfl
        · split <;> rfl
      · funext j
        unfold jobs
        split
        · rfl
        · split <;> rfl
    have := h [] []
    rw [e] at this
    exact this ⟨TWf.start, Agree.start⟩
  refine .ask0 (.createBase (new := 5) ?_) (held := []) rfl trivial ?_ rfl rfl rfl ?_
  · simp [Api.State.Fresh, History.known]
  · simp [Api.State.Fresh, History.known, eq_comm]
  refine .commit fits ?_
  refine .inv1 ?_
  refine .ask0 (.layerName rfl) (held := []) rfl ⟨_, rfl⟩ same rfl rfl rfl ?_
  refine .pack (by simp) ?_ ?_
  · intro n hn
    cases List.mem_singleton.1 hn
    exact ⟨_, List.mem_cons_self, rfl⟩
  refine .ret1 ?_
  refine .inv1 ?_
  refine .inv2 ?_
  refine .unpack rfl ?_ (by intro X ns e; cases e) ?_
  · intro n hn
    refine ⟨_, if_pos hn, ?_, fun p hp => by cases List.mem_singleton.1 hn; cases hp⟩
    rintro ⟨e, he, _⟩
    cases he
  refine .parents (l := [(5, none)]) rfl (by simp) ?_ ?_
  · intro n q
    constructor
    · intro h
      cases List.mem_singleton.1 h
      exact ⟨_, if_pos (List.mem_singleton.2 rfl), rfl⟩
    · rintro ⟨x, h, rfl⟩
      split at h
      · rename_i hn
        cases List.mem_singleton.1 hn
        cases h
        exact List.mem_singleton.2 rfl
      · cases h
  refine .take (n := 5) List.mem_cons_self (if_pos (List.mem_singleton.2 rfl)) ?_
    (fun p hp => by cases hp) ?_
  · simp [Api.State.Fresh, History.known]
  refine .ret2 ?_
  refine .ask0 (.query (a := .flag false) rfl ?_) (held := []) rfl ⟨⟨_, rfl⟩, by simp⟩ same rfl rfl
    rfl ?_
  · simp [Api.Right, History.triples, after, added, Spec.Event.new]
  refine .taken ?_
  refine .ret1 ?_
  refine .ask1 (.getLayer ?_) (held := [5]) rfl ?_ same rfl rfl ?_
  · exact ⟨_, List.mem_cons_self, rfl⟩
  · exact ⟨by simp [Api.State.add], by simp [Api.State.add], by simp [Api.State.add]⟩
  refine .ask1 (.query (a := .flag false) rfl ?_) (held := []) rfl ⟨⟨_, rfl⟩, by simp⟩ same rfl rfl ?_
  · simp [Api.Right, History.triples, Api.State.add, Api.State.hold, after, added, Spec.Event.new]
  refine .ask1 (.layerName rfl) (held := []) rfl ⟨_, rfl⟩ same rfl rfl ?_
  refine .ask1 (.parentName rfl) (held := []) rfl ⟨_, rfl⟩ same rfl rfl ?_
  exact fun _ _ _ => ⟨_, .nil⟩

end Verif.Trade
