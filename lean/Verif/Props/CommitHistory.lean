import Verif.Props.CommitRuns
import Verif.Props.TradeHistory

/-!
Histories that meet the hypotheses of the theorems of `Verif/Props/CommitRuns.lean`.
-/

namespace Verif.Conc

open Spec Api

section Hand

variable {K V L : Type} [DecidableEq L] {s s1 s2 s3 : State K V L} {rest : List (Conc.Event K V L)}
  {q q' : Req K V L} {r r' a a' : Ans K V L} {held : List Nat} {t t' new new' : Nat}

/-- It can go on like this when no calls are under way. -/
def Can (s : State K V L) (rest : List (Conc.Event K V L)) : Prop :=
  ∀ p, ∃ B, Kept { now := s, past := p } rest B

/-- A call as a whole. -/
theorem Can.ask (h : Step s q r s1) (hh : s1.handles = s.handles ++ held) (hc : Api.InContract s q)
    (hf : ∀ n, s.Fresh n → n ≠ new → s1.Fresh n)
    (hr : CState.numbered s.handles.length r = a) (hn : Can s1 rest) :
    Can s (.inv t q :: .act t new :: .ret t a :: rest) := by
  intro p
  obtain ⟨_, _, g1, g2, g3, _⟩ := Trade.goes_ask (p := p) (t := t) h hh hc hf hr
  obtain ⟨B, hB⟩ := hn (s :: p)
  exact ⟨B, .cons g1 (.cons g2 (.cons g3 hB))⟩

/-- Two calls at the same time. -/
theorem Can.two (ht : t' ≠ t) (h : Step s q r s1) (hh : s1.handles = s.handles ++ held)
    (hc : Api.InContract s q) (hq : asks q = [])
    (hf : ∀ n, s.Fresh n → n ≠ new → s1.Fresh n) (hr : CState.numbered s.handles.length r = a)
    (h' : Step { s1 with handles := s.handles } q' r' s2) (hh' : s2.handles = s.handles)
    (hc' : Api.InContract { s1 with handles := s.handles } q') (hq' : asks q' = [])
    (hf' : ∀ n, s1.Fresh n → n ≠ new' → s2.Fresh n) (hr' : CState.numbered s.handles.length r' = a')
    (h3 : { s2 with handles := s.handles ++ held } = s3) (hn : Can s3 rest) :
    Can s (.inv t q :: .inv t' q' :: .act t new :: .act t' new' :: .ret t' a' :: .ret t a :: rest) := by
  intro p
  let A0 : CState K V L := { now := s, past := p }
  let A1 : CState K V L := { A0 with calls := fun u => if u = t then some (.asked q p.length) else A0.calls u }
  let A2 : CState K V L := { A1 with calls := fun u => if u = t' then some (.asked q' p.length) else A1.calls u }
  let A3 : CState K V L :=
    { now := { s1 with handles := s.handles }, past := s :: p
      calls := fun u => if u = t then some (.answered r held) else A2.calls u }
  let A4 : CState K V L :=
    { now := { s2 with handles := s.handles }, past := A3.now :: A3.past
      calls := fun u => if u = t' then some (.answered r' []) else A3.calls u }
  let A5 : CState K V L :=
    { A4 with now := { A4.now with handles := A4.now.handles ++ [] }
              calls := fun u => if u = t' then none else A4.calls u }
  have c1 : A1.calls t' = none := if_neg ht
  have c2 : A2.calls t = some (.asked q p.length) := (if_neg ht.symm).trans (if_pos rfl)
  have c3 : A3.calls t' = some (.asked q' p.length) := (if_neg ht).trans (if_pos rfl)
  have c4 : A4.calls t' = some (.answered r' []) := if_pos rfl
  have c5 : A5.calls t = some (.answered r held) :=
    (if_neg ht.symm).trans ((if_neg ht.symm).trans (if_pos rfl))
  have g1 : Goes A0 (.inv t q) A1 := .inv rfl
  have g2 : Goes A1 (.inv t' q') A2 := .inv c1
  have g3 : Goes A2 (.act t new) A3 :=
    .act c2 ⟨hc, by rw [hq]; intro n hn; cases hn⟩ (.once h hh) hf
  have g4 : Goes A3 (.act t' new') A4 :=
    .act c3 ⟨hc', by rw [hq']; intro n hn; cases hn⟩
      (.once h' (by rw [hh']; exact (List.append_nil _).symm)) hf'
  have g5 : Goes A4 (.ret t' a') A5 := hr' ▸ .ret c4
  have e5 : A5.now.handles = s.handles := List.append_nil _
  have g6 : Goes A5 (.ret t a) { now := { s2 with handles := s.handles ++ held }
                                 past := A3.now :: A3.past } := by
    have := Goes.ret c5
    rw [e5, hr] at this
    convert this using 1
    rw [CState.mk.injEq]
    refine ⟨rfl, rfl, ?_⟩
    funext u
    show none = if u = t then none else if u = t' then none else if u = t' then _ else
      if u = t then _ else if u = t' then _ else if u = t then _ else none
    by_cases hu : u = t
    · simp [hu]
    · by_cases hu' : u = t' <;> simp [hu, hu']
  subst h3
  obtain ⟨B, hB⟩ := hn (A3.now :: A3.past)
  exact ⟨B, .cons g1 (.cons g2 (.cons g3 (.cons g4 (.cons g5 (.cons g6 hB)))))⟩

end Hand

/-! ### Three layers -/

/-- A triple. -/
def tr : VTriple Nat Nat := ⟨1, 2, .node 3⟩

/-- Its terms with their ids. -/
def trIds : Ids Nat Nat where
  nv := fun a => if a = 1 then some (.node 1) else if a = 2 then some (.node 3) else none
  pred := fun a => if a = 1 then some 2 else none
  nvCount := 2
  pCount := 1

theorem trIds_fits {b : Ids Nat Nat} (hb : b = {} ∨ b = trIds) {C : VTriple Nat Nat → Prop}
    (hC : ∀ t, C t → t = tr) : trIds.Fits b C where
  nvOnce := by
    intro a b o h1 h2
    simp only [trIds] at h1 h2
    split at h1 <;> split at h2 <;> simp_all
    · rw [← h1] at h2; simp at h2
    · rw [← h2] at h1; simp at h1
  predOnce := by
    intro a b o h1 h2
    simp only [trIds] at h1 h2
    split at h1 <;> split at h2 <;> simp_all
  nvRange := by
    intro a
    simp only [trIds]
    split
    · simp; omega
    · split
      · simp; omega
      · simp; omega
  predRange := by
    intro a
    simp only [trIds]
    split
    · simp; omega
    · simp; omega
  covers := by
    intro t h
    cases hC t h
    exact ⟨⟨1, 1, 2⟩, rfl, rfl, rfl⟩
  nvKept := by
    rcases hb with rfl | rfl
    · intro a o h; cases h
    · exact fun _ _ h => h
  predKept := by
    rcases hb with rfl | rfl
    · intro a o h; cases h
    · exact fun _ _ h => h

/-- A base layer with the triple, which is committed twice at the same time; a layer on it without
the triple; a layer on it where the triple is added and removed at the same time. -/
def layers : List (Conc.Event Nat Nat Nat) :=
  [.inv 0 .createBase, .act 0 5, .ret 0 (.builder 0),
   .inv 0 (.edit 0 (.addValue tr)), .inv 1 (.builderName 0), .act 0 9, .act 1 9, .ret 1 (.name 5),
   .ret 0 .done,
   .inv 0 (.commit 0), .inv 1 (.commitNoLoad 0), .act 0 9, .act 1 9, .ret 1 .failed,
   .ret 0 (.layer 0),
   .inv 0 (.openWrite 0), .act 0 6, .ret 0 (.builder 1),
   .inv 0 (.edit 1 (.removeValue tr)), .inv 1 (.builderName 1), .act 0 9, .act 1 9,
   .ret 1 (.name 6), .ret 0 .done,
   .inv 0 (.commit 1), .act 0 9, .ret 0 (.layer 1),
   .inv 0 (.openWrite 0), .act 0 7, .ret 0 (.builder 2),
   .inv 0 (.edit 2 (.removeValue tr)), .inv 1 (.edit 2 (.addValue tr)), .act 0 9, .act 1 9,
   .ret 1 .done, .ret 0 .done,
   .inv 0 (.commit 2), .inv 1 (.builderName 2), .act 0 9, .act 1 9, .ret 1 (.name 7),
   .ret 0 (.layer 2),
   .inv 0 (.layerName 0), .act 0 9, .ret 0 (.name 5),
   .inv 0 (.layerName 1), .act 0 9, .ret 0 (.name 6),
   .inv 0 (.layerName 2), .act 0 9, .ret 0 (.name 7),
   .inv 0 (.query 0 (.has tr)), .act 0 9, .ret 0 (.answer (.flag true)),
   .inv 0 (.query 0 (.has ⟨8, 2, .node 3⟩)), .act 0 9, .ret 0 (.answer (.flag false)),
   .inv 0 (.query 1 (.has tr)), .act 0 9, .ret 0 (.answer (.flag false)),
   .inv 0 (.query 2 (.has tr)), .act 0 9, .ret 0 (.answer (.flag true))]

/-- The states in between. -/
def st (log : History (VTriple Nat Nat)) (ids : Nat → Ids Nat Nat) (handles : List Nat)
    (builders : List (Builder Nat Nat)) : State Nat Nat Nat :=
  { log := log, ids := ids, handles := handles, builders := builders }

/-- The layers. -/
def l1 : History (VTriple Nat Nat) := [.commit 5 none [.add tr]]
def l2 : History (VTriple Nat Nat) := .commit 6 (some 5) [.remove tr] :: l1
def l3 : History (VTriple Nat Nat) := .commit 7 (some 5) [.remove tr, .add tr] :: l2

theorem l1_5 (t : VTriple Nat Nat) : l1.triples 5 t ↔ t = tr := by
  simp [l1, History.triples, Spec.Event.new, after, added, removed]

theorem l2_5 (t : VTriple Nat Nat) : l2.triples 5 t ↔ t = tr := by
  rw [← l1_5]; simp [l2, History.triples, Spec.Event.new]

theorem l3_5 (t : VTriple Nat Nat) : l3.triples 5 t ↔ t = tr := by
  rw [← l2_5]; simp [l3, History.triples, Spec.Event.new]

theorem l3_6 (t : VTriple Nat Nat) : l3.triples 6 t ↔ False := by
  simp [l3, l2, History.triples, Spec.Event.new, after, added, removed, l1_5]

theorem l3_7 (t : VTriple Nat Nat) : l3.triples 7 t ↔ t = tr := by
  simp only [l3, History.triples, Spec.Event.new, after, added, removed, l2_5]
  by_cases h : t = tr <;> simp [h]

/-- The ids of the layers. -/
def i1 (n : Nat) : Ids Nat Nat := if n = 5 then trIds else {}
def i2 (n : Nat) : Ids Nat Nat := if n = 6 then trIds else i1 n
def i3 (n : Nat) : Ids Nat Nat := if n = 7 then trIds else i2 n

/-- The builders. -/
def b0 (cs : Option (List (Call (VTriple Nat Nat)))) : Builder Nat Nat := ⟨5, none, cs⟩
def b1 (cs : Option (List (Call (VTriple Nat Nat)))) : Builder Nat Nat := ⟨6, some 5, cs⟩
def b2 (cs : Option (List (Call (VTriple Nat Nat)))) : Builder Nat Nat := ⟨7, some 5, cs⟩

theorem st_fresh {log ids hs bs} {n : Nat} : (st log ids hs bs).Fresh n ↔
    (∀ e ∈ log, e.new ≠ n) ∧ ∀ b ∈ bs, b.name ≠ n := by
  simp [State.Fresh, st, History.known]

local macro "fresh" : tactic =>
  `(tactic| ((try intro n); simp only [st_fresh]; simp [b0, b1, b2, l1, l2, l3, Spec.Event.new]; try omega))

theorem layers_can : Can ({} : State Nat Nat Nat) layers := by
  show Can (st [] (fun _ => {}) [] []) layers
  refine .ask (s1 := st [] (fun _ => {}) [] [b0 (some [])]) (held := [])
    (.createBase (by fresh)) rfl trivial (by fresh) rfl ?_
  refine .two (s1 := st [] (fun _ => {}) [] [b0 (some [.add tr])])
    (s2 := st [] (fun _ => {}) [] [b0 (some [.add tr])]) (s3 := st [] (fun _ => {}) [] [b0 (some [.add tr])]) (held := []) (by decide)
    (.edit (x := b0 (some [])) (c := .add tr) rfl rfl rfl) rfl ⟨b0 (some []), rfl, fun _ => ⟨.add tr, rfl⟩⟩ rfl (by fresh) rfl
    (.builderName (x := b0 (some [.add tr])) rfl) rfl ⟨_, rfl⟩ rfl (by fresh) rfl rfl ?_
  refine .two (s1 := st l1 i1 [5] [b0 none]) (s2 := st l1 i1 [] [b0 none]) (s3 := st l1 i1 [5] [b0 none]) (held := [5]) (by decide)
    (.commit (x := b0 (some [.add tr])) (i := trIds) rfl rfl (trIds_fits (.inl rfl) ?_)) rfl ⟨_, rfl⟩ rfl
    (by fresh) rfl
    (.commitTwice (x := b0 none) rfl rfl (.inl rfl)) rfl ⟨_, rfl⟩ rfl (by fresh) rfl rfl ?_
  · simp [after, History.below, b0, added, removed]
  refine .ask (s1 := st l1 i1 [5] [b0 none, b1 (some [])]) (held := [])
    (.openWrite (n := 5) rfl (by fresh)) rfl ⟨_, rfl⟩
    (by fresh) rfl ?_
  refine .two (s1 := st l1 i1 [5] [b0 none, b1 (some [.remove tr])])
    (s2 := st l1 i1 [5] [b0 none, b1 (some [.remove tr])]) (s3 := st l1 i1 [5] [b0 none, b1 (some [.remove tr])]) (held := []) (by decide)
    (.edit (x := b1 (some [])) (c := .remove tr) rfl rfl rfl) rfl ⟨b1 (some []), rfl, fun _ => ⟨.remove tr, rfl⟩⟩ rfl (by fresh) rfl
    (.builderName (x := b1 (some [.remove tr])) rfl) rfl ⟨_, rfl⟩ rfl (by fresh) rfl rfl ?_
  refine .ask (s1 := st l2 i2 [5, 6] [b0 none, b1 none]) (held := [6])
    (.commit (x := b1 (some [.remove tr])) (i := trIds) rfl rfl (trIds_fits (.inr rfl) ?_)) rfl ⟨_, rfl⟩
    (by fresh) rfl ?_
  · intro t h
    rcases h with ⟨_, _, h⟩ | ⟨h, _⟩ | ⟨_, _, h⟩
    · exact (l1_5 t).1 h
    · simp [added] at h
    · exact (l1_5 t).1 h
  refine .ask (s1 := st l2 i2 [5, 6] [b0 none, b1 none, b2 (some [])]) (held := [])
    (.openWrite (n := 5) rfl (by fresh)) rfl ⟨_, rfl⟩
    (by fresh) rfl ?_
  refine .two (s1 := st l2 i2 [5, 6] [b0 none, b1 none, b2 (some [.remove tr])])
    (s2 := st l2 i2 [5, 6] [b0 none, b1 none, b2 (some [.remove tr, .add tr])]) (s3 := st l2 i2 [5, 6] [b0 none, b1 none, b2 (some [.remove tr, .add tr])]) (held := []) (by decide)
    (.edit (x := b2 (some [])) (c := .remove tr) rfl rfl rfl) rfl ⟨b2 (some []), rfl, fun _ => ⟨.remove tr, rfl⟩⟩ rfl (by fresh) rfl
    (.edit (x := b2 (some [.remove tr])) (c := .add tr) rfl rfl rfl) rfl ⟨b2 (some [.remove tr]), rfl, fun _ => ⟨.add tr, rfl⟩⟩ rfl
    (by fresh) rfl rfl ?_
  refine .two (s1 := st l3 i3 [5, 6, 7] [b0 none, b1 none, b2 none])
    (s2 := st l3 i3 [5, 6] [b0 none, b1 none, b2 none]) (s3 := st l3 i3 [5, 6, 7] [b0 none, b1 none, b2 none]) (held := [7]) (by decide)
    (.commit (x := b2 (some [.remove tr, .add tr])) (i := trIds) rfl rfl (trIds_fits (.inr rfl) ?_)) rfl ⟨_, rfl⟩
    rfl (by fresh) rfl
    (.builderName (x := b2 none) rfl) rfl ⟨_, rfl⟩ rfl (by fresh) rfl rfl ?_
  · intro t h
    rcases h with ⟨_, _, h⟩ | ⟨h, _⟩ | ⟨_, _, h⟩
    · exact (l2_5 t).1 h
    · simpa [added] using h
    · exact (l2_5 t).1 h
  have name : ∀ {h n : Nat} {rest}, [5, 6, 7][h]? = some n →
      Can (st l3 i3 [5, 6, 7] [b0 none, b1 none, b2 none]) rest →
      Can (st l3 i3 [5, 6, 7] [b0 none, b1 none, b2 none])
        (.inv 0 (.layerName h) :: .act 0 9 :: .ret 0 (.name n) :: rest) :=
    fun h1 h2 => .ask (held := []) (.layerName h1) rfl ⟨_, h1⟩ (fun _ h _ => h) rfl h2
  have has : ∀ {h n : Nat} {t v rest}, [5, 6, 7][h]? = some n → (v = true ↔ l3.triples n t) →
      Can (st l3 i3 [5, 6, 7] [b0 none, b1 none, b2 none]) rest →
      Can (st l3 i3 [5, 6, 7] [b0 none, b1 none, b2 none])
        (.inv 0 (.query h (.has t)) :: .act 0 9 :: .ret 0 (.answer (.flag v)) :: rest) :=
    fun h1 h2 h3 => .ask (held := []) (.query (a := .flag _) h1 h2) rfl ⟨⟨_, h1⟩, by simp⟩ (fun _ h _ => h) rfl h3
  refine name rfl (name rfl (name rfl ?_))
  refine has rfl ((l3_5 _).trans (by simp)).symm ?_
  refine has rfl ((l3_5 _).trans (by simp [tr])).symm ?_
  refine has rfl ((l3_6 _).trans (by simp)).symm ?_
  refine has rfl ((l3_7 _).trans (by simp)).symm ?_
  exact fun p => ⟨_, .nil⟩

/-- The hypotheses `LivesKept` and `Kept`. -/
example : LivesKept {} [] ({} : State Nat Nat Nat) ∧ ∃ B, Kept ({} : CState Nat Nat Nat) layers B :=
  ⟨.nil, layers_can []⟩

/-- Whether such a call begins. -/
def neverB (f : Req Nat Nat Nat → Bool) (evs : List (Conc.Event Nat Nat Nat)) : Bool :=
  evs.all fun e => match e with
    | .inv _ c => !f c
    | _ => true

theorem neverB_never {f : Req Nat Nat Nat → Bool} {P : Req Nat Nat Nat → Prop}
    (hf : ∀ c, P c → f c = true) {evs : List (Conc.Event Nat Nat Nat)} (h : neverB f evs = true) :
    Never P evs := by
  intro u c hm hc
  have := List.all_eq_true.1 h _ hm
  simp [hf c hc] at this

/-- Whether the call may add a triple to the builder. -/
def addsB (b : Nat) (t : VTriple Nat Nat) : Req Nat Nat Nat → Bool
  | .edit b' (.addValue t') => b' = b && t' = t
  | .edit b' (.addId _) | .applyDelta b' _ | .applyDiff b' _ => b' = b
  | _ => false

def removesB (b : Nat) (t : VTriple Nat Nat) : Req Nat Nat Nat → Bool
  | .edit b' (.removeValue t') => b' = b && t' = t
  | .edit b' (.removeId _) | .applyDelta b' _ | .applyDiff b' _ => b' = b
  | _ => false

theorem never_add {b : Nat} {t : VTriple Nat Nat} {evs : List (Conc.Event Nat Nat Nat)}
    (h : neverB (addsB b t) evs = true) : Never (MayAdd b t) evs := by
  refine neverB_never (fun c hc => ?_) h
  unfold MayAdd at hc
  split at hc <;> simp_all [addsB]

theorem never_remove {b : Nat} {t : VTriple Nat Nat} {evs : List (Conc.Event Nat Nat Nat)}
    (h : neverB (removesB b t) evs = true) : Never (MayRemove b t) evs := by
  refine neverB_never (fun c hc => ?_) h
  unfold MayRemove at hc
  split at hc <;> simp_all [removesB]

/-- The other hypotheses of `C70_added`. -/
example : MadeBy layers 0 0 ∧ (.edit 0 (.addValue tr), .done) ∈ pairs (fun _ => none) layers ∧
    Never (MayRemove 0 tr) layers ∧
    (.query 0 (.has tr), .answer (.flag true)) ∈ pairs (fun _ => none) layers :=
  ⟨⟨5, by decide, by decide⟩, by decide, never_remove (by decide), by decide⟩

/-- The other hypotheses of `C70_removed`. -/
example : MadeBy layers 1 1 ∧ (.edit 1 (.removeValue tr), .done) ∈ pairs (fun _ => none) layers ∧
    Never (MayAdd 1 tr) layers ∧
    (.query 1 (.has tr), .answer (.flag false)) ∈ pairs (fun _ => none) layers :=
  ⟨⟨6, by decide, by decide⟩, by decide, never_add (by decide), by decide⟩

/-- The other hypotheses of `C70_both`. -/
example : MadeBy layers 2 2 ∧ (.edit 2 (.addValue tr), .done) ∈ pairs (fun _ => none) layers ∧
    (.edit 2 (.removeValue tr), .done) ∈ pairs (fun _ => none) layers ∧ Before layers 2 tr true ∧
    (.query 2 (.has tr), .answer (.flag true)) ∈ pairs (fun _ => none) layers :=
  ⟨⟨7, by decide, by decide⟩, by decide, by decide, .inr ⟨0, by decide, by decide⟩, by decide⟩

/-- The other hypotheses of `C70_untouched`. -/
example : MadeBy layers 0 0 ∧ Never (MayAdd 0 ⟨8, 2, .node 3⟩) layers ∧
    Never (MayRemove 0 ⟨8, 2, .node 3⟩) layers ∧ Before layers 0 ⟨8, 2, .node 3⟩ false ∧
    (.query 0 (.has ⟨8, 2, .node 3⟩), .answer (.flag false)) ∈ pairs (fun _ => none) layers :=
  ⟨⟨5, by decide, by decide⟩, never_add (by decide), never_remove (by decide),
    .inl ⟨by decide, rfl⟩, by decide⟩

/-- The other hypotheses of `C70_layer`; of two commits at the same time one fails. -/
example : (.commit 0, .layer 0) ∈ pairs (fun _ => none) layers ∧
    (.commitNoLoad 0, .failed) ∈ pairs (fun _ => none) layers ∧
    (.builderName 0, .name 5) ∈ pairs (fun _ => none) layers ∧
    (.layerName 0, .name 5) ∈ pairs (fun _ => none) layers := by
  refine ⟨?_, ?_, ?_, ?_⟩ <;> decide

/-! ### The same in the model -/

/-- Two processes; one adds a triple to a builder and commits it, at the same time as the other
reads the head, and a second commit fails. -/
def makers : List (Fin 2 × Move Nat Nat Nat) :=
  (whole 0 0 (before ++ [.setHead 7 1, .openWrite 0, .builderName 2])).map (0, ·) ++
  (([.inv 0 (.edit 2 (.removeValue tr)), .inv 2 (.edit 2 (.addValue ⟨8, 2, .node 3⟩)), .inv 1 (.head 7),
    .act 1 100, .act 0 101, .act 1 102, .act 2 103, .ret 0, .ret 2, .inv 0 (.commit 2),
    .inv 2 (.commitNoLoad 2), .act 1 104, .act 0 105, .act 2 106, .act 0 107, .act 1 108] ++ acts 0 6 110 ++
    [.ret 2, .ret 0] ++ acts 1 6 120 ++ [.ret 1] : List (Move Nat Nat Nat))).map (0, ·) ++
  (whole 0 200 [.layerName 2, .query 2 (.has tr), .query 2 (.has ⟨8, 2, .node 3⟩)]).map (0, ·)

/-- What was asked and answered. -/
def made67 (evs : List (Conc.Event Nat Nat Nat)) : Bool :=
  (pairs (fun _ => none) evs).contains (.builderName 2, .name 67) &&
  (pairs (fun _ => none) evs).contains (.layerName 2, .name 67) &&
  (pairs (fun _ => none) evs).contains (.edit 2 (.removeValue tr), .done) &&
  (pairs (fun _ => none) evs).contains (.edit 2 (.addValue ⟨8, 2, .node 3⟩), .done) &&
  (pairs (fun _ => none) evs).contains (.commit 2, .layer 2) &&
  (pairs (fun _ => none) evs).contains (.commitNoLoad 2, .failed) &&
  (pairs (fun _ => none) evs).contains (.query 2 (.has tr), .answer (.flag false)) &&
  (pairs (fun _ => none) evs).contains (.query 2 (.has ⟨8, 2, .node 3⟩), .answer (.flag true)) &&
  neverB (addsB 2 tr) evs && neverB (removesB 2 ⟨8, 2, .node 3⟩) evs

/-- The hypothesis of `C70_processes_partial`, with what `Makes.removed` and `Makes.added` ask
for. -/
example : ∃ evs : List (Conc.Event Nat Nat Nat), Shared.Lives { disk := true } ([] ++ [evs]) ∧
    MadeBy evs 2 2 ∧ Never (MayAdd 2 tr) evs ∧ Never (MayRemove 2 ⟨8, 2, .node 3⟩) evs ∧
    made67 evs = true := by
  have h : ((Shared.play two (Shared.opened 2 { disk := true }) makers).map fun x => made67 x.1) =
      some true := by decide +kernel
  obtain ⟨x, h1, h2⟩ := Option.map_eq_some_iff.mp h
  refine ⟨x.1, .last (Shared.play_runs h1), ?_, ?_, ?_, h2⟩
  all_goals simp only [made67, Bool.and_eq_true, List.contains_iff_mem] at h2
  · exact ⟨67, h2.1.1.1.1.1.1.1.1.1, h2.1.1.1.1.1.1.1.1.2⟩
  · exact never_add h2.1.2
  · exact never_remove h2.2

/-- The hypothesis of `C70_store_partial`: a commit and changes of the same builder at the same time. -/
example : ∃ evs : List (Conc.Event Nat Nat Nat), Trace { session := { disk := false } } evs ∧
    (.commit 2, .layer 2) ∈ pairs (fun _ => none) evs := by
  have h : ((playC {} crowd).map fun evs =>
      (pairs (fun _ => none) evs).contains (.commit 2, .layer 2)) = some true := by decide +kernel
  obtain ⟨evs, h1, h2⟩ := Option.map_eq_some_iff.mp h
  exact ⟨evs, playC_trace h1, by simpa using h2⟩

end Verif.Conc
