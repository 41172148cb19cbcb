import Verif.Model.Lru
import Verif.Lemmas.ArchiveRun

namespace Verif

namespace Lru.Cache

theorem peek_without (c : Cache) (n m : LayerName) :
    (c.without n).peek m = if m = n then none else c.peek m := lookup_filter_ne n m c

theorem peek_cons (c : Cache) (n m : LayerName) (e : Entry) :
    Cache.peek ((n, e) :: c) m = if m = n then some e else c.peek m := by
  show List.lookup m (_ :: _) = _
  rw [List.lookup_cons]
  by_cases h : m = n
  · simp [h]
  · have : (m == n) = false := by simpa using h
    rw [this, if_neg h]; rfl

theorem peek_promote (c : Cache) (n m : LayerName) : (c.promote n).peek m = c.peek m := by
  unfold promote
  split
  · rfl
  · rename_i e he
    rw [peek_cons, peek_without]
    by_cases h : m = n
    · subst h; simp [he]
    · simp [h]

theorem peek_getOrInsert (c : Cache) (n m : LayerName) (e : Entry) :
    (c.getOrInsert n e).peek m =
      if m = n then some ((c.peek n).getD e) else c.peek m := by
  unfold getOrInsert
  split
  · rename_i e' he
    rw [peek_promote]
    by_cases h : m = n
    · subst h; simp [he]
    · simp [h]
  · rename_i he
    rw [peek_cons, he]; rfl

theorem peek_setMut (c : Cache) (n m : LayerName) (e : Entry) :
    (c.setMut n e).peek m = if m = n then some e else c.peek m := by
  unfold setMut
  rw [peek_cons, peek_without]
  by_cases h : m = n <;> simp [h]

theorem drop_eq {c : Cache} {n : LayerName} {e : Entry} (h : c.peek n = some e) :
    c.drop n = some (c.without n) := by
  unfold drop demote popLru
  rw [h]
  simp

theorem ensureEnough_zero (c : Cache) (limit required : Nat) :
    c.ensureEnough limit 0 required = some (if limit < required then none else some c) := by
  unfold ensureEnough
  split
  · rfl
  · rw [if_neg (by omega), if_neg (by omega)]

end Lru.Cache

/-- What was noted before a call began. -/
def beforeCall (t : Nat) : List LruEvent → List LruEvent
  | [] => []
  | .called t' _ :: L => if t' = t then L else beforeCall t L
  | _ :: L => beforeCall t L

namespace LruArch

open Lru

/-- The bytes are the beginning of the file of a layer, and all of it unless the layer was read while
it was written. -/
def Good (s : LruArch) (L : List LruEvent) (n : LayerName) (b : Bytes) : Prop :=
  ∃ x, s.disk.file n = some x ∧ b <+: x ∧
    ((∀ t, .torn t n ∉ L) → b = x ∧ s.writing.lookup n = none)

/-- What was read from the file of a layer. -/
def Val (s : LruArch) (L : List LruEvent) (t : Nat) (n : LayerName) (v : Out Bytes) : Prop :=
  (∃ b, v = .ok b ∧ Good s L n b) ∨ (v = .err ∧ .missed t n ∈ L)

/-- Some call looked in vain that had not returned when `t` began. -/
def Stale (L : List LruEvent) (t : Nat) (n : LayerName) : Prop :=
  ∃ t', .missed t' n ∈ L ∧ ∀ r, .returned t' n r ∉ beforeCall t L

/-- What is true of a call. -/
def CallOk (cancels : Bool) (s : LruArch) (L : List LruEvent) (t : Nat) : Call → Prop
  | .looking n => s.cache.peek n = some (.resolving t)
  | .found n r => s.cache.peek n = some (.resolving t) ∧ Val s L t n r
  | .waiting n on => (∀ r, .returned on n r ∉ beforeCall t L) ∧
      (s.calls[on]? = some (.looking n) ∨ (∃ r, s.calls[on]? = some (.found n r)) ∨
        (∃ r v, s.calls[on]? = some (.done n r (some v))) ∨
        (cancels = true ∧ ∃ v, s.calls[on]? = some (.cancelled n v)))
  | .done n r v => (r = .panic → cancels = true) ∧ (∀ b, r = .ok b → Good s L n b) ∧
      (r = .err → Stale L t n) ∧ ∀ x, v = some x → Val s L t n x
  | .cancelled n v => cancels = true ∧ ∀ x, v = some x → Val s L t n x

/-- What is true in every state that can be reached. -/
structure Inv (cancels : Bool) (s : LruArch) (L : List LruEvent) : Prop where
  current : s.current = 0
  right : ∀ n b, s.cache.peek n = some (.resolved b) → Good s L n b
  owner : ∀ n t, s.cache.peek n = some (.resolving t) → s.calls[t]? = some (.looking n) ∨
    (∃ r, s.calls[t]? = some (.found n r)) ∨
    (cancels = true ∧ ∃ v, s.calls[t]? = some (.cancelled n v))
  calls : ∀ t c, s.calls[t]? = some c → CallOk cancels s L t c
  /-- Only calls that are over have returned. -/
  log : ∀ t n r, .returned t n r ∈ L → ∃ v, s.calls[t]? = some (.done n r v)
  /-- Only calls that exist were called. -/
  called : ∀ t n, .called t n ∈ L → t < s.calls.length

/-! ### Logs that grow -/

/-- The log `L'` says the same about what was before each of the calls below `k`. -/
def Grows (k : Nat) (L L' : List LruEvent) : Prop :=
  (∀ e ∈ L, e ∈ L') ∧ ∀ t, t < k → beforeCall t L' = beforeCall t L

theorem Grows.refl (k : Nat) (L : List LruEvent) : Grows k L L := ⟨fun _ h => h, fun _ _ => rfl⟩

theorem Grows.returned {k : Nat} {L : List LruEvent} {t : Nat} {n : LayerName} {r : Out Bytes} :
    Grows k L (.returned t n r :: L) := ⟨fun _ h => List.mem_cons_of_mem _ h, fun _ _ => rfl⟩

theorem Grows.missed {k : Nat} {L : List LruEvent} {t : Nat} {n : LayerName} :
    Grows k L (.missed t n :: L) := ⟨fun _ h => List.mem_cons_of_mem _ h, fun _ _ => rfl⟩

theorem Grows.torn {k : Nat} {L : List LruEvent} {t : Nat} {n : LayerName} :
    Grows k L (.torn t n :: L) := ⟨fun _ h => List.mem_cons_of_mem _ h, fun _ _ => rfl⟩

theorem Grows.began {k : Nat} {L : List LruEvent} {n : LayerName} {b : Bytes} :
    Grows k L (.began n b :: L) := ⟨fun _ h => List.mem_cons_of_mem _ h, fun _ _ => rfl⟩

theorem Grows.stored {k : Nat} {L : List LruEvent} {n : LayerName} {b : Bytes} :
    Grows k L (.stored n b :: L) := ⟨fun _ h => List.mem_cons_of_mem _ h, fun _ _ => rfl⟩

theorem Grows.called {L : List LruEvent} {k : Nat} {n : LayerName} :
    Grows k L (.called k n :: L) :=
  ⟨fun _ h => List.mem_cons_of_mem _ h, fun _ h => if_neg (by omega)⟩

theorem Grows.trans {k : Nat} {L L' L'' : List LruEvent} (h : Grows k L L') (h' : Grows k L' L'') :
    Grows k L L'' :=
  ⟨fun e he => h'.1 e (h.1 e he), fun t ht => (h'.2 t ht).trans (h.2 t ht)⟩

theorem Stale.grow {k : Nat} {L L' : List LruEvent} (h : Grows k L L') {t : Nat} {n : LayerName}
    (ht : t < k) (hs : Stale L t n) : Stale L' t n := by
  obtain ⟨t', h1, h2⟩ := hs
  exact ⟨t', h.1 _ h1, fun r hr => h2 r (by rw [← h.2 t ht]; exact hr)⟩

/-- Files stay, and grow if they are being written. -/
def DiskGrows (s : LruArch) (L : List LruEvent) (s' : LruArch) (L' : List LruEvent) : Prop :=
  ∀ n b, Good s L n b → Good s' L' n b

theorem DiskGrows.same {s s' : LruArch} {k : Nat} {L L' : List LruEvent} (h : Grows k L L')
    (hd : s'.disk = s.disk) (hw : s'.writing = s.writing) : DiskGrows s L s' L' := by
  rintro n b ⟨x, h1, h2, h3⟩
  exact ⟨x, by rw [hd]; exact h1, h2, fun ht => by
    rw [hw]; exact h3 (fun t hm => ht t (h.1 _ hm))⟩

theorem Val.grow {s s' : LruArch} {k : Nat} {L L' : List LruEvent} (h : Grows k L L')
    (hd : DiskGrows s L s' L') {t : Nat} {n : LayerName} {v : Out Bytes} (hv : Val s L t n v) :
    Val s' L' t n v := by
  rcases hv with ⟨b, h1, h2⟩ | ⟨h1, h2⟩
  · exact Or.inl ⟨b, h1, hd n b h2⟩
  · exact Or.inr ⟨h1, h.1 _ h2⟩

/-- A call that is not touched stays right. The states of the calls may only go on. -/
theorem CallOk.grow {cancels : Bool} {s s' : LruArch} {L L' : List LruEvent} {t : Nat} {c : Call}
    (hg : Grows s.calls.length L L') (hd : DiskGrows s L s' L') (ht : t < s.calls.length)
    (hc : ∀ n, s.cache.peek n = some (.resolving t) →
      (c = .looking n ∨ ∃ r, c = .found n r) → s'.cache.peek n = some (.resolving t))
    (hw : ∀ n on, c = .waiting n on → s'.calls[on]? = s.calls[on]? ∨
      (∃ r, s'.calls[on]? = some (.found n r)) ∨
      (∃ r v, s'.calls[on]? = some (.done n r (some v))) ∨
      (cancels = true ∧ ∃ v, s'.calls[on]? = some (.cancelled n v)))
    (h : CallOk cancels s L t c) : CallOk cancels s' L' t c := by
  cases c with
  | looking n => exact hc n h (Or.inl rfl)
  | found n r => exact ⟨hc n h.1 (Or.inr ⟨r, rfl⟩), h.2.grow hg hd⟩
  | waiting n on =>
    refine ⟨fun r hr => h.1 r (by rw [← hg.2 t ht]; exact hr), ?_⟩
    rcases hw n on rfl with e | e
    · rw [e]; exact h.2
    · exact Or.inr e
  | done n r v =>
    exact ⟨h.1, fun b hb => hd n b (h.2.1 b hb), fun hr => (h.2.2.1 hr).grow hg ht,
      fun x hx => (h.2.2.2 x hx).grow hg hd⟩
  | cancelled n v => exact ⟨h.1, fun x hx => (h.2 x hx).grow hg hd⟩

/-! ### Steps -/

theorem lt_of_get {α : Type} {l : List α} {t : Nat} {a : α} (h : l[t]? = some a) : t < l.length := by
  rcases Nat.lt_or_ge t l.length with h1 | h1
  · exact h1
  · rw [List.getElem?_eq_none h1] at h; cases h

theorem get_set {α : Type} {l : List α} {t : Nat} {a x : α} (h : l[t]? = some a) (u : Nat) :
    (l.set t x)[u]? = if u = t then some x else l[u]? := by
  by_cases e : u = t
  · subst e; rw [List.getElem?_set_self (lt_of_get h), if_pos rfl]
  · rw [List.getElem?_set_ne (fun h => e h.symm), if_neg e]

theorem get_push {α : Type} (l : List α) (x : α) (u : Nat) :
    (l ++ [x])[u]? = if u = l.length then some x else l[u]? := by
  rcases Nat.lt_trichotomy u l.length with h | rfl | h
  · rw [List.getElem?_append_left h, if_neg (by omega)]
  · simp
  · rw [List.getElem?_eq_none (by simp; omega), if_neg (by omega), List.getElem?_eq_none (by omega)]

theorem beforeCall_none {t : Nat} {L : List LruEvent} (h : ∀ n, .called t n ∉ L) :
    beforeCall t L = [] := by
  induction L with
  | nil => rfl
  | cons e L ih =>
    have ih := ih (fun n hn => h n (List.mem_cons_of_mem _ hn))
    cases e with
    | called t' n =>
      have : t' ≠ t := fun e => h n (by subst e; exact List.mem_cons_self)
      show (if t' = t then L else beforeCall t L) = []
      rw [if_neg this]; exact ih
    | _ => exact ih

/-- One call changes, the disk stays. -/
theorem Inv.change {cancels : Bool} {s s' : LruArch} {L L' : List LruEvent} {t : Nat}
    {n : LayerName} {c₀ c : Call}
    (hi : Inv cancels s L) (h₀ : s.calls[t]? = some c₀)
    (hcalls : s'.calls = s.calls.set t c) (hdisk : s'.disk = s.disk)
    (hwriting : s'.writing = s.writing)
    (hcur : s'.current = s.current)
    (hg : Grows s.calls.length L L')
    -- the entry of the layer
    (hother : ∀ m, m ≠ n → s'.cache.peek m = s.cache.peek m)
    (hright : ∀ b, s'.cache.peek n = some (.resolved b) → Good s L n b)
    (howner : ∀ u, s'.cache.peek n = some (.resolving u) →
      s.cache.peek n = some (.resolving u))
    -- the call is about this layer, and is the one that makes the entry if the entry changes
    (hmine : ∀ m, s.cache.peek m = some (.resolving t) → m = n)
    (hkeep : s'.cache.peek n = s.cache.peek n ∨ s.cache.peek n = some (.resolving t))
    (hres : s'.cache.peek n = some (.resolving t) → c = .looking n ∨ (∃ r, c = .found n r) ∨
      (cancels = true ∧ ∃ v, c = .cancelled n v))
    -- others may wait for it
    (hwait : ∀ (u : Nat) (m : LayerName), s.calls[u]? = some (Call.waiting m t) → c = c₀ ∨ (∃ r, c = .found m r) ∨
      (∃ r v, c = .done m r (some v)) ∨ (cancels = true ∧ ∃ v, c = .cancelled m v))
    (hnew : CallOk cancels s' L' t c)
    (hlog : ∀ u m r, .returned u m r ∈ L' → .returned u m r ∈ L ∧ u ≠ t ∨
      u = t ∧ ∃ v, c = .done m r v)
    (hcalled : ∀ u m, .called u m ∈ L' → .called u m ∈ L) : Inv cancels s' L' := by
  have hget : ∀ u, s'.calls[u]? = if u = t then some c else s.calls[u]? := by
    intro u; rw [hcalls]; exact get_set h₀ u
  have hlen : s'.calls.length = s.calls.length := by rw [hcalls, List.length_set]
  have hd : DiskGrows s L s' L' := .same hg hdisk hwriting
  refine ⟨by rw [hcur]; exact hi.current, ?_, ?_, ?_, ?_, ?_⟩
  · intro m b hm
    refine hd m b ?_
    by_cases e : m = n
    · subst e; exact hright b hm
    · rw [hother m e] at hm; exact hi.right m b hm
  · intro m u hm
    rw [hget]
    by_cases e : m = n
    · subst e
      by_cases eu : u = t
      · subst eu
        rw [if_pos rfl]
        rcases hres hm with h | ⟨r, h⟩ | ⟨h1, v, h⟩
        · exact Or.inl (by rw [h])
        · exact Or.inr (Or.inl ⟨r, by rw [h]⟩)
        · exact Or.inr (Or.inr ⟨h1, v, by rw [h]⟩)
      · rw [if_neg eu]; exact hi.owner m u (howner u hm)
    · rw [hother m e] at hm
      have : u ≠ t := fun eu => e (hmine m (by rw [← eu]; exact hm))
      rw [if_neg this]
      exact hi.owner m u hm
  · intro u d hu
    rw [hget] at hu
    by_cases eu : u = t
    · subst eu
      rw [if_pos rfl] at hu
      cases hu
      exact hnew
    · rw [if_neg eu] at hu
      refine (hi.calls u d hu).grow hg hd (lt_of_get hu) ?_ ?_
      · intro m hm _
        by_cases e : m = n
        · subst e
          rcases hkeep with h | h
          · rw [h]; exact hm
          · rw [hm] at h; cases h; exact absurd rfl eu
        · rw [hother m e]; exact hm
      · intro m on hd
        subst hd
        rw [hget]
        by_cases eo : on = t
        · subst eo
          rw [if_pos rfl]
          rcases hwait u m hu with h | ⟨r, h⟩ | ⟨r, v, h⟩ | ⟨h1, v, h⟩
          · exact Or.inl (by rw [h, h₀])
          · exact Or.inr (Or.inl ⟨r, by rw [h]⟩)
          · exact Or.inr (Or.inr (Or.inl ⟨r, v, by rw [h]⟩))
          · exact Or.inr (Or.inr (Or.inr ⟨h1, v, by rw [h]⟩))
        · rw [if_neg eo]; exact Or.inl rfl
  · intro u m r h
    rcases hlog u m r h with ⟨h1, h2⟩ | ⟨h1, v, h2⟩
    · rw [hget, if_neg h2]; exact hi.log u m r h1
    · exact ⟨v, by rw [hget, if_pos h1, h2]⟩
  · intro u m h
    rw [hlen]; exact hi.called u m (hcalled u m h)

/-- A new call; the cache changes at most by an entry that the call makes. -/
theorem Inv.push {cancels : Bool} {s s' : LruArch} {L L' : List LruEvent} {n : LayerName} {c : Call}
    (hi : Inv cancels s L) (hcalls : s'.calls = s.calls ++ [c]) (hdisk : s'.disk = s.disk)
    (hwriting : s'.writing = s.writing)
    (hcur : s'.current = s.current) (hg : Grows s.calls.length L L')
    (hpeek : ∀ m, s'.cache.peek m = s.cache.peek m ∨
      (m = n ∧ s.cache.peek m = none ∧ s'.cache.peek m = some (.resolving s.calls.length) ∧
        c = .looking n))
    (hnew : CallOk cancels s' L' s.calls.length c)
    (hlog : ∀ u m r, .returned u m r ∈ L' → .returned u m r ∈ L ∨
      u = s.calls.length ∧ ∃ v, c = .done m r v)
    (hcalled : ∀ u m, .called u m ∈ L' → .called u m ∈ L ∨ u = s.calls.length) :
    Inv cancels s' L' := by
  have hget : ∀ u, s'.calls[u]? = if u = s.calls.length then some c else s.calls[u]? := by
    intro u; rw [hcalls]; exact get_push _ _ u
  have hold : ∀ u, u < s.calls.length → s'.calls[u]? = s.calls[u]? := by
    intro u hu; rw [hget, if_neg (by omega)]
  have hlen : s'.calls.length = s.calls.length + 1 := by rw [hcalls]; simp
  have hd : DiskGrows s L s' L' := .same hg hdisk hwriting
  refine ⟨by rw [hcur]; exact hi.current, ?_, ?_, ?_, ?_, ?_⟩
  · intro m b hm
    rcases hpeek m with h | ⟨-, -, h, -⟩
    · rw [h] at hm; exact hd m b (hi.right m b hm)
    · rw [h] at hm; cases hm
  · intro m u hm
    rcases hpeek m with h | ⟨e, -, h, hc⟩
    · rw [h] at hm
      have ho := hi.owner m u hm
      have hu : u < s.calls.length := by
        rcases ho with h | ⟨r, h⟩ | ⟨-, v, h⟩ <;> exact lt_of_get h
      rw [hold u hu]; exact ho
    · rw [h] at hm
      cases hm
      left
      rw [hget, if_pos rfl, hc, e]
  · intro u d hu
    rw [hget] at hu
    split at hu
    · rename_i e; subst e; cases hu; exact hnew
    · refine (hi.calls u d hu).grow hg hd (lt_of_get hu) ?_ ?_
      · intro m hm _
        rcases hpeek m with h | ⟨-, h, -⟩
        · rw [h]; exact hm
        · rw [hm] at h; cases h
      · intro m on hd
        subst hd
        left
        have hok := (hi.calls u _ hu).2
        have : on < s.calls.length := by
          rcases hok with h | ⟨r, h⟩ | ⟨r, v, h⟩ | ⟨-, v, h⟩ <;> exact lt_of_get h
        exact hold on this
  · intro u m r h
    rcases hlog u m r h with h1 | ⟨h1, v, h2⟩
    · obtain ⟨v, hv⟩ := hi.log u m r h1
      exact ⟨v, by rw [hold u (lt_of_get hv)]; exact hv⟩
    · exact ⟨v, by rw [hget, if_pos h1, h2]⟩
  · intro u m h
    rw [hlen]
    rcases hcalled u m h with h1 | h1
    · have := hi.called u m h1; omega
    · omega

/-- The calls and the log stay, the disk grows; entries may be added that are right. -/
theorem Inv.grow {cancels : Bool} {s s' : LruArch} {L L' : List LruEvent}
    (hi : Inv cancels s L) (hcalls : s'.calls = s.calls) (hcur : s'.current = s.current)
    (hd : DiskGrows s L s' L') (hg : Grows s.calls.length L L')
    (hpeek : ∀ m, s'.cache.peek m = s.cache.peek m ∨
      (s.cache.peek m = none ∧ ∃ b, s'.cache.peek m = some (.resolved b) ∧ Good s' L' m b))
    (hlog : ∀ u m r, .returned u m r ∈ L' → .returned u m r ∈ L)
    (hcalled : ∀ u m, .called u m ∈ L' → .called u m ∈ L) : Inv cancels s' L' := by
  refine ⟨by rw [hcur]; exact hi.current, ?_, ?_, ?_, ?_, ?_⟩
  · intro m b hm
    rcases hpeek m with h | ⟨-, b', h, h'⟩
    · rw [h] at hm; exact hd m b (hi.right m b hm)
    · rw [h] at hm; cases hm; exact h'
  · intro m u hm
    rw [hcalls]
    rcases hpeek m with h | ⟨-, b', h, h'⟩
    · rw [h] at hm; exact hi.owner m u hm
    · rw [h] at hm; cases hm
  · intro u d hu
    rw [hcalls] at hu
    refine (hi.calls u d hu).grow hg hd (lt_of_get hu) ?_ ?_
    · intro m hm _
      rcases hpeek m with h | ⟨h, -⟩
      · rw [h]; exact hm
      · rw [hm] at h; cases h
    · intro m on _
      left; rw [hcalls]
  · intro u m r h
    rw [hcalls]; exact hi.log u m r (hlog u m r h)
  · intro u m h
    rw [hcalls]; exact hi.called u m (hcalled u m h)

theorem Inv.not_called {cancels : Bool} {s : LruArch} {L : List LruEvent} (hi : Inv cancels s L) :
    beforeCall s.calls.length L = [] :=
  beforeCall_none (fun n h => Nat.lt_irrefl _ (hi.called _ n h))

theorem Inv.start {cancels : Bool} {s : LruArch} {L : List LruEvent} (hi : Inv cancels s L)
    (n : LayerName) : Inv cancels (s.start n) (s.startLog n L) := by
  cases hp : s.cache.peek n with
  | none =>
    have e1 : s.start n =
        { s with
          cache := s.cache.getOrInsert n (.resolving s.calls.length)
          calls := s.calls ++ [.looking n] } := by unfold LruArch.start; rw [hp]
    have e2 : s.startLog n L = .called s.calls.length n :: L := by unfold startLog; rw [hp]
    rw [e1, e2]
    have hpn : (s.cache.getOrInsert n (.resolving s.calls.length)).peek n =
        some (.resolving s.calls.length) := by
      rw [Cache.peek_getOrInsert, if_pos rfl, hp]; rfl
    refine hi.push (n := n) rfl rfl rfl rfl .called ?_ hpn ?_ ?_
    · intro m
      by_cases e : m = n
      · subst e; exact Or.inr ⟨rfl, hp, hpn, rfl⟩
      · left
        show (s.cache.getOrInsert n _).peek m = _
        rw [Cache.peek_getOrInsert, if_neg e]
    · intro u m r h
      rcases List.mem_cons.mp h with h | h
      · cases h
      · exact Or.inl h
    · intro u m h
      rcases List.mem_cons.mp h with h | h
      · cases h; exact Or.inr rfl
      · exact Or.inl h
  | some e =>
    cases e with
    | resolved b =>
      have e1 : s.start n =
          { s with
            cache := s.cache.promote n
            calls := s.calls ++ [.done n (.ok b) none] } := by unfold LruArch.start; rw [hp]
      have e2 : s.startLog n L = .returned s.calls.length n (.ok b) :: .called s.calls.length n :: L := by
        unfold startLog; rw [hp]
      rw [e1, e2]
      refine hi.push (n := n) rfl rfl rfl rfl (Grows.called.trans .returned)
        (fun m => Or.inl (Cache.peek_promote _ _ _)) ?_ ?_ ?_
      · refine ⟨fun h => (by cases h), fun b' h => ?_, fun h => (by cases h), fun x h => (by cases h)⟩
        cases h
        exact DiskGrows.same (s' := { s with cache := _, calls := _ }) (Grows.called.trans .returned)
          rfl rfl n b (hi.right n b hp)
      · intro u m r h
        rcases List.mem_cons.mp h with h | h
        · cases h; exact Or.inr ⟨rfl, none, rfl⟩
        · rcases List.mem_cons.mp h with h | h
          · cases h
          · exact Or.inl h
      · intro u m h
        rcases List.mem_cons.mp h with h | h
        · cases h
        · rcases List.mem_cons.mp h with h | h
          · cases h; exact Or.inr rfl
          · exact Or.inl h
    | resolving t =>
      have e1 : s.start n = { s with cache := s.cache.promote n, calls := s.calls ++ [.waiting n t] } := by
        unfold LruArch.start; rw [hp]
      have e2 : s.startLog n L = .called s.calls.length n :: L := by
        unfold startLog; rw [hp]
      rw [e1, e2]
      have ho := hi.owner n t hp
      have ht : t < s.calls.length := by
        rcases ho with h | ⟨r, h⟩ | ⟨-, v, h⟩ <;> exact lt_of_get h
      have hget : (s.calls ++ [Call.waiting n t])[t]? = s.calls[t]? :=
        List.getElem?_append_left ht
      refine hi.push (n := n) rfl rfl rfl rfl .called (fun m => Or.inl (Cache.peek_promote _ _ _)) ?_ ?_ ?_
      · refine ⟨?_, ?_⟩
        · have : beforeCall s.calls.length (.called s.calls.length n :: L) = L := if_pos rfl
          rw [this]
          intro r hr
          obtain ⟨v, hv⟩ := hi.log t n r hr
          rcases ho with h | ⟨r, h⟩ | ⟨-, v, h⟩ <;> rw [hv] at h <;> cases h
        · show (s.calls ++ [Call.waiting n t])[t]? = _ ∨ _
          simp only [hget]
          rcases ho with h | h | h
          · exact Or.inl h
          · exact Or.inr (Or.inl h)
          · exact Or.inr (Or.inr (Or.inr h))
      · intro u m r h
        rcases List.mem_cons.mp h with h | h
        · cases h
        · exact Or.inl h
      · intro u m h
        rcases List.mem_cons.mp h with h | h
        · cases h; exact Or.inr rfl
        · exact Or.inl h

/-- The call of an entry that is being resolved is about that layer. -/
theorem Inv.mine {cancels : Bool} {s : LruArch} {L : List LruEvent} (hi : Inv cancels s L)
    {t : Nat} {n : LayerName} (h : s.calls[t]? = some (.looking n) ∨
      (∃ r, s.calls[t]? = some (.found n r)) ∨ ∃ v, s.calls[t]? = some (.cancelled n v)) :
    ∀ m, s.cache.peek m = some (.resolving t) → m = n := by
  intro m hm
  rcases hi.owner m t hm with h1 | ⟨r1, h1⟩ | ⟨-, v1, h1⟩ <;>
    rcases h with h | ⟨r, h⟩ | ⟨v, h⟩ <;> rw [h1] at h <;> cases h <;> rfl

/-- Calls that wait for one that is at work wait for the same layer. -/
theorem Inv.same {cancels : Bool} {s : LruArch} {L : List LruEvent} (hi : Inv cancels s L)
    {t u : Nat} {n m : LayerName} (h : s.calls[t]? = some (.looking n) ∨
      (∃ r, s.calls[t]? = some (.found n r))) (hu : s.calls[u]? = some (.waiting m t)) : m = n := by
  rcases (hi.calls u _ hu).2 with h1 | ⟨r1, h1⟩ | ⟨r1, v1, h1⟩ | ⟨-, v1, h1⟩ <;>
    rcases h with h | ⟨r, h⟩ <;> rw [h1] at h <;> cases h <;> rfl

theorem Inv.look {cancels : Bool} {s : LruArch} {L : List LruEvent} (hi : Inv cancels s L)
    {t : Nat} {n : LayerName} (h : s.calls[t]? = some (.looking n)) :
    Inv cancels (s.look t n) (s.lookLog t n L) := by
  have hp : s.cache.peek n = some (.resolving t) := hi.calls t _ h
  have hg : Grows s.calls.length L (s.lookLog t n L) := by
    unfold lookLog; split
    · exact .missed
    · exact .torn
    · exact .refl _ _
  have hmem : ∀ e, (∀ t n, e ≠ .missed t n) → (∀ t n, e ≠ .torn t n) → e ∈ s.lookLog t n L → e ∈ L := by
    intro e he he' hm
    unfold lookLog at hm
    split at hm
    · rcases List.mem_cons.mp hm with h | h
      · exact absurd h (he t n)
      · exact h
    · rcases List.mem_cons.mp hm with h | h
      · exact absurd h (he' t n)
      · exact h
    · exact hm
  refine hi.change (n := n) h rfl rfl rfl rfl hg (fun m _ => rfl) (fun b hb => hi.right n b hb) (fun u h => h)
    (hi.mine (Or.inl h)) (Or.inl rfl) (fun _ => Or.inr (Or.inl ⟨_, rfl⟩)) ?_ ?_ ?_ ?_
  · intro u m hu
    rw [hi.same (Or.inl h) hu]
    exact Or.inr (Or.inl ⟨_, rfl⟩)
  · refine ⟨hp, ?_⟩
    unfold Val Good lookLog ArchDir.getLayerBytes ArchDir.open
    cases hf : s.disk.file n with
    | none => exact Or.inr ⟨rfl, List.mem_cons_self⟩
    | some b =>
      refine Or.inl ⟨b, rfl, b, hf, List.prefix_refl b, fun ht => ⟨rfl, ?_⟩⟩
      cases hw : s.writing.lookup n with
      | none => exact hw
      | some x =>
        rw [hw] at ht
        exact absurd List.mem_cons_self (ht t)
  · intro u m r hr
    left
    have hr := hmem _ (by intro t n h; cases h) (by intro t n h; cases h) hr
    refine ⟨hr, fun e => ?_⟩
    obtain ⟨v, hv⟩ := hi.log u m r hr
    rw [e, h] at hv; cases hv
  · intro u m hm
    exact hmem _ (by intro t n h; cases h) (by intro t n h; cases h) hm

/-- What the last part does. -/
theorem Inv.finish_eq {cancels : Bool} {s : LruArch} {L : List LruEvent} (hi : Inv cancels s L)
    {t : Nat} {n : LayerName} {r : Out Bytes} (h : s.calls[t]? = some (.found n r)) :
    ∃ c, s.finish t n r = { s with cache := c, calls := s.calls.set t (.done n r (some r)) } ∧
      (c = s.cache.without n ∨ ∃ b, r = .ok b ∧ c = s.cache.setMut n (.resolved b)) := by
  obtain ⟨hp, hv⟩ := hi.calls t _ h
  have hd := Cache.drop_eq hp
  rcases hv with ⟨b, rfl, hb⟩ | ⟨rfl, hm⟩
  · unfold finish
    simp only
    rw [hi.current, Cache.ensureEnough_zero]
    by_cases hl : s.limit < b.length
    · rw [if_pos hl]
      simp only [hd]
      exact ⟨_, rfl, Or.inl rfl⟩
    · rw [if_neg hl]
      simp only [hp]
      exact ⟨_, rfl, Or.inr ⟨b, rfl, rfl⟩⟩
  · unfold finish
    simp only [hd]
    exact ⟨_, rfl, Or.inl rfl⟩

theorem Inv.finish {cancels : Bool} {s : LruArch} {L : List LruEvent} (hi : Inv cancels s L)
    {t : Nat} {n : LayerName} {r : Out Bytes} (h : s.calls[t]? = some (.found n r)) :
    (s.finish t n r).resultOf t = r ∧ Inv cancels (s.finish t n r) (.returned t n r :: L) := by
  obtain ⟨hp, hv⟩ := hi.calls t _ h
  obtain ⟨c, e, hc⟩ := hi.finish_eq h
  rw [e]
  have hpeek : ∀ m, m ≠ n → c.peek m = s.cache.peek m := by
    intro m hm
    rcases hc with rfl | ⟨b, -, rfl⟩
    · rw [Cache.peek_without, if_neg hm]
    · rw [Cache.peek_setMut, if_neg hm]
  have hpn : c.peek n = none ∨ ∃ b, r = .ok b ∧ c.peek n = some (.resolved b) := by
    rcases hc with rfl | ⟨b, hr, rfl⟩
    · left; rw [Cache.peek_without, if_pos rfl]
    · right; exact ⟨b, hr, by rw [Cache.peek_setMut, if_pos rfl]⟩
  refine ⟨?_, ?_⟩
  · unfold resultOf
    simp only
    rw [get_set h, if_pos rfl]
  · refine hi.change (n := n) h rfl rfl rfl rfl .returned hpeek ?_ ?_ (hi.mine (Or.inr (Or.inl ⟨r, h⟩)))
      (Or.inr hp) ?_ ?_ ?_ ?_ ?_
    · intro b hb
      rcases hpn with h1 | ⟨b', hr, h1⟩
      · rw [h1] at hb; cases hb
      · rw [h1] at hb
        cases hb
        rcases hv with ⟨b', e, hb'⟩ | ⟨e, -⟩
        · rw [hr] at e; cases e; exact hb'
        · rw [hr] at e; cases e
    · intro u hu
      rcases hpn with h1 | ⟨b', hr, h1⟩ <;> rw [h1] at hu <;> cases hu
    · intro hu
      rcases hpn with h1 | ⟨b', hr, h1⟩ <;> rw [h1] at hu <;> cases hu
    · intro u m hu
      rw [hi.same (Or.inr ⟨r, h⟩) hu]
      exact Or.inr (Or.inr (Or.inl ⟨r, r, rfl⟩))
    · have hv' : Val s (.returned t n r :: L) t n r := hv.grow (k := 0) .returned (.same (k := 0) .returned rfl rfl)
      refine ⟨?_, ?_, ?_, ?_⟩
      · rintro rfl
        rcases hv with ⟨b', e, -⟩ | ⟨e, -⟩ <;> cases e
      · rintro b rfl
        rcases hv with ⟨b', e, h⟩ | ⟨e, -⟩
        · cases e; exact DiskGrows.same (k := 0) .returned rfl rfl n _ h
        · cases e
      · rintro rfl
        rcases hv with ⟨b', e, h⟩ | ⟨-, hm⟩
        · cases e
        · refine ⟨t, List.mem_cons_of_mem _ hm, fun r' hr' => ?_⟩
          have hr'' : .returned t n r' ∈ L := by
            have : ∀ L, ∀ e ∈ beforeCall t L, e ∈ L := by
              intro L
              induction L with
              | nil => intro e he; cases he
              | cons x L ih =>
                intro e he
                cases x with
                | called t' n' =>
                  replace he : e ∈ if t' = t then L else beforeCall t L := he
                  split at he
                  · exact List.mem_cons_of_mem _ he
                  · exact List.mem_cons_of_mem _ (ih e he)
                | _ => exact List.mem_cons_of_mem _ (ih e he)
            exact this L _ hr'
          obtain ⟨v, hv⟩ := hi.log t n r' hr''
          rw [h] at hv; cases hv
      · rintro x ⟨⟩; exact hv'
    · intro u m r' hr'
      rcases List.mem_cons.mp hr' with e | hr'
      · cases e; exact Or.inr ⟨rfl, _, rfl⟩
      · left
        refine ⟨hr', fun e => ?_⟩
        obtain ⟨v, hv⟩ := hi.log u m r' hr'
        rw [e, h] at hv; cases hv
    · intro u m hm
      rcases List.mem_cons.mp hm with e | hm
      · cases e
      · exact hm

theorem Inv.wake {cancels : Bool} {s : LruArch} {L : List LruEvent} (hi : Inv cancels s L)
    {t : Nat} {n : LayerName} {on : Nat} {w : Call} {v : Option (Out Bytes)}
    (h : s.calls[t]? = some (.waiting n on)) (hw : s.calls[on]? = some w)
    (hv : w.barrier = some v) :
    Inv cancels (s.wake t n v) (.returned t n (woken v) :: L) := by
  obtain ⟨hb, hon⟩ := hi.calls t _ h
  have hno : ∀ m, s.cache.peek m ≠ some (.resolving t) := by
    intro m hm
    rcases hi.owner m t hm with h1 | ⟨r1, h1⟩ | ⟨-, v1, h1⟩ <;> rw [h] at h1 <;> cases h1
  have hval : (∃ x, v = some x ∧ Val s L on n x) ∨ (cancels = true ∧ v = none) := by
    have hok := hi.calls on w hw
    rw [hw] at hon
    rcases hon with e | ⟨r, e⟩ | ⟨r, v', e⟩ | ⟨hc, v', e⟩ <;> cases e <;> cases hv
    · exact Or.inl ⟨_, rfl, hok.2.2.2 _ rfl⟩
    · cases v with
      | none => exact Or.inr ⟨hc, rfl⟩
      | some x => exact Or.inl ⟨x, rfl, hok.2 x rfl⟩
  refine hi.change (n := n) h rfl rfl rfl rfl .returned (fun m _ => rfl) (fun b hb => hi.right n b hb)
    (fun u h => h) (fun m hm => absurd hm (hno m)) (Or.inl rfl) (fun hu => absurd hu (hno n)) ?_ ?_ ?_ ?_
  · intro u m hu
    rcases (hi.calls u _ hu).2 with h1 | ⟨r1, h1⟩ | ⟨r1, v1, h1⟩ | ⟨-, v1, h1⟩ <;>
      rw [h] at h1 <;> cases h1
  · refine ⟨?_, ?_, ?_, ?_⟩
    · intro hp
      rcases hval with ⟨x, rfl, hx⟩ | ⟨hc, -⟩
      · rcases hx with ⟨b, rfl, -⟩ | ⟨rfl, -⟩ <;> cases hp
      · exact hc
    · intro b hp
      rcases hval with ⟨x, rfl, hx⟩ | ⟨hc, rfl⟩
      · rcases hx with ⟨b', rfl, h'⟩ | ⟨rfl, -⟩ <;> cases hp
        exact DiskGrows.same (k := 0) .returned rfl rfl n _ h'
      · cases hp
    · intro hp
      rcases hval with ⟨x, rfl, hx⟩ | ⟨hc, rfl⟩
      · rcases hx with ⟨b', rfl, h'⟩ | ⟨rfl, hm⟩
        · cases hp
        · exact ⟨on, List.mem_cons_of_mem _ hm, fun r hr => hb r hr⟩
      · cases hp
    · rintro x ⟨⟩
  · intro u m r' hr'
    rcases List.mem_cons.mp hr' with e | hr'
    · cases e; exact Or.inr ⟨rfl, _, rfl⟩
    · left
      refine ⟨hr', fun e => ?_⟩
      obtain ⟨v, hv⟩ := hi.log u m r' hr'
      rw [e, h] at hv; cases hv
  · intro u m hm
    rcases List.mem_cons.mp hm with e | hm
    · cases e
    · exact hm

theorem Inv.cancel {cancels : Bool} {s : LruArch} {L : List LruEvent} (hi : Inv cancels s L)
    {t : Nat} {n : LayerName} {c : Call} {v : Option (Out Bytes)} (hc : cancels = true)
    (h : s.calls[t]? = some c)
    (hcase : (c = .looking n ∧ v = none) ∨ (∃ r, c = .found n r ∧ v = some r) ∨
      (∃ on, c = .waiting n on ∧ v = none)) :
    Inv cancels { s with calls := s.calls.set t (.cancelled n v) } L := by
  have hmine : ∀ m, s.cache.peek m = some (.resolving t) → m = n := by
    rcases hcase with ⟨rfl, -⟩ | ⟨r, rfl, -⟩ | ⟨on, rfl, -⟩
    · exact hi.mine (Or.inl h)
    · exact hi.mine (Or.inr (Or.inl ⟨r, h⟩))
    · intro m hm
      rcases hi.owner m t hm with h1 | ⟨r1, h1⟩ | ⟨-, v1, h1⟩ <;> rw [h] at h1 <;> cases h1
  refine hi.change (n := n) h rfl rfl rfl rfl (.refl _ _) (fun m _ => rfl) (fun b hb => hi.right n b hb)
    (fun u h => h) hmine (Or.inl rfl) (fun hu => Or.inr (Or.inr ⟨hc, v, rfl⟩)) ?_ ?_ ?_ ?_
  · intro u m hu
    right; right; right
    refine ⟨hc, v, ?_⟩
    have : m = n := by
      rcases hcase with ⟨rfl, -⟩ | ⟨r, rfl, -⟩ | ⟨on, rfl, -⟩
      · exact hi.same (Or.inl h) hu
      · exact hi.same (Or.inr ⟨r, h⟩) hu
      · rcases (hi.calls u _ hu).2 with h1 | ⟨r1, h1⟩ | ⟨r1, v1, h1⟩ | ⟨-, v1, h1⟩ <;>
          rw [h] at h1 <;> cases h1
    rw [this]
  · refine ⟨hc, fun x hx => ?_⟩
    rcases hcase with ⟨rfl, rfl⟩ | ⟨r, rfl, rfl⟩ | ⟨on, rfl, rfl⟩
    · cases hx
    · cases hx; exact (hi.calls t _ h).2
    · cases hx
  · intro u m r hr
    left
    refine ⟨hr, fun e => ?_⟩
    obtain ⟨v, hv⟩ := hi.log u m r hr
    rw [e, h] at hv
    rcases hcase with ⟨rfl, -⟩ | ⟨r, rfl, -⟩ | ⟨on, rfl, -⟩ <;> cases hv
  · exact fun u m hm => hm

theorem storeLayerFile_new {d : ArchDir} {n : LayerName} (h : d.file n = none) (b : Bytes)
    (m : LayerName) : (d.storeLayerFile n b).file m = if m = n then some b else d.file m := by
  unfold ArchDir.storeLayerFile
  rw [h]
  show List.lookup m (_ :: _) = _
  rw [List.lookup_cons]
  by_cases e : m = n
  · simp [e]
  · have : (m == n) = false := by simpa using e
    rw [this, if_neg e]; rfl

theorem storeLayerFile_more {d : ArchDir} {n : LayerName} {x : Bytes} (h : d.file n = some x)
    (b : Bytes) (m : LayerName) :
    (d.storeLayerFile n (x ++ b)).file m = if m = n then some (x ++ b) else d.file m := by
  have e : d.storeLayerFile n (x ++ b) = { d with larch := (n, x ++ b) :: d.larch } := by
    unfold ArchDir.storeLayerFile
    rw [h]
    simp
  rw [e]
  show List.lookup m (_ :: _) = _
  rw [List.lookup_cons]
  by_cases e : m = n
  · simp [e]
  · have : (m == n) = false := by simpa using e
    rw [this, if_neg e]; rfl

theorem lookup_cons_filter {β : Type} (l : List (LayerName × β)) (n m : LayerName) (b : β) :
    List.lookup m ((n, b) :: l.filter (fun q => q.1 ≠ n)) = if m = n then some b else l.lookup m := by
  rw [List.lookup_cons]
  by_cases e : m = n
  · simp [e]
  · have : (m == n) = false := by simpa using e
    rw [this, if_neg e]
    show List.lookup m (l.filter _) = _
    rw [lookup_filter_ne, if_neg e]

theorem setRollup_disk {s s' : LruArch} {n r : LayerName} (h : s.setRollup n r = .ok s') :
    ∃ d, s' = { s with disk := d } ∧ ∀ m, d.file m = s.disk.file m := by
  unfold LruArch.setRollup at h
  cases hd : s.disk.setRollup n r with
  | ok d =>
    rw [hd] at h
    cases h
    refine ⟨d, rfl, fun m => ?_⟩
    unfold ArchDir.setRollup at hd
    split at hd
    · cases hd
    · cases hd; rfl
  | err => rw [hd] at h; cases h
  | panic => rw [hd] at h; cases h

/-- The files of layers that are being written are there. -/
def Open (s : LruArch) : Prop := ∀ n rest, s.writing.lookup n = some rest → s.disk.file n ≠ none

theorem Inv.step {cancels : Bool} {s s' : LruArch} {L L' : List LruEvent} (hi : Inv cancels s L)
    (ho : s.Open) (h : Step cancels s L s' L') : Inv cancels s' L' := by
  cases h with
  | start n => exact hi.start n
  | look h => exact hi.look h
  | finish h => rw [(hi.finish h).1]; exact (hi.finish h).2
  | wake h hw hv => exact hi.wake h hw hv
  | @storeOpen _ n b h =>
    refine hi.grow rfl rfl ?_ .began (fun m => Or.inl rfl) (fun u m r h => by simpa using h)
      (fun u m h => by simpa using h)
    rintro m x ⟨y, h1, h2, h3⟩
    replace h3 := fun ht : ∀ t, .torn t m ∉ .began n b :: L =>
      h3 (fun t hm => ht t (List.mem_cons_of_mem _ hm))
    have e : m ≠ n := by
      rintro rfl
      rw [h] at h1
      cases h1
    refine ⟨y, ?_, h2, fun ht => ⟨(h3 ht).1, ?_⟩⟩
    · show (ArchDir.storeLayerFile _ _ _).file m = _
      rw [storeLayerFile_new h, if_neg e]
      exact h1
    · show List.lookup m ((n, b) :: s.writing) = none
      have : (m == n) = false := by simpa using e
      rw [List.lookup_cons, this]
      exact (h3 ht).2
  | @storeWrite _ n rest k h hr =>
    refine hi.grow rfl rfl ?_ (.refl _ _) (fun m => Or.inl rfl) (fun _ _ _ h => h) (fun _ _ h => h)
    obtain ⟨x, hx⟩ := Option.ne_none_iff_exists'.1 (ho n rest h)
    rintro m y ⟨z, h1, h2, h3⟩
    have hf : ∀ m, (s.storeWrite n rest k).disk.file m =
        if m = n then some (x ++ rest.take (k + 1)) else s.disk.file m := by
      intro m
      show (s.disk.storeLayerFile n ((s.disk.file n).getD [] ++ rest.take (k + 1))).file m = _
      rw [hx]
      exact storeLayerFile_more hx _ m
    by_cases e : m = n
    · subst e
      rw [hx] at h1
      cases h1
      refine ⟨x ++ rest.take (k + 1), by rw [hf, if_pos rfl], h2.trans (List.prefix_append _ _),
        fun ht => ?_⟩
      have := (h3 ht).2
      rw [h] at this
      cases this
    · refine ⟨z, by rw [hf, if_neg e]; exact h1, h2, fun ht => ⟨(h3 ht).1, ?_⟩⟩
      show List.lookup m ((n, _) :: s.writing.filter _) = none
      rw [lookup_cons_filter, if_neg e]
      exact (h3 ht).2
  | @storeEnd _ n b h hb =>
    refine hi.grow rfl rfl ?_ .stored (fun m => Or.inl rfl) ?_ ?_
    · rintro m y ⟨z, h1, h2, h3⟩
      refine ⟨z, h1, h2, fun ht => ?_⟩
      obtain ⟨g1, g2⟩ := h3 (fun t hm => ht t (List.mem_cons_of_mem _ hm))
      refine ⟨g1, ?_⟩
      show List.lookup m (s.writing.filter _) = none
      rw [lookup_filter_ne]
      split
      · rfl
      · exact g2
    · intro u m r hr
      rcases List.mem_cons.mp hr with e | hr
      · cases e
      · exact hr
    · intro u m hr
      rcases List.mem_cons.mp hr with e | hr
      · cases e
      · exact hr
  | @storeCache _ n b h hw =>
    refine hi.grow rfl rfl (.same (k := 0) (.refl _ _) rfl rfl) (.refl _ _) (fun m => ?_)
      (fun _ _ _ h => h) (fun _ _ h => h)
    show (s.cache.getOrInsert n _).peek m = _ ∨ _
    by_cases e : m = n
    · subst e
      cases hp : s.cache.peek m with
      | some x => left; rw [Cache.peek_getOrInsert, if_pos rfl, hp]; rfl
      | none =>
        right
        refine ⟨rfl, b, ?_, b, h, List.prefix_refl b, fun _ => ⟨rfl, hw⟩⟩
        show (s.cache.getOrInsert m _).peek m = _
        rw [Cache.peek_getOrInsert, if_pos rfl, hp]; rfl
    · left; rw [Cache.peek_getOrInsert, if_neg e]
  | setRollup h =>
    obtain ⟨d, rfl, hd⟩ := setRollup_disk h
    refine hi.grow rfl rfl ?_ (.refl _ _) (fun m => Or.inl rfl)
      (fun _ _ _ h => h) (fun _ _ h => h)
    rintro m y ⟨z, h1, h2⟩
    exact ⟨z, by rw [← h1]; exact hd m, h2⟩
  | cancelLooking hc h => exact hi.cancel hc h (Or.inl ⟨rfl, rfl⟩)
  | cancelFound hc h => exact hi.cancel hc h (Or.inr (Or.inl ⟨_, rfl, rfl⟩))
  | cancelWaiting hc h => exact hi.cancel hc h (Or.inr (Or.inr ⟨_, rfl, rfl⟩))

/-- What a step does to the files, with what is being written and what is noted. -/
theorem Inv.step_disk {cancels : Bool} {s s' : LruArch} {L L' : List LruEvent} (hi : Inv cancels s L)
    (ho : s.Open) (h : Step cancels s L s' L') :
    ((∀ m, s'.disk.file m = s.disk.file m) ∧ s'.writing = s.writing ∧
      (∀ m b, .stored m b ∈ L' ↔ .stored m b ∈ L)) ∨
    (∃ n b, s.disk.file n = none ∧ L' = .began n b :: L ∧ s'.writing = (n, b) :: s.writing ∧
      ∀ m, s'.disk.file m = if m = n then some [] else s.disk.file m) ∨
    (∃ n x rest k, s.writing.lookup n = some rest ∧ s.disk.file n = some x ∧ L' = L ∧
      s'.writing = (n, rest.drop (k + 1)) :: s.writing.filter (fun q => q.1 ≠ n) ∧
      ∀ m, s'.disk.file m = if m = n then some (x ++ rest.take (k + 1)) else s.disk.file m) ∨
    ∃ n b, s.disk.file n = some b ∧ L' = .stored n b :: L ∧
      s.writing.lookup n = some [] ∧
      s'.writing = s.writing.filter (fun q => q.1 ≠ n) ∧ s'.disk = s.disk := by
  cases h with
  | start m =>
    left
    refine ⟨fun k => ?_, ?_, ?_⟩
    · unfold LruArch.start; split <;> rfl
    · unfold LruArch.start; split <;> rfl
    · intro k b; unfold startLog; split <;> simp
  | look h =>
    left
    refine ⟨fun k => rfl, rfl, ?_⟩
    intro k b; unfold lookLog; split <;> simp
  | finish hc =>
    left
    obtain ⟨c, e, -⟩ := hi.finish_eq hc
    rw [e]
    exact ⟨fun _ => rfl, rfl, fun m b => by simp⟩
  | wake _ _ _ => exact Or.inl ⟨fun _ => rfl, rfl, fun m b => by simp⟩
  | @storeOpen _ n b h =>
    exact Or.inr (Or.inl ⟨n, b, h, rfl, rfl, fun m => storeLayerFile_new h [] m⟩)
  | @storeWrite _ n rest k h hr =>
    obtain ⟨x, hx⟩ := Option.ne_none_iff_exists'.1 (ho n rest h)
    refine Or.inr (Or.inr (Or.inl ⟨n, x, rest, k, h, hx, rfl, rfl, fun m => ?_⟩))
    show (s.disk.storeLayerFile n ((s.disk.file n).getD [] ++ rest.take (k + 1))).file m = _
    rw [hx]
    exact storeLayerFile_more hx _ m
  | @storeEnd _ n b h hb => exact Or.inr (Or.inr (Or.inr ⟨n, b, hb, rfl, h, rfl, rfl⟩))
  | storeCache _ _ => exact Or.inl ⟨fun _ => rfl, rfl, fun m b => Iff.rfl⟩
  | setRollup h =>
    obtain ⟨d, rfl, hd⟩ := setRollup_disk h
    exact Or.inl ⟨hd, rfl, fun m b => Iff.rfl⟩
  | cancelLooking _ _ => exact Or.inl ⟨fun _ => rfl, rfl, fun m b => Iff.rfl⟩
  | cancelFound _ _ => exact Or.inl ⟨fun _ => rfl, rfl, fun m b => Iff.rfl⟩
  | cancelWaiting _ _ => exact Or.inl ⟨fun _ => rfl, rfl, fun m b => Iff.rfl⟩

theorem Inv.step_open {cancels : Bool} {s s' : LruArch} {L L' : List LruEvent} (hi : Inv cancels s L)
    (ho : s.Open) (h : Step cancels s L s' L') : s'.Open := by
  intro m r hm
  rcases hi.step_disk ho h with ⟨h1, h2, -⟩ | ⟨n, b, h1, -, h3, h4⟩ | ⟨n, x, rest, k, h1, h2, -, h3, h4⟩ |
    ⟨n, b, h1, -, -, h3, h4⟩
  · rw [h1]
    rw [h2] at hm
    exact ho m r hm
  · rw [h4]
    split
    · exact fun h => by cases h
    · rename_i e
      rw [h3, List.lookup_cons] at hm
      have : (m == n) = false := by simpa using e
      rw [this] at hm
      exact ho m r hm
  · rw [h4]
    split
    · exact fun h => by cases h
    · rename_i e
      rw [h3, lookup_cons_filter, if_neg e] at hm
      exact ho m r hm
  · rw [h4]
    rw [h3, lookup_filter_ne] at hm
    split at hm
    · cases hm
    · exact ho m r hm

theorem Run.inv_open {cancels : Bool} {disk : ArchDir} {limit : Nat} {s : LruArch} {L : List LruEvent}
    (h : Run cancels disk limit s L) : Inv cancels s L ∧ s.Open := by
  induction h with
  | start =>
    exact ⟨⟨rfl, fun n b h => (by cases h), fun n t h => (by cases h), fun t c h => (by simp at h),
      fun t n r h => (by cases h), fun t n h => (by cases h)⟩, fun n r h => (by cases h)⟩
  | step _ hs ih => exact ⟨ih.1.step ih.2 hs, ih.1.step_open ih.2 hs⟩

theorem Run.inv {cancels : Bool} {disk : ArchDir} {limit : Nat} {s : LruArch} {L : List LruEvent}
    (h : Run cancels disk limit s L) : Inv cancels s L := h.inv_open.1

end LruArch

end Verif
