import Verif.Model.Shared
import Verif.Lemmas.ConcLoad

/-!
What several processes do at the same time on one directory could be done by the tasks of one
process: between any two steps its cache changes from that of one process to that of another,
since cached layers vanish and loaded layers are cached at any time.
-/

set_option linter.unusedSectionVars false

namespace Verif.Conc

open Spec SimpleBuilder Store Api

variable {K V L : Type} [LinearOrder K] [LinearOrder V] [DecidableEq L] {N : Nat}

/-! ### Changing the cache of one process -/

/-- The cache was filled with these layers. -/
def Filled (ls : List (InternalLayer K V)) (c : Cache K V) : Prop :=
  ∀ n l, c n = some l → l ∈ ls ∧ l.name = n

theorem foldl_insert_other {n : Name} : ∀ (ls : List (InternalLayer K V)) (c : Cache K V),
    (∀ l ∈ ls, l.name ≠ n) → ls.foldl Cache.insert c n = c n
  | [], _, _ => rfl
  | l :: ls, c, h => by
    rw [List.foldl_cons, foldl_insert_other ls _ fun x hx => h x (List.mem_cons_of_mem _ hx)]
    exact if_neg fun e => h l (List.mem_cons_self ..) e.symm

theorem foldl_insert_some {n : Name} {l : InternalLayer K V} : ∀ (ls : List (InternalLayer K V))
    (c : Cache K V), (∀ x ∈ ls, x.name = n → x = l) → l ∈ ls → l.name = n →
    ls.foldl Cache.insert c n = some l
  | [], _, _, h, _ => by cases h
  | x :: ls, c, h, hl, hn => by
    rw [List.foldl_cons]
    by_cases hin : l ∈ ls
    · exact foldl_insert_some ls _ (fun y hy => h y (List.mem_cons_of_mem _ hy)) hin hn
    · rcases List.mem_cons.1 hl with rfl | hl
      · rw [foldl_insert_other ls _ fun y hy e => hin (h y (List.mem_cons_of_mem _ hy) e ▸ hy)]
        exact if_pos hn.symm
      · exact absurd hl hin

open Classical in
/-- A cache that was filled can be filled again. -/
theorem Filled.refill {ls : List (InternalLayer K V)} {c : Cache K V} (h : Filled ls c) :
    ∃ xs : List (InternalLayer K V), (∀ x ∈ xs, x ∈ ls) ∧ xs.foldl Cache.insert noCache = c := by
  refine ⟨ls.filter fun l => c l.name = some l, fun x hx => (List.mem_filter.1 hx).1, ?_⟩
  funext n
  cases hc : c n with
  | none =>
    refine foldl_insert_other _ _ ?_
    rintro l hl rfl
    have := (List.mem_filter.1 hl).2
    simp [hc] at this
  | some l =>
    obtain ⟨h1, h2⟩ := h n l hc
    refine foldl_insert_some _ _ ?_ (List.mem_filter.2 ⟨h1, by simp [h2, hc]⟩) h2
    rintro x hx rfl
    have := (List.mem_filter.1 hx).2
    simp [hc] at this
    exact this.symm

/-- The same with another cache, and what was seen meanwhile. -/
def Shop.turned (M : Shop K V L) (c : Cache K V) (vs : List (View K V)) : Shop K V L :=
  { M with session := { M.session with cache := c }, seen := vs ++ M.seen }

theorem Runs.append {M M' M'' : Shop K V L} {evs evs' : List (Conc.Event K V L)}
    (h : Runs M evs M') (h' : Runs M' evs' M'') : Runs M (evs ++ evs') M'' := by
  induction h with
  | nil => exact h'
  | cons h1 _ ih => rw [List.append_assoc]; exact .cons h1 (ih h')

theorem Runs.fill : ∀ (xs : List (InternalLayer K V)) (M : Shop K V L), (∀ x ∈ xs, x ∈ M.loaded) →
    M.seen.head? = some ⟨M.session.store, M.session.cache⟩ →
    ∃ vs, Runs M [] (M.turned (xs.foldl Cache.insert M.session.cache) vs) ∧
      (vs ++ M.seen).head? = some ⟨M.session.store, xs.foldl Cache.insert M.session.cache⟩
  | [], M, _, h => ⟨[], .nil, h⟩
  | x :: xs, M, h, _ => by
    obtain ⟨vs, h1, h2⟩ := Runs.fill xs
      ({ M with session := { M.session with cache := M.session.cache.insert x } }.seeing)
      (fun y hy => h y (List.mem_cons_of_mem _ hy)) rfl
    refine ⟨vs ++ [⟨M.session.store, M.session.cache.insert x⟩], ?_, ?_⟩
    · have := Runs.cons (.cache (M := M) (h x (List.mem_cons_self ..))) h1
      simpa [Shop.turned, Shop.seeing] using this
    · simpa [Shop.seeing] using h2

/-- The cache of a process may become any that can be filled with what was loaded. -/
theorem Runs.turnTo {M : Shop K V L} {c : Cache K V} (h : Filled M.loaded c) :
    ∃ vs, Runs M [] (M.turned c (⟨M.session.store, c⟩ :: vs)) := by
  obtain ⟨xs, h1, h2⟩ := h.refill
  have step : Next M none ({ M with session := { M.session with cache := noCache } }.seeing) :=
    .evict (c := noCache) fun n l h => by cases h
  obtain ⟨vs, h3, h4⟩ := Runs.fill xs
    ({ M with session := { M.session with cache := noCache } }.seeing) h1 rfl
  have h3' := Runs.cons step h3
  have e : (xs.foldl Cache.insert noCache) = c := h2
  simp only [Shop.seeing] at h3' h4
  rw [e] at h3' h4
  cases vs with
  | nil =>
    simp only [List.nil_append, List.head?_cons, Option.some.injEq] at h4
    have : noCache = c := congrArg View.cache h4
    subst this
    exact ⟨[], by simpa [Shop.turned] using h3'⟩
  | cons v vs =>
    simp only [List.cons_append, List.head?_cons, Option.some.injEq] at h4
    subst h4
    exact ⟨vs ++ [⟨M.session.store, noCache⟩], by simpa [Shop.turned] using h3'⟩

/-- The cache becomes that of one process after the other. -/
theorem Runs.around {M : Shop K V L} (cs : List (Cache K V)) : (∀ c ∈ cs, Filled M.loaded c) →
    ∃ c vs, Runs M [] (M.turned c vs) ∧ ∀ c ∈ cs, (⟨M.session.store, c⟩ : View K V) ∈ vs := by
  induction cs with
  | nil => intro _; exact ⟨M.session.cache, [], .nil, by simp⟩
  | cons c cs ih =>
    intro h
    obtain ⟨c', vs, h1, h2⟩ := ih fun x hx => h x (List.mem_cons_of_mem _ hx)
    obtain ⟨vs', h3⟩ := Runs.turnTo (M := M.turned c' vs) (h c (List.mem_cons_self ..))
    refine ⟨c, (⟨M.session.store, c⟩ :: vs') ++ vs, ?_, ?_⟩
    · have := h1.append h3
      simpa [Shop.turned] using this
    · intro x hx
      rcases List.mem_cons.1 hx with rfl | hx
      · simp
      · exact List.mem_append_right _ (h2 x hx)

/-! ### Several processes and one -/

/-- What one process saw since the moment `k` is among what the other saw since `k'`, and the first
moment is the same. -/
def Covered (as bs : List (View K V)) (k k' : Nat) : Prop :=
  ∃ a v c b d, as = a ++ v :: c ∧ c.length + 1 = k ∧ bs = b ++ v :: d ∧ d.length + 1 = k' ∧
    a.Sublist b

theorem Covered.now {v : View K V} {as bs : List (View K V)} :
    Covered (v :: as) (v :: bs) (as.length + 1) (bs.length + 1) :=
  ⟨[], v, as, [], bs, rfl, rfl, rfl, rfl, .slnil⟩

theorem Covered.more {as bs : List (View K V)} {k k' : Nat} (h : Covered as bs k k')
    {as' bs' : List (View K V)} (hs : as'.Sublist bs') : Covered (as' ++ as) (bs' ++ bs) k k' := by
  obtain ⟨a, v, c, b, d, rfl, h2, rfl, h4, h5⟩ := h
  exact ⟨as' ++ a, v, c, bs' ++ b, d, by simp, h2, by simp, h4, hs.append h5⟩

/-- The rounds of a search are moments that the other saw as well. -/
theorem Covered.rounds {as bs : List (View K V)} {k k' : Nat} (h : Covered as bs k k')
    {v : Nat → View K V} {i : Nat → Nat} (h0 : i 0 + k = as.length) (hi : ∀ t, i (t + 1) ≤ i t)
    (hv : ∀ t, as[i t]? = some (v t)) :
    ∃ j : Nat → Nat, j 0 + k' = bs.length ∧ (∀ t, j (t + 1) ≤ j t) ∧ ∀ t, bs[j t]? = some (v t) := by
  obtain ⟨a, x, c, b, d, rfl, rfl, rfl, rfl, hs⟩ := h
  have i0 : i 0 = a.length := by simp at h0; omega
  have le : ∀ t, i t ≤ a.length := by
    intro t
    induction t with
    | zero => omega
    | succ t ih => exact Nat.le_trans (hi t) ih
  obtain ⟨f, f1, f2⟩ := sublist_index hs
  have lt : ∀ m, m < a.length → f m < b.length := by
    intro m hm
    have := f2 m _ (List.getElem?_eq_getElem hm)
    exact (List.getElem?_eq_some_iff.1 this).1
  refine ⟨fun t => if i t < a.length then f (i t) else b.length, ?_, ?_, ?_⟩
  · simp [i0]
  · intro t
    dsimp only
    by_cases h2 : i t < a.length
    · rw [if_pos h2, if_pos (Nat.lt_of_le_of_lt (hi t) h2)]
      exact f1 _ _ (hi t)
    · rw [if_neg h2]
      split
      · rename_i h3; exact Nat.le_of_lt (lt _ h3)
      · exact Nat.le_refl _
  · intro t
    dsimp only
    by_cases h2 : i t < a.length
    · rw [if_pos h2, List.getElem?_append_left (lt _ h2)]
      have := hv t
      rw [List.getElem?_append_left h2] at this
      exact f2 _ _ this
    · have e : i t = a.length := Nat.le_antisymm (le t) (Nat.le_of_not_lt h2)
      rw [if_neg h2]
      have := hv t
      rw [e] at this
      simpa using this

/-- A call of a process and of the one process that stands for all are at the same stage. -/
inductive Alike (as bs : List (View K V)) : Option (Stage K V L) → Option (Stage K V L) → Prop
  | search {g n k k'} : Covered as bs k k' → Alike as bs (some (.search g n k)) (some (.search g n k'))
  | same {st} : (∀ g n k, st ≠ some (.search g n k)) → Alike as bs st st

theorem Alike.more {as bs : List (View K V)} {x y : Option (Stage K V L)} (h : Alike as bs x y)
    {as' bs' : List (View K V)} (hs : as'.Sublist bs') : Alike (as' ++ as) (bs' ++ bs) x y := by
  cases h with
  | search h => exact .search (h.more hs)
  | same h => exact .same h

/-- The one process stands for all. -/
structure Stands (proc : Nat → Fin N) (S : Shared N K V L) (M : Shop K V L) : Prop where
  session : { M.session with cache := noCache } = { S.session with cache := noCache }
  loaded : ∀ p, ∀ l ∈ S.loaded p, l ∈ M.loaded
  filled : ∀ p, Filled (S.loaded p) (S.caches p)
  top : ∃ rest, S.seen = (fun p => ⟨S.session.store, S.caches p⟩) :: rest
  calls : ∀ t, Alike (S.seen.map (· (proc t))) M.seen (S.calls t) (M.calls t)

/-- The call is not searching for a layer. -/
def Stage.still : Stage K V L → Prop
  | .search _ _ _ => False
  | _ => True

theorem Stage.still.ne {st : Stage K V L} (h : st.still) : ∀ g n k, st ≠ .search g n k := by
  rintro g n k rfl
  exact h

theorem land_still {g : Goal K V L} {l : InternalLayer K V} : (land g l).still := by
  cases g <;> trivial

theorem ends_still {g : Goal K V L} {o : Out (Option (InternalLayer K V) × List (InternalLayer K V))} :
    (ends g o).1.still := by
  unfold ends
  split
  · exact land_still
  all_goals trivial

theorem planned_still {next : Plan K V → Stage K V L} (h : ∀ pl, (next pl).still) {o : Out (Plan K V)} :
    (planned next o).still := by
  cases o
  · exact h _
  all_goals trivial

theorem withLayer_still {s : Session K V L} {i : Nat} {k : InternalLayer K V → Stage K V L}
    (h : ∀ l, (k l).still) : (withLayer s i k).still := by
  unfold withLayer
  split
  · exact h _
  · trivial

theorem reading_still {s : Session K V L} {l : L} {k : LabelData Name → Stage K V L}
    (h : ∀ d, (k d).still) : (reading s l k).still := by
  unfold reading
  split
  · exact h _
  · trivial

theorem applies_still {ch : Choice K V L} {b : Nat} {strict : Bool} {o : Out (List (Op K V))} :
    (applies ch b strict o).still := by
  cases o <;> trivial

theorem taking_still {s : Session K V L} {b : Nat} {load : Bool} : (taking s b load).1.still := by
  unfold taking
  split
  · trivial
  · split <;> trivial

theorem continues_still {s : Session K V L} {ch : Choice K V L} {c : Req K V L}
    {l : InternalLayer K V} : (continues s ch c l).1.still := by
  cases c <;> first
    | trivial
    | (refine planned_still ?_; intro _; trivial)
    | (refine withLayer_still ?_; intro _; refine planned_still ?_; intro _; trivial)
    | skip
  unfold continues
  dsimp only
  split <;> trivial

/-- The first step of a call that does not look for a layer. -/
theorem begins_still {M M' : Shop K V L} (hs : M'.session = M.session) {ch : Choice K V L}
    {c : Req K V L} (hc : ∀ n, c ≠ .getLayer n) :
    begins M' ch c = begins M ch c ∧ (begins M ch c).1.still := by
  constructor
  · unfold begins
    rw [hs]
    cases c <;> first | rfl | skip
    exact absurd rfl (hc _)
  · cases c <;> first
      | exact absurd rfl (hc _)
      | trivial
      | exact taking_still
      | (refine planned_still ?_; intro _; trivial)
      | exact withLayer_still fun _ => trivial
      | exact withLayer_still fun _ => withLayer_still fun _ => trivial
      | skip
    case head =>
      refine reading_still fun d => ?_
      split <;> trivial
    case setHead =>
      refine withLayer_still fun _ => reading_still fun d => ?_
      split <;> trivial
    case forceSetHead => exact withLayer_still fun _ => reading_still fun d => trivial
    case forceSetHeadVersion =>
      refine withLayer_still fun _ => reading_still fun d => ?_
      split <;> trivial
    case parent =>
      refine withLayer_still fun x => ?_
      split <;> trivial
    case applyDelta =>
      unfold begins
      dsimp only
      split
      · trivial
      · exact withLayer_still fun _ => applies_still
    case applyDiff =>
      unfold begins
      dsimp only
      split
      · trivial
      · exact withLayer_still fun _ => applies_still

/-- Two stores with the same session look alike. -/
theorem look_alike {M M' : Shop K V L} (hs : M'.session = M.session) (g : Goal K V L) (n : Name)
    (missing : Ans K V L) :
    (look M g n missing = .search g n M.seen.length ∧ look M' g n missing = .search g n M'.seen.length) ∨
    (look M' g n missing = look M g n missing ∧ (look M g n missing).still) := by
  unfold look
  rw [hs]
  split
  · exact .inr ⟨rfl, land_still⟩
  · split
    · exact .inl ⟨rfl, rfl⟩
    · exact .inr ⟨rfl, trivial⟩

/-- Two calls at the same stage in two stores with the same session make the same step. -/
theorem advance_alike {M M' : Shop K V L} (hs : M'.session = M.session) {ch : CChoice K V L}
    {st st' : Stage K V L} {as bs : List (View K V)} (ha : Alike as bs (some st) (some st')) :
    (advance M' ch st').2 = (advance M ch st).2 ∧
    ((∃ g n, (advance M ch st).1 = .search g n M.seen.length ∧
        (advance M' ch st').1 = .search g n M'.seen.length) ∨
      ((advance M' ch st').1 = (advance M ch st).1 ∧ (advance M ch st).1.still)) := by
  cases ha with
  | search =>
    simp only [advance, hs]
    exact ⟨trivial, .inr ⟨trivial, ends_still⟩⟩
  | same =>
    cases st with
    | start c =>
      by_cases hc : ∃ n, c = .getLayer n
      · obtain ⟨n, rfl⟩ := hc
        simp only [advance, begins, hs, true_and]
        rcases look_alike hs (.answer (.layer 0)) n .absent with h | h
        · exact .inl ⟨_, _, h⟩
        · exact .inr h
      · obtain ⟨h1, h2⟩ := begins_still hs (ch := ch.base) (c := c) fun n e => hc ⟨n, e⟩
        simp only [advance, h1, true_and]
        exact .inr h2
    | fetch g n missing =>
      simp only [advance, hs, true_and]
      rcases look_alike hs g n missing with h | h
      · exact .inl ⟨_, _, h⟩
      · exact .inr h
    | search g n k => rename_i h; exact absurd rfl (h g n k)
    | holds c l =>
      simp only [advance, hs, true_and]
      refine .inr ?_
      split
      · trivial
      · exact continues_still
    | reading c l =>
      simp only [advance, hs, true_and]
      refine .inr ?_
      split
      · trivial
      · exact continues_still
    | asking c l n d =>
      simp only [advance, hs, true_and]
      refine .inr ?_
      split
      · trivial
      · split <;> trivial
    | setting c l n d =>
      simp only [advance, hs, true_and]
      refine .inr ?_
      unfold sets
      dsimp only
      split <;> trivial
    | writing c pl =>
      simp only [advance, hs, true_and]
      refine .inr ?_
      split <;> trivial
    | rolling => simp only [advance, hs, true_and]; exact .inr trivial
    | written => simp only [advance, hs, true_and]; exact .inr trivial
    | invalidating => simp only [advance, hs, true_and]; exact .inr trivial
    | taken x sb load =>
      simp only [advance, hs, true_and]
      refine .inr ?_
      split
      · trivial
      · cases load <;> trivial
    | applying b ops strict =>
      cases ops with
      | nil => simp only [advance, hs, true_and]; exact .inr trivial
      | cons op ops =>
        simp only [advance, hs, true_and]
        refine .inr ?_
        split
        · trivial
        · dsimp only
          split
          · trivial
          · trivial
          · split <;> trivial
    | done => simp only [advance, hs, true_and]; exact .inr trivial

/-- A step of a call puts nothing into the cache. -/
theorem continues_cache {s : Session K V L} {ch : Choice K V L} {c : Req K V L}
    {l : InternalLayer K V} : (continues s ch c l).2.cache = s.cache := by
  cases c <;> first | rfl | skip
  unfold continues
  dsimp only
  split <;> rfl

theorem begins_cache {M : Shop K V L} {ch : Choice K V L} {c : Req K V L} :
    (begins M ch c).2.cache = M.session.cache := by
  have layer : ∀ {i : Nat} {k : InternalLayer K V → Ans K V L × Session K V L},
      (∀ l, (k l).2.cache = M.session.cache) →
      (Session.withLayer M.session i k).2.cache = M.session.cache := by
    intro i k h
    unfold Session.withLayer
    split
    · exact h _
    · rfl
  have builder : ∀ {i : Nat} {k : HeldBuilder K V → Ans K V L × Session K V L},
      (∀ x, (k x).2.cache = M.session.cache) →
      (Session.withBuilder M.session i k).2.cache = M.session.cache := by
    intro i k h
    unfold Session.withBuilder
    split
    · exact h _
    · rfl
  have take : ∀ {b : Nat} {load : Bool},
      (taking M.session b load).2.cache = M.session.cache := by
    intro b load
    unfold taking
    split
    · rfl
    · split <;> rfl
  cases c <;> first
    | rfl
    | exact take
    | (refine layer ?_; intro _; rfl)
    | (refine builder ?_; intro _; rfl)
    | skip
  refine builder ?_
  intro x
  split <;> rfl

theorem advance_cache {M : Shop K V L} {ch : CChoice K V L} {st : Stage K V L} {n : Name}
    {l : InternalLayer K V} (h : (advance M ch st).2.1.cache n = some l) :
    M.session.cache n = some l := by
  cases st with
  | start c => simp only [advance, begins_cache] at h; exact h
  | fetch g n missing => exact h
  | search g n k => exact h
  | holds c l =>
    simp only [advance] at h
    split at h
    · exact h
    · simp only [continues_cache] at h; exact h
  | reading c l =>
    simp only [advance] at h
    split at h
    · exact h
    · simp only [continues_cache] at h; exact h
  | asking c l n d =>
    simp only [advance] at h
    split at h
    · exact h
    · split at h <;> exact h
  | setting c l n d =>
    simp only [advance, sets] at h
    split at h <;> exact h
  | writing c pl => exact h
  | rolling => exact h
  | written => exact h
  | invalidating m =>
    simp only [advance, Cache.remove] at h
    split at h
    · cases h
    · exact h
  | taken x sb load =>
    simp only [advance] at h
    split at h <;> exact h
  | applying b ops strict =>
    cases ops with
    | nil => exact h
    | cons op ops =>
      simp only [advance] at h
      split at h <;> exact h
  | done => exact h

/-! ### Each step -/

/-- The one process looks at the cache of every process. -/
theorem Stands.sees {proc : Nat → Fin N} {S : Shared N K V L} {M : Shop K V L}
    (session : { M.session with cache := noCache } = { S.session with cache := noCache })
    (loaded : ∀ p, ∀ l ∈ S.loaded p, l ∈ M.loaded)
    (filled : ∀ p, Filled (S.loaded p) (S.caches p))
    (calls : ∀ t, Alike (S.seen.map (· (proc t))) M.seen (S.calls t) (M.calls t)) :
    ∃ M', Runs M [] M' ∧ Stands proc S.seeing M' := by
  have store : M.session.store = S.session.store := by
    have := congrArg Session.store session; exact this
  obtain ⟨c, vs, h1, h2⟩ := Runs.around (M := M) ((List.finRange N).map S.caches) (by
    intro c hc
    obtain ⟨p, _, rfl⟩ := List.mem_map.1 hc
    exact fun n l h => ⟨loaded p l (filled p n l h).1, (filled p n l h).2⟩)
  refine ⟨_, h1, session, loaded, filled, ⟨_, rfl⟩, fun t => ?_⟩
  refine (calls t).more (as' := [⟨S.session.store, S.caches (proc t)⟩]) ?_
  rw [List.singleton_sublist, ← store]
  exact h2 _ (List.mem_map.2 ⟨_, List.mem_finRange _, rfl⟩)

theorem Stands.next {proc : Nat → Fin N} {S S' : Shared N K V L} {M : Shop K V L}
    {e : Option (Conc.Event K V L)} (h : Stands proc S M) (hn : Shared.Next proc S e S') :
    ∃ M', Runs M e.toList M' ∧ Stands proc S' M' := by
  have sees : ∀ {p c}, Filled (S.loaded p) c →
      ∃ M', Runs M [] M' ∧ Stands proc (S.setCache p c).seeing M' := by
    intro p c hc
    refine Stands.sees (S := S.setCache p c) h.session h.loaded ?_ h.calls
    intro q
    show Filled (S.loaded q) (if q = p then c else S.caches q)
    split
    · rename_i e; rw [e]; exact hc
    · exact h.filled q
  cases hn with
  | inv hc =>
    rename_i t c
    have ht := h.calls t
    rw [hc] at ht
    refine ⟨M.goes t (some (.start c)), .cons (rest := []) (.inv ?_) .nil, h.session, h.loaded,
      h.filled, h.top, fun u => ?_⟩
    · generalize M.calls t = o at ht
      cases ht with
      | same => rfl
    · show Alike _ _ (if u = t then _ else _) (if u = t then _ else _)
      split
      · exact .same fun _ _ _ e => by cases e
      · exact h.calls u
  | ret hc =>
    rename_i t r ls
    have ht := h.calls t
    rw [hc] at ht
    have hl : M.session.layers = S.session.layers := by
      have := congrArg Session.layers h.session; exact this
    have hM : M.calls t = some (.done r ls) := by
      generalize M.calls t = o at ht
      cases ht with
      | same => rfl
    have := Runs.cons (.ret hM) .nil
    rw [hl] at this
    refine ⟨_, this, ?_, h.loaded, h.filled, h.top, fun u => ?_⟩
    · have := congrArg (fun s : Session K V L => { s with layers := s.layers ++ ls }) h.session
      simpa [Shop.goes, Shared.goes, hl] using this
    · show Alike _ _ (if u = t then _ else _) (if u = t then _ else _)
      split
      · exact .same fun _ _ _ e => by cases e
      · exact h.calls u
  | cache hl =>
    rename_i p l
    refine sees ?_
    intro n x hx
    simp only [Cache.insert] at hx
    split at hx
    · rename_i e
      cases hx
      exact ⟨hl, e.symm⟩
    · exact h.filled p n x hx
  | evict hc => exact sees fun n l hl => h.filled _ n l (hc n l hl)
  | act hc hp =>
    rename_i t st ch
    obtain ⟨vs, h1⟩ := Runs.turnTo (M := M) (c := S.caches (proc t)) fun n l hl =>
      ⟨h.loaded _ l (h.filled _ n l hl).1, (h.filled _ n l hl).2⟩
    generalize hM1 : M.turned (S.caches (proc t))
      (⟨M.session.store, S.caches (proc t)⟩ :: vs) = M1 at h1
    have hs : M1.session = (S.shop (proc t)).session := by
      rw [← hM1]
      exact congrArg (fun s : Session K V L => { s with cache := S.caches (proc t) }) h.session
    have hst : M.session.store = S.session.store := by
      have := congrArg Session.store h.session; exact this
    have hseen : M1.seen = ⟨S.session.store, S.caches (proc t)⟩ :: (vs ++ M.seen) := by
      rw [← hM1, ← hst]; rfl
    have hcalls : M1.calls = M.calls := by rw [← hM1]; rfl
    have hloaded : M1.loaded = M.loaded := by rw [← hM1]; rfl
    have ht := h.calls t
    rw [hc] at ht
    have hst' : ∃ st', M.calls t = some st' ∧
        Alike (S.seen.map (· (proc t))) M.seen (some st) (some st') := by
      generalize M.calls t = o at ht
      cases ht with
      | search h => exact ⟨_, rfl, .search h⟩
      | same h => exact ⟨_, rfl, .same h⟩
    obtain ⟨st', hM, ha⟩ := hst'
    have step : Next M1 (some (.act t ch.base.new)) (stepped M1 t (advance M1 ch st')) := by
      refine .act (by rw [hcalls]; exact hM) ⟨?_, ?_, ?_⟩
      · rw [hs]; exact hp.base
      · rintro g n k' rfl
        cases ha with
        | same h => exact absurd rfl (h g n k')
        | search hcov =>
          rename_i k
          obtain ⟨i, i1, i2, i3⟩ := hp.views g n _ rfl
          have hcov : Covered (S.seen.map (· (proc t))) M1.seen k k' := by
            have := hcov.more (as' := []) (bs' := ⟨S.session.store, S.caches (proc t)⟩ :: vs)
              (List.nil_sublist _)
            rw [hseen]
            exact this
          exact hcov.rounds i1 i2 i3
      · rintro g n k' rfl
        rw [hs]
        cases ha with
        | same h => exact absurd rfl (h g n k')
        | search hcov => exact hp.rounds g n _ rfl
    obtain ⟨a1, a2⟩ := advance_alike hs (ch := ch) ha
    have run : Runs M [.act t ch.base.new] (stepped M1 t (advance M1 ch st')) :=
      h1.append (.cons step .nil)
    obtain ⟨M', r1, r2⟩ := Stands.sees (proc := proc)
      (S := (({ S with
        session := { (advance (S.shop (proc t)) ch st).2.1 with cache := noCache }
        loaded := fun q => if q = proc t then
          (advance (S.shop (proc t)) ch st).2.2 ++ S.loaded (proc t) else S.loaded q } :
          Shared N K V L).setCache (proc t)
        (advance (S.shop (proc t)) ch st).2.1.cache).goes t (some (advance (S.shop (proc t)) ch st).1))
      (M := stepped M1 t (advance M1 ch st')) (by
        simp only [stepped, Shop.seeing, Shop.goes, a1]
        rfl) (by
        intro q l hl
        simp only [stepped, Shop.seeing, Shop.goes, a1, hloaded, List.mem_append]
        simp only [Shared.setCache, Shared.goes] at hl
        split at hl
        · rcases List.mem_append.1 hl with hl | hl
          · exact .inl hl
          · exact .inr (h.loaded _ l hl)
        · exact .inr (h.loaded _ l hl)) (by
        intro q n l hl
        simp only [Shared.setCache, Shared.goes] at hl ⊢
        split at hl
        · rename_i e
          subst e
          obtain ⟨x1, x2⟩ := h.filled _ n l (advance_cache hl)
          rw [if_pos rfl]
          exact ⟨List.mem_append_right _ x1, x2⟩
        · rename_i e
          rw [if_neg e]
          exact h.filled q n l hl) (by
        intro u
        have hsub : (stepped M1 t (advance M1 ch st')).seen =
            ⟨(advance M1 ch st').2.1.store, (advance M1 ch st').2.1.cache⟩ :: M1.seen := rfl
        rw [hsub]
        show Alike _ _ (if u = t then _ else S.calls u) (if u = t then _ else M1.calls u)
        by_cases hu : u = t
        · subst hu
          rw [if_pos rfl, if_pos rfl]
          rcases a2 with ⟨g, n, e1, e2⟩ | ⟨e1, e2⟩
          · rw [e1, e2]
            refine .search ?_
            obtain ⟨rest, hrest⟩ := h.top
            have hlen : (S.shop (proc u)).seen.length = (rest.map (· (proc u))).length + 1 := by
              show (S.seen.map (· (proc u))).length = _
              rw [hrest]; simp
            rw [hlen, hseen]
            show Covered (S.seen.map (· (proc u))) _ _ _
            rw [hrest]
            exact (Covered.now (as := rest.map (· (proc u)))).more (as' := []) (bs' := [_])
              (List.nil_sublist _)
          · rw [e1]
            exact .same fun g n k e => e2.ne g n k (Option.some.inj e)
        · rw [if_neg hu, if_neg hu, hcalls, hseen]
          exact (h.calls u).more (as' := []) (bs' := _ :: _ :: vs) (List.nil_sublist _))
    exact ⟨M', run.append r1, r2⟩

theorem Stands.runs {proc : Nat → Fin N} {S S' : Shared N K V L} {evs : List (Conc.Event K V L)}
    (hr : Shared.Runs proc S evs S') : ∀ {M : Shop K V L}, Stands proc S M →
    ∃ M', Runs M evs M' ∧ Stands proc S' M' := by
  induction hr with
  | nil => intro M h; exact ⟨M, .nil, h⟩
  | cons hn _ ih =>
    intro M h
    obtain ⟨M1, h1, h2⟩ := h.next hn
    obtain ⟨M2, h3, h4⟩ := ih h2
    exact ⟨M2, h1.append h3, h4⟩

theorem Stands.opened {proc : Nat → Fin N} {s : Session K V L} :
    Stands proc (Shared.opened N s) { session := s, seen := [⟨s.store, noCache⟩] } where
  session := rfl
  loaded := by intro p l h; cases h
  filled := by intro p n l h; cases h
  top := ⟨[], rfl⟩
  calls := fun _ => .same fun _ _ _ e => by cases e

/-- What several processes do at the same time could be done by one. -/
theorem Shared.Lives.one {s : Session K V L} {evss : List (List (Conc.Event K V L))}
    (h : Shared.Lives s evss) : Conc.Lives { session := s, seen := [⟨s.store, noCache⟩] } evss := by
  induction h with
  | last h =>
    obtain ⟨M, h1, _⟩ := Stands.runs h .opened
    exact .last h1
  | @stop N proc s evs T lost rest h hl _ ih =>
    obtain ⟨M, h1, h2⟩ := Stands.runs h .opened
    have h3 : M.session.store = T.session.store := by
      have := congrArg Session.store h2.session; exact this
    have h4 : M.session.labels = T.session.labels := by
      have := congrArg Session.labels h2.session; exact this
    have h5 : M.session.disk = T.session.disk := by
      have := congrArg Session.disk h2.session; exact this
    have h6 : M.session.lost = T.session.lost := by
      have := congrArg Session.lost h2.session; exact this
    have h7 : M.session.builders = T.session.builders := by
      have := congrArg Session.builders h2.session; exact this
    refine .stop h1 (lost := lost) ⟨?_, ?_, ?_, ?_⟩ ?_
    · rw [h5]; exact hl.disk
    · rw [h6]; exact hl.old
    · rw [h7, h3]; exact hl.builders
    · rw [h6, h3]; exact hl.only
    · simp only [Shop.opened, h3, h4, h5]
      exact ih

end Verif.Conc
