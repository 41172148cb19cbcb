import Verif.Lemmas.Lru

/-!
Making room in the memory cache of archives: C43. The cache never asks for it with a limit that is
used up (`C43_never_evicts`), but the function that does it is right.
-/

namespace Verif

namespace Lru

/-- The layers that the cache holds, the one used last first. -/
def layersOf : Cache → List (LayerName × Bytes)
  | [] => []
  | (n, .resolved b) :: c => (n, b) :: layersOf c
  | (_, .resolving _) :: c => layersOf c

/-- The reads that are under way. -/
def readsOf : Cache → List (LayerName × Nat)
  | [] => []
  | (_, .resolved _) :: c => readsOf c
  | (n, .resolving t) :: c => (n, t) :: readsOf c

/-- The number of bytes of layers. -/
def sizeOf (l : List (LayerName × Bytes)) : Nat := (l.map (fun q => q.2.length)).sum

theorem layersOf_append : ∀ c c' : Cache, layersOf (c ++ c') = layersOf c ++ layersOf c'
  | [], _ => rfl
  | (n, .resolved b) :: c, c' => congrArg ((n, b) :: ·) (layersOf_append c c')
  | (_, .resolving _) :: c, c' => layersOf_append c c'

theorem readsOf_append : ∀ c c' : Cache, readsOf (c ++ c') = readsOf c ++ readsOf c'
  | [], _ => rfl
  | (_, .resolved _) :: c, c' => readsOf_append c c'
  | (n, .resolving t) :: c, c' => congrArg ((n, t) :: ·) (readsOf_append c c')

theorem sizeOf_append (l l' : List (LayerName × Bytes)) : sizeOf (l ++ l') = sizeOf l + sizeOf l' := by
  simp [sizeOf]

/-- The last layer of a cache, and the reads behind it. -/
theorem last_layer : ∀ c : Cache, layersOf c = [] ∨ ∃ a n b r, c = a ++ (n, .resolved b) :: r ∧
    layersOf r = []
  | [] => Or.inl rfl
  | (n, .resolving t) :: c => by
    rcases last_layer c with h | ⟨a, m, b, r, rfl, h⟩
    · exact Or.inl h
    · exact Or.inr ⟨(n, .resolving t) :: a, m, b, r, rfl, h⟩
  | (n, .resolved b) :: c => by
    rcases last_layer c with h | ⟨a, m, b', r, rfl, h⟩
    · exact Or.inr ⟨[], n, b, c, rfl, h⟩
    · exact Or.inr ⟨(n, .resolved b) :: a, m, b', r, rfl, h⟩

theorem promote_last {c : Cache} {n : LayerName} {e : Entry}
    (hn : ((c ++ [(n, e)]).map (·.1)).Nodup) : Cache.promote (c ++ [(n, e)]) n = (n, e) :: c := by
  rw [List.map_append, List.nodup_append] at hn
  obtain ⟨-, -, hd⟩ := hn
  have hne : ∀ q ∈ c, q.1 ≠ n := fun q hq => hd q.1 (List.mem_map.2 ⟨q, hq, rfl⟩) n (by simp)
  have hp : Cache.peek (c ++ [(n, e)]) n = some e := by
    unfold Cache.peek
    refine List.lookup_eq_some_iff.2 ⟨c, [], rfl, fun q hq => ?_⟩
    simpa using (hne q hq).symm
  unfold Cache.promote
  rw [hp]
  show (n, e) :: Cache.without _ n = _
  congr 1
  unfold Cache.without
  rw [List.filter_append, List.filter_eq_self.2 (fun q hq => by simpa using hne q hq)]
  simp

/-- Reads at the end are moved to the front. -/
theorem skip_reads : ∀ (k : Nat) (a r : Cache) (fuel required : Nat), r.length = k →
    layersOf r = [] → ((a ++ r).map (·.1)).Nodup → 0 < required →
    Cache.ensureAdditional (fuel + k) (a ++ r) required = Cache.ensureAdditional fuel (r ++ a) required
  | 0, a, r, fuel, required, hk, _, _, _ => by
    rw [List.length_eq_zero_iff.1 hk]
    simp
  | k + 1, a, r, fuel, required, hk, hr, hn, hq => by
    obtain ⟨r', q, rfl⟩ : ∃ r' q, r = r' ++ [q] :=
      ⟨r.dropLast, r.getLast (by intro e; rw [e] at hk; cases hk),
        (List.dropLast_concat_getLast _).symm⟩
    obtain ⟨n, e⟩ := q
    have hr' : layersOf r' = [] ∧ layersOf [(n, e)] = [] := by
      rw [layersOf_append, List.append_eq_nil_iff] at hr
      exact hr
    cases e with
    | resolved b => cases hr'.2
    | resolving t =>
      have e1 : a ++ (r' ++ [(n, Entry.resolving t)]) = (a ++ r') ++ [(n, .resolving t)] := by simp
      have step : Cache.ensureAdditional (fuel + (k + 1)) (a ++ (r' ++ [(n, Entry.resolving t)]))
          required = Cache.ensureAdditional (fuel + k) ((n, .resolving t) :: (a ++ r')) required := by
        show (if required = 0 then _ else _) = _
        rw [if_neg (by omega), e1, List.getLast?_append]
        show Cache.ensureAdditional (fuel + k) (Cache.promote _ n) required = _
        rw [promote_last (by rw [← e1]; exact hn)]
      rw [step]
      have hp : (((n, Entry.resolving t) :: a) ++ r').Perm (a ++ (r' ++ [(n, Entry.resolving t)])) := by
        rw [e1]
        exact (List.perm_append_comm (l₁ := [(n, Entry.resolving t)]) (l₂ := a ++ r'))
      have ih := skip_reads k ((n, .resolving t) :: a) r' fuel required
        (by simpa using hk) hr'.1 ((hp.map (·.1)).nodup_iff.2 hn) hq
      have e2 : (n, Entry.resolving t) :: (a ++ r') = ((n, Entry.resolving t) :: a) ++ r' := rfl
      rw [e2, ih]
      simp

theorem evicts : ∀ (k : Nat) (c : Cache) (fuel required : Nat), c.length = k →
    (c.map (·.1)).Nodup → k * (k + 1) + 1 ≤ fuel → 0 < required → required ≤ sizeOf (layersOf c) →
    ∃ c' q, Cache.ensureAdditional fuel c required = some c' ∧
      (∃ rest, layersOf c = layersOf c' ++ q :: rest ∧
        sizeOf rest < required ∧ required ≤ sizeOf (q :: rest)) ∧
      (readsOf c').Perm (readsOf c)
  | 0, c, fuel, required, hk, _, _, hq, hs => by
    rw [List.length_eq_zero_iff.1 hk] at hs
    exact absurd hs (by simp [layersOf, sizeOf]; omega)
  | k + 1, c, fuel, required, hk, hn, hf, hq, hs => by
    rcases last_layer c with h | ⟨a, n, b, r, rfl, hr⟩
    · rw [h] at hs
      exact absurd hs (by simp [sizeOf]; omega)
    · have hlen : a.length + r.length = k := by
        rw [List.length_append, List.length_cons] at hk
        omega
      have e0 : a ++ (n, Entry.resolved b) :: r = (a ++ [(n, .resolved b)]) ++ r := by simp
      have hmul : (k + 1) * (k + 1 + 1) = k * (k + 1) + 2 * (k + 1) := by
        rw [← Nat.add_mul, Nat.mul_comm]
      obtain ⟨fuel', rfl⟩ : ∃ fuel', fuel = (fuel' + 1) + r.length := ⟨fuel - r.length - 1, by omega⟩
      have hlay : layersOf (a ++ (n, .resolved b) :: r) = layersOf a ++ [(n, b)] := by
        rw [layersOf_append]
        show layersOf a ++ (n, b) :: layersOf r = _
        rw [hr]
      have hsz : sizeOf (layersOf a ++ [(n, b)]) = sizeOf (layersOf a) + b.length := by
        rw [sizeOf_append]
        simp [sizeOf]
      have hlay' : layersOf (r ++ a) = layersOf a := by
        rw [layersOf_append, hr]
        rfl
      have hreads : (readsOf (r ++ a)).Perm (readsOf (a ++ (n, .resolved b) :: r)) := by
        rw [readsOf_append, readsOf_append]
        exact List.perm_append_comm
      have step : Cache.ensureAdditional (fuel' + 1 + r.length) (a ++ (n, .resolved b) :: r) required =
          if required ≤ b.length then some (r ++ a)
          else Cache.ensureAdditional fuel' (r ++ a) (required - b.length) := by
        rw [e0, skip_reads r.length (a ++ [(n, Entry.resolved b)]) r (fuel' + 1) required rfl hr
          (by rw [← e0]; exact hn) hq, ← List.append_assoc]
        show (if required = 0 then _ else _) = _
        rw [if_neg (by omega), List.getLast?_append]
        show (if required ≤ b.length then some (Cache.popLru _)
          else Cache.ensureAdditional fuel' (Cache.popLru _) (required - b.length)) = _
        have hpop : Cache.popLru (r ++ a ++ [(n, Entry.resolved b)]) = r ++ a := by
          unfold Cache.popLru
          simp
        rw [hpop]
      rw [step, hlay]
      rw [hlay, hsz] at hs
      by_cases hb : required ≤ b.length
      · rw [if_pos hb]
        refine ⟨r ++ a, (n, b), rfl, ⟨[], by rw [hlay'], ?_, ?_⟩, hreads⟩
        · simpa [sizeOf] using hq
        · simpa [sizeOf] using hb
      · rw [if_neg hb]
        have hp : (r ++ a).Sublist (r ++ (a ++ [(n, Entry.resolved b)])) := by
          rw [← List.append_assoc]
          exact List.sublist_append_left _ _
        have hn' : ((r ++ a).map (·.1)).Nodup := by
          refine (hp.map (·.1)).nodup ?_
          refine (List.Perm.nodup_iff ?_).1 hn
          refine List.Perm.map _ ?_
          rw [e0]
          exact List.perm_append_comm
        obtain ⟨c', q, g1, ⟨rest, g2, g3, g4⟩, g5⟩ := evicts k (r ++ a) fuel' (required - b.length)
          (by rw [List.length_append]; omega) hn' (by omega) (by omega) (by rw [hlay']; omega)
        rw [hlay'] at g2
        have hsr : sizeOf (rest ++ [(n, b)]) = sizeOf rest + b.length := by
          rw [sizeOf_append]
          simp [sizeOf]
        refine ⟨c', q, g1, ⟨rest ++ [(n, b)], by rw [g2]; simp, by omega, ?_⟩, g5.trans hreads⟩
        have e3 : q :: (rest ++ [(n, b)]) = (q :: rest) ++ [(n, b)] := rfl
        rw [e3, sizeOf_append]
        have : sizeOf [(n, b)] = b.length := by simp [sizeOf]
        omega

/-- C43: when the cache makes room, it drops the layers that were used least recently, as many as
are needed and no more, and no read that is under way. -/
theorem C43_makes_room {c : Cache} (hn : (c.map (·.1)).Nodup) {limit current required : Nat}
    (h1 : required ≤ limit) (h2 : current ≤ limit) (h3 : limit - current < required)
    (h4 : current + required - limit ≤ sizeOf (layersOf c)) :
    ∃ c' q rest, Cache.ensureEnough c limit current required = some (some c') ∧
      layersOf c = layersOf c' ++ q :: rest ∧
      sizeOf rest + limit < current + required ∧ current + required ≤ limit + sizeOf (q :: rest) ∧
      (readsOf c').Perm (readsOf c) := by
  obtain ⟨c', q, g1, ⟨rest, g2, g3, g4⟩, g5⟩ := evicts c.length c (c.length * (c.length + 1) + 1)
    (required - (limit - current)) rfl hn (Nat.le_refl _) (by omega) (by omega)
  refine ⟨c', q, rest, ?_, g2, by omega, by omega, g5⟩
  unfold Cache.ensureEnough
  rw [if_neg (by omega), if_neg (by omega), if_pos h3, g1]

/-- C43: a layer that fits into what is left leaves the others; a layer that is bigger than the limit
is not taken. -/
theorem C43_room (c : Cache) {limit current required : Nat} (h2 : current ≤ limit) :
    (required ≤ limit - current → Cache.ensureEnough c limit current required = some (some c)) ∧
    (limit < required → Cache.ensureEnough c limit current required = some none) := by
  unfold Cache.ensureEnough
  constructor
  · intro h
    rw [if_neg (by omega), if_neg (by omega), if_neg (by omega)]
  · intro h
    rw [if_pos h]

/-- A cache with three layers and two reads, the last in the queue among them: the two oldest layers
go. -/
example : Cache.ensureEnough [(⟨1, 0, 0, 0, 0⟩, .resolved [1, 2]), (⟨2, 0, 0, 0, 0⟩, .resolving 0),
    (⟨3, 0, 0, 0, 0⟩, .resolved [1, 2, 3]), (⟨4, 0, 0, 0, 0⟩, .resolved [1]),
    (⟨5, 0, 0, 0, 0⟩, .resolving 1)] 10 6 7 =
    some (some [(⟨5, 0, 0, 0, 0⟩, .resolving 1), (⟨1, 0, 0, 0, 0⟩, .resolved [1, 2]),
      (⟨2, 0, 0, 0, 0⟩, .resolving 0)]) := by decide

end Lru

end Verif
