import Verif.Lemmas.ConcEnds
import Verif.Props.Conc

/-!
C65: a call among many ends after a bounded number of its own steps, and never waits for others.
-/

namespace Verif.Conc

open Spec SimpleBuilder Store Api

section Main

variable {K V L : Type} [LinearOrder K] [LinearOrder V] [DecidableEq L] {M N : Shop K V L} {t : Nat}

/-- C65: whatever other calls do, a call has its answer after at most eight of its own steps.
`force_set_head`, `apply_delta` and `apply_diff` are below. -/
theorem C65_steps {evs : List (Conc.Event K V L)} (hr : Runs M evs N) {c : Req K V L}
    (ht : M.calls t = some (.start c)) (hf : ¬ isForce c) (ha : ¬ isApply c)
    (he : ∀ r, .ret t r ∉ evs) (hs : 8 ≤ ownSteps t evs) :
    ∃ r N', Next N (some (.ret t r)) N' := by
  rcases begun hr (fun M ch => few_begins (M := M) (ch := ch) hf ha) ht he with
    ⟨_, h⟩ | ⟨M', st, rest, h1, h2, h3, h4, h5⟩
  · omega
  · obtain ⟨st', h6, h7⟩ := few_runs h3 h1 h2 h5
    rw [show 7 - ownSteps t rest = 0 by omega] at h7
    exact canEnd_of_rank h6 h7

/-- After the first step of a call the number of further steps is bounded, whatever other calls do. -/
theorem C65_more_steps {evs : List (Conc.Event K V L)} (hr : Runs M evs N) {c : Req K V L}
    (ht : M.calls t = some (.start c)) (hf : ¬ isForce c) (he : ∀ r, .ret t r ∉ evs)
    (hs : 1 ≤ ownSteps t evs) :
    ∃ k, ∀ evs' N', Runs N evs' N' → (∀ r, .ret t r ∉ evs') → k ≤ ownSteps t evs' →
      ∃ r N'', Next N' (some (.ret t r)) N'' := by
  rcases begun hr (fun M ch => calm_begins (M := M) (ch := ch) hf) ht he with
    ⟨_, h⟩ | ⟨M', st, rest, h1, h2, h3, h4, h5⟩
  · omega
  · obtain ⟨st', h6, h7⟩ := few_runs h3 h1 ⟨h2, Nat.le_refl _⟩ h5
    refine ⟨st.rank - ownSteps t rest, fun evs' N' h8 h9 h10 => ?_⟩
    obtain ⟨st'', h11, h12⟩ := few_runs h8 h6 h7 h9
    rw [Nat.sub_eq_zero_of_le h10] at h12
    exact canEnd_of_rank h11 h12

/-- `force_set_head` starts again only if the head of the graph has changed: it takes two steps,
and at most two more for each change of the head. -/
theorem C65_force_steps {evs : List (Conc.Event K V L)} {l : L} {k h : Nat} (hr : Turns l M evs N k)
    (ht : M.calls t = some (.start (.forceSetHead l h))) (he : ∀ r, .ret t r ∉ evs)
    (hs : 2 + 2 * k ≤ ownSteps t evs) : ∃ r N', Next N (some (.ret t r)) N' := by
  obtain ⟨st, h1, h2⟩ := forced_runs hr ht (k := 2) (.start (Nat.le_refl _)) he
  rw [Nat.sub_eq_zero_of_le hs] at h2
  obtain ⟨r, ls, rfl⟩ := forced_zero h2
  exact ⟨_, _, .ret h1⟩

/-- No call waits for another one: at any time a call that is under way can end with steps of its
own only. Missing: calls outside of the contract. -/
theorem C65_alone_partial {disk : Bool} {evs : List (Conc.Event K V L)}
    (hr : Runs { session := { disk := disk } } evs M) {st : Stage K V L} (ht : M.calls t = some st) :
    ∃ evs' N, Runs M evs' N ∧ (∀ e ∈ evs', ∃ n, e = .act t n) ∧
      ((∃ r N', Next N (some (.ret t r)) N') ∨ Left {} (evs ++ evs')) := by
  rcases kept hr CSim.start with ⟨B, w, h1, h2⟩ | ⟨pre, e, post, B, h1, h2, h3⟩
  · obtain ⟨evs', N, h3, h4, h5⟩ := solo h2 ht (good_runs hr (by intro u st h; cases h) t st ht)
    refine ⟨evs', N, h3, h4, h5.imp_right ?_⟩
    rintro ⟨pre, e, post, B', h6, h7, h8⟩
    exact ⟨evs ++ pre, e, post, B', by rw [h6, List.append_assoc], h1.trans h7, h8⟩
  · exact ⟨[], M, .nil, (by intro e he; cases he), .inr ⟨pre, e, post, B, by rw [h1, List.append_nil], h2, h3⟩⟩

/-- The search of a load comes to its end whatever it sees of what others do meanwhile. -/
theorem C65_search_partial {disk : Bool} {evs : List (Conc.Event K V L)}
    (hr : Runs { session := { disk := disk } } evs M) {g : Goal K V L} {n : Name} {k : Nat}
    (ht : M.calls t = some (.search g n k)) :
    (∀ (v : Nat → View K V) (i : Nat → Nat), i 0 + k = M.seen.length → (∀ r, i (r + 1) ≤ i r) →
      (∀ r, M.seen[i r]? = some (v r)) →
      ∃ f, ∀ f', f ≤ f' → getLayerView v f' M.session.store n = getLayerView v f M.session.store n) ∨
    Left {} evs := by
  rcases kept hr CSim.start with ⟨B, w, _, h2⟩ | h
  · exact .inl fun v i h3 h4 h5 => h2.searchEnds ht h3 h4 h5
  · exact .inr h

end Main

/-! ### Programs -/

/-- The call is about to make its first step. -/
def aboutTo (M : Shop Nat Nat Nat) (t : Nat) (c : Req Nat Nat Nat) : Bool :=
  match M.calls t with
  | some (.start c') => c' = c
  | _ => false

/-- The call does not end, and makes at least `k` steps. -/
def longer (t k : Nat) (evs : List (Conc.Event Nat Nat Nat)) : Bool :=
  evs.all (fun e => match e with | .ret u _ => u != t | _ => true) && decide (k ≤ ownSteps t evs)

theorem longer_run {pre post : List (Move Nat Nat Nat)} {t k : Nat} {c : Req Nat Nat Nat}
    (h : ((playTo {} pre).bind fun M =>
      if aboutTo M t c then (playTo M post).bind fun _ => (playC M post).map (longer t k)
      else none) = some true) :
    ∃ evs M evs' N, Runs {} evs M ∧ M.calls t = some (.start c) ∧ Runs M evs' N ∧
      (∀ r, .ret t r ∉ evs') ∧ k ≤ ownSteps t evs' := by
  obtain ⟨M, h1, h2⟩ := Option.bind_eq_some_iff.1 h
  obtain ⟨evs, _, h3⟩ := playTo_runs h1
  split at h2
  · rename_i hc
    obtain ⟨N, h4, h5⟩ := Option.bind_eq_some_iff.1 h2
    obtain ⟨evs', h6, h7⟩ := playTo_runs h4
    rw [h6] at h5
    have h5 : longer t k evs' = true := Option.some.inj h5
    simp only [longer, Bool.and_eq_true, List.all_eq_true, decide_eq_true_eq] at h5
    refine ⟨evs, M, evs', N, h3, ?_, h7, ?_, h5.2⟩
    · unfold aboutTo at hc
      split at hc
      · rename_i hM
        rw [hM, of_decide_eq_true hc]
      · cases hc
    · intro r hr
      have := h5.1 _ hr
      simp at this
  · cases h2

/-- The hypotheses of `C65_steps`: a rollup of a layer that has a rollup makes eight steps while a
squash is made. -/
example : ∃ evs M evs' N, Runs ({} : Shop Nat Nat Nat) evs M ∧
    M.calls 1 = some (.start (.rollup 1)) ∧ Runs M evs' N ∧ (∀ r, .ret 1 r ∉ evs') ∧
    8 ≤ ownSteps 1 evs' :=
  longer_run (pre := whole 0 0 (before ++ [.rollup 1]) ++
      [.evict, .inv 1 (.rollup 1), .inv 2 (.squash 1)])
    (post := (List.range 8).flatMap fun i => [.act 2 (200 + 2 * i), .act 1 (201 + 2 * i)])
    (by decide +kernel)

/-- It has no answer after seven steps. -/
example : (playC ({} : Shop Nat Nat Nat) (whole 0 0 (before ++ [.rollup 1]) ++
      [.evict, .inv 1 (.rollup 1)] ++
      (List.range 8).map (fun i => .act 1 (200 + i)) ++ [.ret 1])).isSome = true ∧
    playC ({} : Shop Nat Nat Nat) (whole 0 0 (before ++ [.rollup 1]) ++
      [.evict, .inv 1 (.rollup 1)] ++
      (List.range 7).map (fun i => .act 1 (200 + i)) ++ [.ret 1]) = none := by decide +kernel

/-- The hypotheses of `C65_more_steps`. -/
example : ∃ evs M evs' N, Runs ({} : Shop Nat Nat Nat) evs M ∧
    M.calls 1 = some (.start (.applyDelta 2 1)) ∧ Runs M evs' N ∧ (∀ r, .ret 1 r ∉ evs') ∧
    1 ≤ ownSteps 1 evs' :=
  longer_run (pre := whole 0 0 (before ++ [.createBase]) ++ [.inv 1 (.applyDelta 2 1)])
    (post := [.act 1 100]) (by decide +kernel)

/-- A call of `force_set_head` that loses the race starts again, and makes four steps. -/
def raceAgain : List (Move Nat Nat Nat) :=
  [.act 1 100, .act 2 101, .act 2 102, .ret 2, .act 1 103, .act 1 104, .act 1 105]

/-- How often the head of the graph `l` changes. -/
def headTurns (l : Nat) : Shop Nat Nat Nat → List (Move Nat Nat Nat) → Nat
  | _, [] => 0
  | M, m :: ms =>
    match move M m with
    | none => 0
    | some r => headTurns l r.2 ms +
        if r.2.session.labels.get? l = M.session.labels.get? l then 0 else 1

theorem headTurns_turns {l : Nat} : ∀ {ms : List (Move Nat Nat Nat)} {M N : Shop Nat Nat Nat},
    playTo M ms = some N → ∃ evs, playC M ms = some evs ∧ Turns l M evs N (headTurns l M ms)
  | [], M, N, h => by cases h; exact ⟨[], rfl, .nil⟩
  | m :: ms, M, N, h => by
    unfold playTo at h
    split at h
    · cases h
    · rename_i r hr
      obtain ⟨evs, h1, h2⟩ := headTurns_turns (l := l) h
      refine ⟨r.1.toList ++ evs, by simp only [playC, hr, h1, Option.map_some], ?_⟩
      simp only [headTurns, hr]
      split
      · rename_i he
        exact .same (move_next hr) he h2
      · rename_i he
        exact .other (move_next hr) he h2

/-- The hypotheses of `C65_force_steps`: the head changes twice, and there are six steps, the last
two of them without an effect. -/
example : ∃ evs M evs' N, Runs ({} : Shop Nat Nat Nat) evs M ∧
    M.calls 1 = some (.start (.forceSetHead 7 0)) ∧ Turns 7 M evs' N 2 ∧
    (∀ r, .ret 1 r ∉ evs') ∧ 2 + 2 * 2 ≤ ownSteps 1 evs' := by
  have h : ((playTo {} (whole 0 0 before ++
      [.inv 1 (.forceSetHead 7 0), .inv 2 (.forceSetHead 7 1)])).bind fun M =>
      if aboutTo M 1 (.forceSetHead 7 0) && headTurns 7 M (raceAgain ++ acts 1 2 106) == 2 then
        (playTo M (raceAgain ++ acts 1 2 106)).bind fun _ =>
          (playC M (raceAgain ++ acts 1 2 106)).map (longer 1 6)
      else none) = some true := by decide +kernel
  obtain ⟨M, h1, h2⟩ := Option.bind_eq_some_iff.1 h
  obtain ⟨evs, _, h3⟩ := playTo_runs h1
  split at h2
  · rename_i hc
    simp only [Bool.and_eq_true, beq_iff_eq] at hc
    obtain ⟨N, h4, h5⟩ := Option.bind_eq_some_iff.1 h2
    obtain ⟨evs', h6, h7⟩ := headTurns_turns (l := 7) h4
    rw [hc.2] at h7
    rw [h6] at h5
    have h5 : longer 1 6 evs' = true := Option.some.inj h5
    simp only [longer, Bool.and_eq_true, List.all_eq_true, decide_eq_true_eq] at h5
    refine ⟨evs, M, evs', N, h3, ?_, h7, ?_, h5.2⟩
    · have hc := hc.1
      unfold aboutTo at hc
      split at hc
      · rename_i hM
        rw [hM, of_decide_eq_true hc]
      · cases hc
    · intro r hr
      have := h5.1 _ hr
      simp at this
  · cases h2

/-- It has no answer before. -/
example : (playC ({} : Shop Nat Nat Nat) (whole 0 0 before ++
      [.inv 1 (.forceSetHead 7 0), .inv 2 (.forceSetHead 7 1)] ++ raceAgain ++ [.ret 1])).isSome = true ∧
    playC ({} : Shop Nat Nat Nat) (whole 0 0 before ++
      [.inv 1 (.forceSetHead 7 0), .inv 2 (.forceSetHead 7 1)] ++ raceAgain.dropLast ++ [.ret 1]) = none := by
  decide +kernel

end Verif.Conc
