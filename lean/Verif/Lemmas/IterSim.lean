import Verif.Model.LayerIter

/-!
Iterators that behave like a list.
-/

namespace Verif

/-- `R` relates iterator states to the list of items still to come. -/
def NextSim {σ α : Type _} (next : σ → Option (Option α × σ)) (R : σ → List α → Prop) : Prop :=
  ∀ st l, R st l → ∃ st', next st = some (l.head?, st') ∧ R st' l.tail

/-- Peeking shows the first item and keeps it. -/
def PeekSim {σ α : Type _} (peek : σ → Option (Option α × σ)) (R : σ → List α → Prop) : Prop :=
  ∀ st l, R st l → ∃ st', peek st = some (l.head?, st') ∧ R st' l

theorem collectN_eq {σ α : Type _} {next : σ → Option (Option α × σ)} {R : σ → List α → Prop}
    (h : NextSim next R) : ∀ (n : Nat) (st : σ) (l : List α), R st l → l.length < n →
      collectN next n st = some l
  | 0, _, _, _, hl => by omega
  | n + 1, st, l, hR, hl => by
    obtain ⟨st', hn, hR'⟩ := h st l hR
    cases l with
    | nil => simp [collectN, hn]
    | cons a l =>
      have := collectN_eq h n st' l hR' (by simp at hl; omega)
      simp [collectN, hn, this]

end Verif
