import Verif.Lemmas.Construction

/-!
Files under construction: C44.
-/

namespace Verif

open FileSpec

/-- C44: after any calls on a new file, by any number of tasks, a call returns what is
expected: until the first sync nothing can be read and writes are taken; then the contents
are what was written before it, reads from any offset with any buffers follow these contents,
and writes and syncs fail. -/
theorem C44_construction_file (before : List CFile.Op) (op : CFile.Op) :
    expected before op ((CFile.new.after before).step op).1 := by
  rw [CFile.after_new]
  unfold expected
  by_cases h : CFile.Op.sync ∈ before
  · simp only [h, if_true]
    cases op with
    | openReadFrom off =>
      simp only [CFile.step, CFile.openReadFrom, CFile.res]
      by_cases ho : off ≤ (written before).length
      · have : ¬ (written before).length < off := by omega
        simp only [ho, this, if_true, if_false]
        refine ⟨_, rfl, fun caps => ?_⟩
        rw [CFile.reads_finalized]
        exact ⟨bytesReads_caps _ _, bytesReads_follows _ _⟩
      · have : (written before).length < off := by omega
        simp only [ho, this, if_true, if_false]
    | _ => rfl
  · simp only [h, if_false]
    cases op <;> rfl

/-- C44: the file is not changed by any call after the first sync. -/
theorem C44_unchanged (before later : List CFile.Op) (h : .sync ∈ before) :
    CFile.new.after (before ++ later) = CFile.new.after before := by
  rw [CFile.after_append, CFile.after_new, if_pos h, CFile.after_finalized]

example : CFile.Op.sync ∈ [CFile.Op.write [1, 2], .flush, .write [3], .sync] := by decide

example : CFile.new.after [.write [1, 2], .size, .write [3], .sync, .write [4], .sync] =
    .finalized [1, 2, 3] := by decide

/-- Reads of a written file, with a buffer that is too small, an empty one and two that are too
large. -/
example : (CFile.finalized [1, 2, 3]).reads [2, 0, 5, 5] =
    [(2, [1, 2]), (0, []), (5, [3]), (5, [])] := by decide

end Verif
