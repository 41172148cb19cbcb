import Verif.FileSpec

namespace Verif

open FileSpec

theorem splitRead_append (b : Bytes) (cap : Nat) :
    (splitRead b cap).1 ++ (splitRead b cap).2 = b := by
  unfold splitRead; split <;> simp

theorem splitRead_length (b : Bytes) (cap : Nat) : (splitRead b cap).1.length ≤ cap := by
  unfold splitRead; split <;> simp <;> omega

theorem splitRead_nil {b : Bytes} {cap : Nat} (h : (splitRead b cap).1 = []) :
    cap = 0 ∨ b = [] := by
  unfold splitRead at h
  split at h
  · right; simpa using h
  · rcases List.take_eq_nil_iff.mp h with h | h
    · exact Or.inl h
    · exact Or.inr h

/-- A read that follows the contents, in front of reads that follow the rest. -/
theorem Follows.cons {content : Bytes} {cap : Nat} {out rest : Bytes} {tr : List (Nat × Bytes)}
    (ha : out ++ rest = content) (hl : out.length ≤ cap) (hn : out = [] → cap = 0 ∨ content = [])
    (h : Follows rest tr) : Follows content ((cap, out) :: tr) := by
  subst ha
  refine ⟨?_, ?_⟩
  · simp only [List.map_cons, List.flatten_cons]
    exact (List.prefix_append_right_inj _).mpr h.1
  · intro pre c o post e
    cases pre with
    | nil =>
      simp only [List.nil_append, List.cons.injEq, Prod.mk.injEq] at e
      obtain ⟨⟨rfl, rfl⟩, -⟩ := e
      refine ⟨hl, fun ho => ?_⟩
      rcases hn ho with h0 | h0
      · exact Or.inl h0
      · right; simpa using h0.symm
    | cons q pre =>
      simp only [List.cons_append, List.cons.injEq] at e
      obtain ⟨rfl, e⟩ := e
      obtain ⟨h1, h2⟩ := h.2 pre c o post e
      refine ⟨h1, fun ho => ?_⟩
      rcases h2 ho with h0 | h0
      · exact Or.inl h0
      · right; simp [h0]

theorem Follows.nil (content : Bytes) : Follows content [] :=
  ⟨List.nil_prefix, fun pre cap out post e => by cases pre <;> cases e⟩

theorem bytesReads_follows (caps : List Nat) (b : Bytes) : Follows b (bytesReads b caps) := by
  induction caps generalizing b with
  | nil => exact Follows.nil b
  | cons cap caps ih =>
    exact Follows.cons (splitRead_append b cap) (splitRead_length b cap) splitRead_nil (ih _)

theorem bytesReads_caps (caps : List Nat) (b : Bytes) : (bytesReads b caps).map (·.1) = caps := by
  induction caps generalizing b with
  | nil => rfl
  | cons cap caps ih => simp [bytesReads, ih]

theorem CFile.reads_finalized (caps : List Nat) (b : Bytes) :
    (CFile.finalized b).reads caps = bytesReads b caps := by
  induction caps generalizing b with
  | nil => rfl
  | cons cap caps ih =>
    simp only [CFile.reads, CFile.read, bytesReads, bytesRead, ih]

theorem CFile.after_append (f : CFile) (xs ys : List CFile.Op) :
    f.after (xs ++ ys) = (f.after xs).after ys := by
  induction xs generalizing f with
  | nil => rfl
  | cons x xs ih => exact ih _

/-- A finalized file does not change. -/
theorem CFile.step_finalized (b : Bytes) (op : CFile.Op) :
    ((CFile.finalized b).step op).2 = .finalized b := by
  cases op <;> rfl

theorem CFile.after_finalized (b : Bytes) (ops : List CFile.Op) :
    (CFile.finalized b).after ops = .finalized b := by
  induction ops with
  | nil => rfl
  | cons op ops ih => simp only [CFile.after, CFile.step_finalized, ih]

/-- The file after some calls, by what they are. -/
theorem CFile.after_building (b : Bytes) (ops : List CFile.Op) :
    (CFile.underConstruction b).after ops =
      if .sync ∈ ops then .finalized (b ++ written ops)
      else .underConstruction (b ++ written ops) := by
  induction ops generalizing b with
  | nil => simp [CFile.after, written]
  | cons op ops ih =>
    cases op with
    | write buf => simp [CFile.after, CFile.step, CFile.write, ih, written]
    | sync => simp [CFile.after, CFile.step, CFile.sync, CFile.after_finalized, written]
    | _ => simp [CFile.after, CFile.step, ih, written]

theorem CFile.after_new (ops : List CFile.Op) :
    CFile.new.after ops =
      if .sync ∈ ops then .finalized (written ops) else .underConstruction (written ops) := by
  rw [CFile.new, CFile.after_building]; simp

end Verif
