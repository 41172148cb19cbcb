import Verif.Lemmas.MergeSim

/-!
What a merge of additions and removals yields.
-/

namespace Verif

/-- Presence of a triple in a stack of additions and removals, topmost first. -/
def present : List (List Triple) → List (List Triple) → Triple → Prop
  | P :: Ps, N :: Ns, t => t ∈ P ∨ (t ∉ N ∧ present Ps Ns t)
  | _, _, _ => False

/-- For the triple `t`, every layer adds only what was absent below it and removes
only what was present below it. -/
def wellFormed : List (List Triple) → List (List Triple) → Triple → Prop
  | P :: Ps, N :: Ns, t =>
    (t ∈ P → ¬ present Ps Ns t) ∧ (t ∈ N → present Ps Ns t) ∧ wellFormed Ps Ns t
  | _, _, _ => True

theorem present_mem : ∀ {Ps Ns : List (List Triple)} {t : Triple},
    present Ps Ns t → ∃ P ∈ Ps, t ∈ P
  | [], _, _, h => by simp [present] at h
  | _ :: _, [], _, h => by simp [present] at h
  | P :: Ps, N :: Ns, t, h => by
    simp only [present] at h
    rcases h with h | ⟨_, h⟩
    · exact ⟨P, by simp, h⟩
    · obtain ⟨P', h1, h2⟩ := present_mem h
      exact ⟨P', by simp [h1], h2⟩

theorem wellFormed_neg : ∀ {Ps Ns : List (List Triple)} {t : Triple}, Ps.length = Ns.length →
    wellFormed Ps Ns t → (∃ N ∈ Ns, t ∈ N) → ∃ P ∈ Ps, t ∈ P
  | [], Ns, _, hl, _, ⟨N, hN, _⟩ => by
    have : Ns = [] := by simpa using hl.symm
    subst this; simp at hN
  | P :: Ps, [], _, hl, _, _ => by simp at hl
  | P :: Ps, N :: Ns, t, hl, hw, ⟨N', hN', ht⟩ => by
    simp only [wellFormed] at hw
    rcases List.mem_cons.1 hN' with rfl | hN'
    · obtain ⟨P', h1, h2⟩ := present_mem (hw.2.1 ht)
      exact ⟨P', by simp [h1], h2⟩
    · obtain ⟨P', h1, h2⟩ := wellFormed_neg (by simpa using hl) hw.2.2 ⟨N', hN', ht⟩
      exact ⟨P', by simp [h1], h2⟩

/-- Stacks that agree on `t`. -/
abbrev AgreeOn (t : Triple) : List (List Triple) → List (List Triple) → Prop :=
  List.Forall₂ (fun P P' => t ∈ P ↔ t ∈ P')

theorem present_congr {t : Triple} {Ps Ps' : List (List Triple)} (h1 : AgreeOn t Ps Ps') :
    ∀ {Ns Ns' : List (List Triple)}, AgreeOn t Ns Ns' →
      (present Ps Ns t ↔ present Ps' Ns' t) := by
  induction h1 with
  | nil => intro Ns Ns' h; cases h <;> simp [present]
  | cons ha _ ih =>
    intro Ns Ns' h
    cases h with
    | nil => simp [present]
    | cons hb h => simp only [present, ha, hb, ih h]

theorem wellFormed_congr {t : Triple} {Ps Ps' : List (List Triple)} (h1 : AgreeOn t Ps Ps') :
    ∀ {Ns Ns' : List (List Triple)}, AgreeOn t Ns Ns' →
      (wellFormed Ps Ns t ↔ wellFormed Ps' Ns' t) := by
  induction h1 with
  | nil => intro Ns Ns' h; cases h <;> simp [wellFormed]
  | cons ha h1 ih =>
    intro Ns Ns' h
    cases h with
    | nil => simp [wellFormed]
    | cons hb h => simp only [wellFormed, ha, hb, ih h, present_congr h1 h]

theorem AgreeOn.refl (t : Triple) (Ps : List (List Triple)) : AgreeOn t Ps Ps :=
  List.forall₂_same.2 (fun _ _ => Iff.rfl)

theorem popAt_agree {Ps : List (List Triple)} {i : Nat} {t u : Triple} {l : List Triple}
    (h : Ps[i]? = some (t :: l)) (hne : u ≠ t) : AgreeOn u Ps (popAt i Ps) := by
  induction Ps generalizing i with
  | nil => simp at h
  | cons P Ps ih =>
    cases i with
    | zero =>
      simp only [List.getElem?_cons_zero, Option.some.injEq] at h
      subst h
      exact .cons (by simp [hne]) (AgreeOn.refl _ _)
    | succ i => exact .cons Iff.rfl (ih (by simpa using h))

theorem popNeg_agree {Ns Ns' : List (List Triple)} {k : Nat} {t u : Triple}
    (h : popNeg t k Ns = some Ns') (hne : u ≠ t) : AgreeOn u Ns Ns' := by
  induction Ns generalizing k Ns' with
  | nil => cases k <;> simp [popNeg] at h
  | cons N Ns ih =>
    cases k with
    | zero => simp [popNeg] at h
    | succ k =>
      simp only [popNeg] at h
      split at h
      · rename_i hh
        simp only [Option.some.injEq] at h
        subst h
        cases N with
        | nil => simp at hh
        | cons a N =>
          simp only [List.head?_cons, Option.some.injEq] at hh
          subst hh
          exact .cons (by simp [hne]) (AgreeOn.refl _ _)
      · rw [Option.map_eq_some_iff] at h
        obtain ⟨x, h1, rfl⟩ := h
        exact .cons Iff.rfl (ih h1)

/-- The lists are strictly increasing by `key`. -/
def KeySorted (key : Triple → Triple) (l : List Triple) : Prop :=
  l.Pairwise (fun a b => key a < key b)

theorem minIndex_none {key : Triple → Triple} : ∀ {Ps : List (List Triple)},
    minIndex key (Ps.map List.head?) = none → ∀ P ∈ Ps, P = []
  | [], _ => by simp
  | [] :: Ps, h => by
    simp only [List.map_cons, List.head?_nil, minIndex, Option.map_eq_none_iff] at h
    intro P hP
    rcases List.mem_cons.1 hP with rfl | hP
    · rfl
    · exact minIndex_none h P hP
  | (a :: l) :: Ps, h => by
    simp only [List.map_cons, List.head?_cons, minIndex] at h
    split at h
    · simp at h
    · split at h <;> simp at h

theorem keySorted_head {key : Triple → Triple} {a : Triple} {l : List Triple}
    (h : KeySorted key (a :: l)) : ∀ u ∈ a :: l, key a ≤ key u := by
  intro u hu
  rcases List.mem_cons.1 hu with rfl | hu
  · exact le_refl _
  · exact le_of_lt ((List.pairwise_cons.1 h).1 u hu)

theorem minIndex_min {key : Triple → Triple} : ∀ {Ps : List (List Triple)} {i : Nat} {t : Triple},
    (∀ P ∈ Ps, KeySorted key P) → minIndex key (Ps.map List.head?) = some (i, t) →
    (∀ P ∈ Ps, ∀ u ∈ P, key t ≤ key u) ∧ ∀ P ∈ Ps.take i, t ∉ P
  | [], _, _, _, h => by simp [minIndex] at h
  | [] :: Ps, i, t, hs, h => by
    simp only [List.map_cons, List.head?_nil, minIndex, Option.map_eq_some_iff] at h
    obtain ⟨⟨j, u⟩, h1, h2⟩ := h
    simp only [Prod.mk.injEq] at h2
    obtain ⟨rfl, rfl⟩ := h2
    obtain ⟨h3, h4⟩ := minIndex_min (fun P hP => hs P (by simp [hP])) h1
    refine ⟨?_, ?_⟩
    · intro P hP
      rcases List.mem_cons.1 hP with rfl | hP
      · simp
      · exact h3 P hP
    · intro P hP
      rw [List.take_succ_cons] at hP
      rcases List.mem_cons.1 hP with rfl | hP
      · simp
      · exact h4 P hP
  | (a :: l) :: Ps, i, t, hs, h => by
    have hal := hs (a :: l) (by simp)
    have hhead := keySorted_head hal
    simp only [List.map_cons, List.head?_cons, minIndex] at h
    cases hm : minIndex key (Ps.map List.head?) with
    | none =>
      rw [hm] at h
      simp only [Option.some.injEq, Prod.mk.injEq] at h
      obtain ⟨rfl, rfl⟩ := h
      refine ⟨?_, by simp⟩
      intro P hP
      rcases List.mem_cons.1 hP with rfl | hP
      · exact hhead
      · rw [minIndex_none hm P hP]; simp
    | some q =>
      obtain ⟨j, u⟩ := q
      rw [hm] at h
      simp only at h
      obtain ⟨h3, h4⟩ := minIndex_min (fun P hP => hs P (by simp [hP])) hm
      split at h
      · rename_i hle
        simp only [Option.some.injEq, Prod.mk.injEq] at h
        obtain ⟨rfl, rfl⟩ := h
        refine ⟨?_, by simp⟩
        intro P hP
        rcases List.mem_cons.1 hP with rfl | hP
        · exact hhead
        · exact fun v hv => le_trans hle (h3 P hP v hv)
      · rename_i hlt
        simp only [Option.some.injEq, Prod.mk.injEq] at h
        obtain ⟨rfl, rfl⟩ := h
        have hlt := not_le.1 hlt
        refine ⟨?_, ?_⟩
        · intro P hP
          rcases List.mem_cons.1 hP with rfl | hP
          · exact fun v hv => le_trans (le_of_lt hlt) (hhead v hv)
          · exact h3 P hP
        · intro P hP
          rw [List.take_succ_cons] at hP
          rcases List.mem_cons.1 hP with rfl | hP
          · intro hmem
            exact absurd (hhead _ hmem) (not_le.2 hlt)
          · exact h4 P hP

theorem popAt_sublists {Ps : List (List Triple)} {i : Nat} :
    ∀ P ∈ popAt i Ps, ∃ P' ∈ Ps, P.Sublist P' := by
  induction Ps generalizing i with
  | nil => simp [popAt]
  | cons P Ps ih =>
    cases i with
    | zero =>
      intro Q hQ
      rcases List.mem_cons.1 hQ with rfl | hQ
      · exact ⟨P, by simp, List.tail_sublist P⟩
      · exact ⟨Q, by simp [hQ], List.Sublist.refl _⟩
    | succ i =>
      intro Q hQ
      rcases List.mem_cons.1 hQ with rfl | hQ
      · exact ⟨Q, by simp, List.Sublist.refl _⟩
      · obtain ⟨P', h1, h2⟩ := ih Q hQ
        exact ⟨P', by simp [h1], h2⟩

theorem popNeg_sublists {t : Triple} {k : Nat} {Ns Ns' : List (List Triple)}
    (h : popNeg t k Ns = some Ns') : ∀ N ∈ Ns', ∃ N' ∈ Ns, N.Sublist N' := by
  induction Ns generalizing k Ns' with
  | nil => cases k <;> simp [popNeg] at h
  | cons N Ns ih =>
    cases k with
    | zero => simp [popNeg] at h
    | succ k =>
      simp only [popNeg] at h
      split at h
      · simp only [Option.some.injEq] at h
        subst h
        intro Q hQ
        rcases List.mem_cons.1 hQ with rfl | hQ
        · exact ⟨N, by simp, List.tail_sublist N⟩
        · exact ⟨Q, by simp [hQ], List.Sublist.refl _⟩
      · rw [Option.map_eq_some_iff] at h
        obtain ⟨x, h1, rfl⟩ := h
        intro Q hQ
        rcases List.mem_cons.1 hQ with rfl | hQ
        · exact ⟨Q, by simp, List.Sublist.refl _⟩
        · obtain ⟨P', h2, h3⟩ := ih h1 Q hQ
          exact ⟨P', by simp [h2], h3⟩

theorem popAt_sorted {key : Triple → Triple} {Ps : List (List Triple)} {i : Nat}
    (h : ∀ P ∈ Ps, KeySorted key P) : ∀ P ∈ popAt i Ps, KeySorted key P := by
  intro P hP
  obtain ⟨P', h1, h2⟩ := popAt_sublists P hP
  exact List.Pairwise.sublist h2 (h P' h1)

theorem popNeg_sorted {key : Triple → Triple} {t : Triple} {k : Nat} {Ns Ns' : List (List Triple)}
    (hp : popNeg t k Ns = some Ns') (h : ∀ N ∈ Ns, KeySorted key N) :
    ∀ N ∈ Ns', KeySorted key N := by
  intro N hN
  obtain ⟨N', h1, h2⟩ := popNeg_sublists hp N hN
  exact List.Pairwise.sublist h2 (h N' h1)

theorem mem_popAt {Ps : List (List Triple)} {i : Nat} {u : Triple}
    (h : ∃ P ∈ popAt i Ps, u ∈ P) : ∃ P ∈ Ps, u ∈ P := by
  obtain ⟨P, h1, h2⟩ := h
  obtain ⟨P', h3, h4⟩ := popAt_sublists P h1
  exact ⟨P', h3, h4.subset h2⟩

/-- Every item of the output comes from one of the additions. -/
theorem Merge.mem {key : Triple → Triple} {Ps Ns : List (List Triple)} {out : List Triple}
    (h : Merge key Ps Ns out) : ∀ u ∈ out, ∃ P ∈ Ps, u ∈ P := by
  induction h with
  | nil => simp
  | skip _ _ _ ih => exact fun u hu => mem_popAt (ih u hu)
  | emit hm _ _ ih =>
    intro u hu
    rcases List.mem_cons.1 hu with rfl | hu
    · obtain ⟨l, hl⟩ := minIndex_head hm
      exact ⟨_, List.mem_of_getElem? hl, by simp⟩
    · exact mem_popAt (ih u hu)

/-- The output is increasing. -/
theorem Merge.sorted_le {key : Triple → Triple} {Ps Ns : List (List Triple)} {out : List Triple}
    (h : Merge key Ps Ns out) (hs : ∀ P ∈ Ps, KeySorted key P) :
    out.Pairwise (fun a b => key a ≤ key b) := by
  induction h with
  | nil => exact List.Pairwise.nil
  | skip _ _ _ ih => exact ih (popAt_sorted hs)
  | emit hm _ hM ih =>
    refine List.pairwise_cons.2 ⟨?_, ih (popAt_sorted hs)⟩
    intro u hu
    obtain ⟨P, h1, h2⟩ := mem_popAt (hM.mem u hu)
    exact (minIndex_min hs hm).1 P h1 u h2

/-! ### One step -/

/-- Popping an addition that no layer above removes. -/
theorem step_emit : ∀ {Ps Ns : List (List Triple)} {i : Nat} {t : Triple} {l : List Triple},
    Ps.length = Ns.length → Ps[i]? = some (t :: l) → t ∉ l → (∀ P ∈ Ps.take i, t ∉ P) →
    (∀ N ∈ Ns.take i, t ∉ N) → wellFormed Ps Ns t →
    present Ps Ns t ∧ ¬ present (popAt i Ps) Ns t ∧ wellFormed (popAt i Ps) Ns t
  | [], _, _, _, _, _, hi, _, _, _, _ => by simp at hi
  | P :: Ps, [], _, _, _, hl, _, _, _, _, _ => by simp at hl
  | P :: Ps, N :: Ns, 0, t, l, hl, hi, hnd, h1, h2, hw => by
    simp only [List.getElem?_cons_zero, Option.some.injEq] at hi
    subst hi
    simp only [wellFormed] at hw
    have hb := hw.1 (by simp)
    have hN : t ∉ N := fun h => hb (hw.2.1 h)
    refine ⟨Or.inl (by simp), ?_, ?_⟩
    · simp only [popAt, present, List.tail_cons]
      rintro (h | ⟨_, h⟩)
      · exact hnd h
      · exact hb h
    · simp only [popAt, wellFormed, List.tail_cons]
      exact ⟨fun h => absurd h hnd, fun h => absurd h hN, hw.2.2⟩
  | P :: Ps, N :: Ns, i + 1, t, l, hl, hi, hnd, h1, h2, hw => by
    simp only [wellFormed] at hw
    have hP : t ∉ P := h1 P (by simp)
    have hN : t ∉ N := h2 N (by simp)
    obtain ⟨a, b, c⟩ := step_emit (i := i) (t := t) (l := l) (by simpa using hl) (by simpa using hi)
      hnd (fun Q hQ => h1 Q (by simp [hQ])) (fun Q hQ => h2 Q (by simp [hQ])) hw.2.2
    refine ⟨Or.inr ⟨hN, a⟩, ?_, ?_⟩
    · simp only [popAt, present]
      rintro (h | ⟨_, h⟩)
      · exact hP h
      · exact b h
    · simp only [popAt, wellFormed]
      exact ⟨fun h => absurd h hP, fun h => absurd h hN, c⟩

theorem popNeg_none {t : Triple} {k : Nat} {Ns : List (List Triple)}
    (h : popNeg t k Ns = none) : ∀ N ∈ Ns.take k, N.head? ≠ some t := by
  induction Ns generalizing k with
  | nil => simp
  | cons N Ns ih =>
    cases k with
    | zero => simp
    | succ k =>
      simp only [popNeg] at h
      split at h
      · simp at h
      · rename_i hh
        rw [Option.map_eq_none_iff] at h
        intro M hM
        rw [List.take_succ_cons] at hM
        rcases List.mem_cons.1 hM with rfl | hM
        · exact hh
        · exact ih h M hM

/-- Popping an addition together with its removal. -/
theorem step_skip : ∀ {Ps Ns Ns' : List (List Triple)} {i : Nat} {t : Triple} {l : List Triple},
    Ps.length = Ns.length → Ps[i]? = some (t :: l) → t ∉ l → (∀ P ∈ Ps.take i, t ∉ P) →
    (∀ N ∈ Ns.take i, t ∈ N → ∃ N', N = t :: N' ∧ t ∉ N') → wellFormed Ps Ns t →
    popNeg t i Ns = some Ns' →
    ¬ present Ps Ns t ∧ ¬ present (popAt i Ps) Ns' t ∧ wellFormed (popAt i Ps) Ns' t
  | [], _, _, _, _, _, _, hi, _, _, _, _, _ => by simp at hi
  | P :: Ps, [], _, _, _, _, hl, _, _, _, _, _, _ => by simp at hl
  | P :: Ps, N :: Ns, Ns', 0, t, l, hl, hi, hnd, h1, h2, hw, hp => by simp [popNeg] at hp
  | P :: Ps, N :: Ns, Ns', i + 1, t, l, hl, hi, hnd, h1, h2, hw, hp => by
    simp only [wellFormed] at hw
    have hP : t ∉ P := h1 P (by simp)
    have hl' : Ps.length = Ns.length := by simpa using hl
    have hi' : Ps[i]? = some (t :: l) := by simpa using hi
    have h1' : ∀ Q ∈ Ps.take i, t ∉ Q := fun Q hQ => h1 Q (by simp [hQ])
    have h2' : ∀ Q ∈ Ns.take i, t ∈ Q → ∃ N', Q = t :: N' ∧ t ∉ N' :=
      fun Q hQ => h2 Q (by simp [hQ])
    simp only [popNeg] at hp
    split at hp
    · rename_i hh
      simp only [Option.some.injEq] at hp
      subst hp
      have hmem : t ∈ N := List.mem_of_head? hh
      obtain ⟨N', rfl, hN'⟩ := h2 N (by simp) hmem
      have hpres := hw.2.1 hmem
      -- no layer in between removes it, otherwise it would not be present
      have hnone : ∀ M ∈ Ns.take i, t ∉ M := by
        intro M hM hmM
        have : ∃ Ns'', popNeg t i Ns = some Ns'' := by
          cases hpn : popNeg t i Ns with
          | some x => exact ⟨x, rfl⟩
          | none =>
            obtain ⟨_, rfl, _⟩ := h2' M hM hmM
            exact absurd rfl (popNeg_none hpn _ hM)
        obtain ⟨Ns'', hpop⟩ := this
        exact (step_skip hl' hi' hnd h1' h2' hw.2.2 hpop).1 hpres
      obtain ⟨a, b, c⟩ := step_emit hl' hi' hnd h1' hnone hw.2.2
      refine ⟨?_, ?_, ?_⟩
      · simp only [present]
        rintro (h | ⟨h, _⟩)
        · exact hP h
        · exact h hmem
      · simp only [popAt, present, List.tail_cons]
        rintro (h | ⟨_, h⟩)
        · exact hP h
        · exact b h
      · simp only [popAt, wellFormed, List.tail_cons]
        exact ⟨fun h => absurd h hP, fun h => absurd h hN', c⟩
    · rename_i hh
      rw [Option.map_eq_some_iff] at hp
      obtain ⟨Ns'', hp, rfl⟩ := hp
      have hN : t ∉ N := by
        intro hmem
        obtain ⟨_, rfl, _⟩ := h2 N (by simp) hmem
        simp at hh
      obtain ⟨a, b, c⟩ := step_skip hl' hi' hnd h1' h2' hw.2.2 hp
      refine ⟨?_, ?_, ?_⟩
      · simp only [present]
        rintro (h | ⟨_, h⟩)
        · exact hP h
        · exact a h
      · simp only [popAt, present]
        rintro (h | ⟨_, h⟩)
        · exact hP h
        · exact b h
      · simp only [popAt, wellFormed]
        exact ⟨fun h => absurd h hP, fun h => absurd h hN, c⟩

/-- The main theorem: within a region `Q` that is closed downwards and in which
the stack is well formed, the output lists exactly the present triples. -/
theorem Merge.spec {key : Triple → Triple} (hinj : ∀ a b, key a = key b → a = b)
    {Q : Triple → Prop} (hQ : ∀ a b, key a ≤ key b → Q b → Q a)
    {Ps Ns : List (List Triple)} {out : List Triple} (h : Merge key Ps Ns out)
    (hl : Ps.length = Ns.length) (hP : ∀ P ∈ Ps, KeySorted key P)
    (hN : ∀ N ∈ Ns, KeySorted key N) (hw : ∀ t, Q t → wellFormed Ps Ns t) :
    (∀ t, Q t → (t ∈ out ↔ present Ps Ns t)) ∧
      out.Pairwise (fun a b => Q b → key a < key b) := by
  -- facts about one step
  have facts : ∀ {Ps Ns : List (List Triple)} {i : Nat} {t : Triple},
      Ps.length = Ns.length → (∀ P ∈ Ps, KeySorted key P) → (∀ N ∈ Ns, KeySorted key N) →
      (∀ t, Q t → wellFormed Ps Ns t) → minIndex key (Ps.map List.head?) = some (i, t) →
      Q t → (∃ l, Ps[i]? = some (t :: l) ∧ t ∉ l) ∧ (∀ P ∈ Ps.take i, t ∉ P) ∧
        ∀ N ∈ Ns, t ∈ N → ∃ N', N = t :: N' ∧ t ∉ N' := by
    intro Ps Ns i t hl hP hN hw hm hq
    obtain ⟨h1, h2⟩ := minIndex_min hP hm
    obtain ⟨l, h3⟩ := minIndex_head hm
    have hnd : ∀ {t : Triple} {l : List Triple}, KeySorted key (t :: l) → t ∉ l := by
      intro t l hs hmem
      exact lt_irrefl _ ((List.pairwise_cons.1 hs).1 t hmem)
    refine ⟨⟨l, h3, hnd (hP _ (List.mem_of_getElem? h3))⟩, h2, ?_⟩
    intro N hmN htN
    cases N with
    | nil => simp at htN
    | cons a N' =>
      have hs := hN _ hmN
      rcases List.mem_cons.1 htN with rfl | htN
      · exact ⟨N', rfl, hnd hs⟩
      · have hlt : key a < key t := (List.pairwise_cons.1 hs).1 t htN
        obtain ⟨P, h4, h5⟩ := wellFormed_neg hl (hw a (hQ a t (le_of_lt hlt) hq))
          ⟨_, hmN, List.mem_cons_self⟩
        exact absurd (h1 P h4 a h5) (not_le.2 hlt)
  induction h with
  | @nil Ps Ns hm =>
    refine ⟨fun t _ => ⟨by simp, fun hp => ?_⟩, List.Pairwise.nil⟩
    obtain ⟨P, h1, h2⟩ := present_mem hp
    rw [minIndex_none hm P h1] at h2
    simp at h2
  | @skip Ps Ns Ns' i t out hm hpop hM ih =>
    obtain ⟨l, hl'⟩ := minIndex_head hm
    have hlen' : (popAt i Ps).length = Ns'.length := by
      rw [popAt_length, popNeg_length hpop, hl]
    have hP' := popAt_sorted (i := i) hP
    have hN' := popNeg_sorted hpop hN
    have hw' : ∀ u, Q u → wellFormed (popAt i Ps) Ns' u := by
      intro u hu
      by_cases hut : u = t
      · subst hut
        obtain ⟨⟨l, h1, h2⟩, h3, h4⟩ := facts hl hP hN hw hm hu
        exact (step_skip hl h1 h2 h3 (fun N hmN => h4 N (List.mem_of_mem_take hmN))
          (hw u hu) hpop).2.2
      · exact (wellFormed_congr (popAt_agree hl' hut) (popNeg_agree hpop hut)).1 (hw u hu)
    obtain ⟨ih1, ih2⟩ := ih hlen' hP' hN' hw'
    refine ⟨fun u hu => ?_, ih2⟩
    rw [ih1 u hu]
    by_cases hut : u = t
    · subst hut
      obtain ⟨⟨l, h1, h2⟩, h3, h4⟩ := facts hl hP hN hw hm hu
      have := step_skip hl h1 h2 h3 (fun N hmN => h4 N (List.mem_of_mem_take hmN))
        (hw u hu) hpop
      exact ⟨fun h => absurd h this.2.1, fun h => absurd h this.1⟩
    · exact (present_congr (popAt_agree hl' hut) (popNeg_agree hpop hut)).symm
  | @emit Ps Ns i t out hm hpop hM ih =>
    obtain ⟨l, hl'⟩ := minIndex_head hm
    have hlen' : (popAt i Ps).length = Ns.length := by rw [popAt_length, hl]
    have hP' := popAt_sorted (i := i) hP
    have hstep : Q t → present Ps Ns t ∧ ¬ present (popAt i Ps) Ns t ∧
        wellFormed (popAt i Ps) Ns t := by
      intro hu
      obtain ⟨⟨l, h1, h2⟩, h3, h4⟩ := facts hl hP hN hw hm hu
      refine step_emit hl h1 h2 h3 ?_ (hw t hu)
      intro N hmN htN
      obtain ⟨N', rfl, _⟩ := h4 N (List.mem_of_mem_take hmN) htN
      exact popNeg_none hpop _ hmN (by simp)
    have hw' : ∀ u, Q u → wellFormed (popAt i Ps) Ns u := by
      intro u hu
      by_cases hut : u = t
      · subst hut
        exact (hstep hu).2.2
      · exact (wellFormed_congr (popAt_agree hl' hut) (AgreeOn.refl _ _)).1 (hw u hu)
    obtain ⟨ih1, ih2⟩ := ih hlen' hP' hN hw'
    refine ⟨fun u hu => ?_, List.pairwise_cons.2 ⟨?_, ih2⟩⟩
    · rw [List.mem_cons, ih1 u hu]
      by_cases hut : u = t
      · subst hut
        exact ⟨fun _ => (hstep hu).1, fun _ => Or.inl rfl⟩
      · rw [← present_congr (popAt_agree hl' hut) (AgreeOn.refl _ _)]
        exact ⟨fun h => h.resolve_left hut, Or.inr⟩
    · intro u hu hq
      have h1 := (minIndex_min hP hm).1
      obtain ⟨P, h2, h3⟩ := mem_popAt (hM.mem u hu)
      refine lt_of_le_of_ne (h1 P h2 u h3) (fun heq => ?_)
      have := hinj _ _ heq
      subst this
      exact (hstep hq).2.1 ((ih1 t hq).1 hu)

end Verif
