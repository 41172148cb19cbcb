import Verif.Model.LayerFiles
import Verif.Lemmas.Index
import Mathlib.Order.Basic

/-!
The numbers in the files of a layer fit in the widths that are chosen for them.
-/

namespace Verif

theorem lt_calcWidth {x n : Nat} (h : x ≤ n) : x < 2 ^ calcWidth n := by
  unfold calcWidth
  split
  · omega
  · exact Nat.lt_of_le_of_lt h Nat.lt_log2_self

/-- A number that is too large for the width does not pass. -/
theorem le_of_lt_calcWidth (n : Nat) (h : n ≠ 0) : 2 ^ calcWidth n ≤ 2 * n := by
  unfold calcWidth
  rw [if_neg h, Nat.pow_succ, Nat.mul_comm]
  exact Nat.mul_le_mul_left 2 (Nat.log2_self_le h)

theorem le_getLastD {l : List Nat} (h : l.Pairwise (· ≤ ·)) {x : Nat} (hx : x ∈ l) :
    x ≤ l.getLastD 0 := by
  have hne : l ≠ [] := List.ne_nil_of_mem hx
  rw [List.getLastD_eq_getLast?, List.getLast?_eq_some_getLast hne, Option.getD_some]
  obtain ⟨i, hi, rfl⟩ := List.mem_iff_getElem.1 hx
  rw [List.getLast_eq_getElem]
  by_cases e : i = l.length - 1
  · subst e; exact Nat.le_refl _
  · exact List.pairwise_iff_getElem.1 h _ _ hi (by omega) (by omega)

/-- Every left of an adjacency list has an entry. -/
theorem AdjRep.hit {a : AdjList} {P : List (Nat × Nat)} (h : AdjRep a P) {i : Nat}
    (hi : i < a.leftCount) : ∃ q ∈ P, q.1 = i + 1 := by
  obtain ⟨k, h1, h2, h3⟩ := a.offsetFor_spec (Nat.le_of_lt hi)
  have ho := a.offsetFor_ones (Nat.le_of_lt hi) h1
  have hk : k < P.length := by
    rcases Nat.lt_or_ge k P.length with g | g
    · exact g
    · exfalso
      have := ones_mono a.bits g
      rw [h.ones_end] at this
      omega
  exact ⟨P[k], List.getElem_mem hk, by rw [h.left k hk, ho]⟩

/-- What has to fit in the widths. -/
structure TripleIndex.Fits (x : TripleIndex) (np no : Nat) : Prop where
  sp : ∀ y ∈ x.sp.nums, y ≤ np
  spo : ∀ y ∈ x.spo.nums, y ≤ no
  ops : ∀ y ∈ x.ops.nums, y ≤ LayerFiles.greatestSp x.spo
  subjects : ∀ l, x.subjects = some l → ∀ y ∈ l, y ≤ l.getLastD 0
  objects : ∀ l, x.objects = some l → ∀ y ∈ l, y ≤ l.getLastD 0
  wavelet : x.wavelet = x.sp.nums
  both : x.subjects.isSome = x.objects.isSome

theorem Stored.fits {x : TripleIndex} {ts : List Triple} (h : Stored x ts) {np no : Nat}
    (hr : ∀ t ∈ ts, t.p ≤ np ∧ t.o ≤ no) : x.Fits np no := by
  have hz := h.nonzero
  obtain ⟨lo, Psp, Pspo, Pops, hc, ho, hw, _, hm, hb⟩ := h
  have hmem : ∀ q ∈ Pspo, q.2 ≠ 0 → ∃ t ∈ ts, ∃ rp, Psp[q.1 - 1]? = some rp ∧ t.p = rp.2 ∧ t.o = q.2 := by
    intro q hq hne
    obtain ⟨rp, hrp, _⟩ := hc.stub q hq
    obtain ⟨s, _, _, hd⟩ := hc.dec_some hrp hne
    refine ⟨⟨s, rp.2, q.2⟩, ?_, rp, hrp, rfl, rfl⟩
    rw [← hc.decEq]
    exact List.mem_filterMap.2 ⟨q, hq, hd⟩
  have hcell : ∀ i, (hi : i < Psp.length) → Psp[i].2 ≠ 0 → ∃ q ∈ Pspo, q.1 = i + 1 ∧ q.2 ≠ 0 := by
    intro i hi hne
    obtain ⟨q, hq, h1⟩ := hc.repSpo.hit (i := i) (by rw [hc.spoLeft]; exact hi)
    obtain ⟨rp, hrp, hs⟩ := hc.stub q hq
    refine ⟨q, hq, h1, fun e => hne ?_⟩
    rw [h1, Nat.add_sub_cancel, List.getElem?_eq_getElem hi] at hrp
    cases hrp
    exact hs.2 e
  refine ⟨?_, ?_, ?_, ?_, ?_, hw, hb⟩
  · intro y hy
    rw [hc.repSp.nums] at hy
    obtain ⟨rp, hrp, rfl⟩ := List.mem_map.1 hy
    by_cases e : rp.2 = 0
    · omega
    · obtain ⟨i, hi, rfl⟩ := List.mem_iff_getElem.1 hrp
      obtain ⟨q, hq, h1, h2⟩ := hcell i hi e
      obtain ⟨t, ht, rp, hrp, h3, _⟩ := hmem q hq h2
      rw [h1, Nat.add_sub_cancel, List.getElem?_eq_getElem hi] at hrp
      cases hrp
      have := hr t ht
      omega
  · intro y hy
    rw [hc.repSpo.nums] at hy
    obtain ⟨q, hq, rfl⟩ := List.mem_map.1 hy
    by_cases e : q.2 = 0
    · omega
    · obtain ⟨t, ht, _, _, _, h3⟩ := hmem q hq e
      have := hr t ht
      omega
  · intro y hy
    rw [ho.repOps.nums] at hy
    obtain ⟨q, hq, rfl⟩ := List.mem_map.1 hy
    by_cases e : q.2 = 0
    · omega
    · have hlt : q.2 - 1 < Psp.length := (ho.cellLt q hq).resolve_right e
      obtain ⟨s, hs, _⟩ := hc.subjOf_some (List.getElem_mem hlt)
      have hobj : ∃ o, subjOf x.objects q.1 = some o := by
        unfold subjOf
        cases hx : x.objects with
        | none => exact ⟨_, rfl⟩
        | some l =>
          have h1 := ho.repOps.fst_pos hq
          have h2 := ho.repOps.fst_le hq
          have h3 := (ho.obj l hx).2.1
          exact ⟨l[q.1 - 1]'(by omega), List.getElem?_eq_getElem _⟩
      obtain ⟨o, hob⟩ := hobj
      have hd : decO x.subjects x.objects Psp q = some ⟨s, Psp[q.2 - 1].2, o⟩ := by
        simp [decO, decP, e, hob, cellTriple, List.getElem?_eq_getElem hlt, hs]
      have ht : (⟨s, Psp[q.2 - 1].2, o⟩ : Triple) ∈ ts := by
        rw [← hm, ← ho.decEq]
        exact List.mem_filterMap.2 ⟨q, hq, hd⟩
      have hp : Psp[q.2 - 1].2 ≠ 0 := (hz _ ht).2.1
      obtain ⟨q', hq', h1, h2⟩ := hcell _ hlt hp
      have hin : q' ∈ streamPairs x.spo := by
        rw [streamPairs_eq hc.repSpo]
        exact List.mem_filter.2 ⟨hq', by simpa using h2⟩
      have hsort : ((streamPairs x.spo).map (·.1)).Pairwise (· ≤ ·) := by
        rw [streamPairs_eq hc.repSpo, List.pairwise_map]
        refine (hc.repSpo.sorted.filter _).imp ?_
        intro a b hab
        rcases hab with g | g
        · omega
        · omega
      have := le_getLastD hsort (List.mem_map_of_mem hin)
      unfold LayerFiles.greatestSp
      omega
  · intro l hl y hy
    exact le_getLastD ((hc.subj l hl).1.imp (fun g => Nat.le_of_lt g)) hy
  · intro l hl y hy
    exact le_getLastD ((ho.obj l hl).1.imp (fun g => Nat.le_of_lt g)) hy

end Verif
