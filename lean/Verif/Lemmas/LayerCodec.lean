import Verif.Lemmas.LayerStore
import Verif.Model.Crash

/-!
How the contents of a layer are read back follows from what is known about single files.
-/

set_option linter.unusedSectionVars false

namespace Verif

open LayerFiles Pack

variable {K V : Type} [LinearOrder K] [LinearOrder V]

namespace Coder

/-- The contents of the files that are written, by kind. -/
def kindFile (c : Coder K V) (child : Bool) (d : LayerData K V) (k : FileKind) : Option Bytes :=
  match writeLayer c child d with
  | .ok ws => (ws.find? (fun q => decide (FileName.kind q.1 = .ok k))).map (·.2)
  | _ => none

/-- The files of a layer when they are given by kind. -/
def kindAccess (g : FileKind → Option Bytes) : Access FileName where
  ex f := (FileName.kind f).bind (fun k => .ok (g k).isSome)
  map f := (FileName.kind f).bind (fun k => ArchiveHeader.orErr (g k))

theorem kindAccess_holds {g : FileKind → Option Bytes} {f : FileName} {k : FileKind}
    {x : Option Bytes} (hk : FileName.kind f = .ok k) (hg : g k = x) :
    Holds (kindAccess g) f x := by
  refine ⟨?_, fun b hb => ?_⟩
  · show (FileName.kind f).bind _ = _
    rw [hk]
    show Out.ok _ = _
    rw [hg]
  · show (FileName.kind f).bind _ = _
    rw [hk]
    show ArchiveHeader.orErr (g k) = _
    rw [hg, hb]
    rfl

/-- Layers are read back, if dictionaries, arrays of numbers, bits and wavelet trees are read
back. -/
def codec (c : Coder K V) : LayerCodec K V where
  files := c.kindFile
  read child g := loadLayer c (kindAccess g) child []
  read_files := by
    intro d S hr hb hc g hg
    have hform : Formed (!S.isEmpty) d := by
      cases S with
      | nil => exact hb rfl
      | cons _ _ => exact hc (by simp)
    obtain ⟨ws, h1, h2, h3⟩ := writeLayer_ok c hr.fits hform
    have hnames : ∀ q ∈ ws, q.1 ∈ packNames (!S.isEmpty) := fun q hq =>
      keys_sub _ _ _ _ (h2 ▸ List.mem_map.2 ⟨q, hq, rfl⟩)
    have hnd : (ws.map (·.1)).Nodup := h2 ▸ keys_nodup _ _ _
    have hfile : ∀ k, k ≠ FileKind.parent → k ≠ FileKind.rollup →
        g k = (ws.find? (fun q => decide (FileName.kind q.1 = .ok k))).map (·.2) := by
      intro k k1 k2
      rw [hg k k1 k2]
      unfold kindFile
      rw [h1]
    have hnp : ∀ f ∈ packNames (!S.isEmpty), f ≠ FileName.parent → ∃ k, FileName.kind f = .ok k ∧
        k ≠ FileKind.parent ∧ k ≠ FileKind.rollup := by
      intro f hf hne
      obtain ⟨k, g1, g2⟩ := packNames_kinds _ f hf
      refine ⟨k, g1, fun e => hne (packNames_parent _ f hf (e ▸ g1)), g2⟩
    have hk : Kept c (kindAccess g) (!S.isEmpty) d := by
      refine h3 _ (fun q hq => ?_) (fun f hf f1 f2 => ?_)
      · have hq1 := hnames q hq
        obtain ⟨k, g1, g2, g3⟩ := hnp q.1 hq1 (fun e => keys_parent (!S.isEmpty) d.nvMap.isSome
          d.pMap.isSome (h2 ▸ e ▸ List.mem_map.2 ⟨q, hq, rfl⟩))
        refine kindAccess_holds g1 ?_
        rw [hfile k g2 g3]
        cases hf : ws.find? (fun q => decide (FileName.kind q.1 = .ok k)) with
        | none =>
          have := List.find?_eq_none.1 hf q hq
          simp [g1] at this
        | some r =>
          have h4 := List.find?_some hf
          have h5 := List.mem_of_find?_eq_some hf
          simp only [decide_eq_true_eq] at h4
          have h6 := kind_inj (hnames r h5) hq1 (h4.trans g1.symm)
          have := List.inj_on_of_nodup_map hnd h5 hq h6
          rw [this]
          rfl
      · obtain ⟨k, g1, g2, g3⟩ := hnp f hf f2
        refine kindAccess_holds g1 ?_
        rw [hfile k g2 g3]
        cases hff : ws.find? (fun q => decide (FileName.kind q.1 = .ok k)) with
        | none => rfl
        | some r =>
          have h4 := List.find?_some hff
          have h5 := List.mem_of_find?_eq_some hff
          simp only [decide_eq_true_eq] at h4
          have h6 := kind_inj (hnames r h5) hf (h4.trans g1.symm)
          exact absurd (List.mem_map.2 ⟨r, h5, h6⟩) f1
    refine ⟨d.onTop [], (hk.reads hr).load [] (Or.inr rfl), fun T => rfl⟩

end Coder

end Verif
