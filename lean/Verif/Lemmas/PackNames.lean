import Verif.NameSpec
import Verif.Model.Strings

/-!
Facts about the names of the files of layers. Strings are slow to compare in the kernel, lists
of code points are not, so the facts are shown for the latter.
-/

namespace Verif

open PackSpec

theorem textOf_stringOf {t : Text} (h : ∀ c ∈ t, c < 0x80) : textOf (stringOf t) = t := by
  unfold textOf stringOf
  rw [String.toList_ofList, List.map_map]
  induction t with
  | nil => rfl
  | cons c t ih =>
    have hc := h c List.mem_cons_self
    rw [List.map_cons, ih (fun c hc => h c (List.mem_cons_of_mem _ hc))]
    congr 1
    show (Char.ofNat c).toNat = c
    have hv : c.isValidChar := Or.inl (by omega)
    unfold Char.ofNat
    rw [dif_pos hv]
    rfl

theorem stringOf_inj {t u : Text} (ht : ∀ c ∈ t, c < 0x80) (hu : ∀ c ∈ u, c < 0x80) :
    stringOf t = stringOf u ↔ t = u :=
  ⟨fun h => by rw [← textOf_stringOf ht, h, textOf_stringOf hu], fun h => by rw [h]⟩

theorem isPrefixOf_map {α β : Type} [DecidableEq α] [DecidableEq β] (g : α → β) (p t : List α)
    (h : ∀ a ∈ p, ∀ b ∈ t, g a = g b → a = b) :
    (p.map g).isPrefixOf (t.map g) = p.isPrefixOf t := by
  induction p generalizing t with
  | nil => simp
  | cons a p ih =>
    cases t with
    | nil => rfl
    | cons b t =>
      rw [List.map_cons, List.map_cons, List.isPrefixOf_cons_cons, List.isPrefixOf_cons_cons,
        ih t (fun a ha b hb => h a (List.mem_cons_of_mem _ ha) b (List.mem_cons_of_mem _ hb))]
      congr 1
      by_cases e : a = b
      · simp [e]
      · have : g a ≠ g b := fun e' => e (h a List.mem_cons_self b List.mem_cons_self e')
        rw [beq_eq_false_iff_ne.mpr e, beq_eq_false_iff_ne.mpr this]

theorem ofNat_inj {a b : Nat} (ha : a < 0x80) (hb : b < 0x80) (h : Char.ofNat a = Char.ofNat b) :
    a = b := by
  have : ∀ c, c < 0x80 → (Char.ofNat c).toNat = c := fun c hc => by
    have hv : c.isValidChar := Or.inl (by omega)
    unfold Char.ofNat
    rw [dif_pos hv]
    rfl
  rw [← this a ha, h, this b hb]

theorem hasPrefix_eq {p t : Text} (hp : ∀ c ∈ p, c < 0x80) (ht : ∀ c ∈ t, c < 0x80) :
    hasPrefix (stringOf p) (stringOf t) = p.isPrefixOf t := by
  unfold hasPrefix stringOf
  rw [String.toList_ofList, String.toList_ofList]
  exact isPrefixOf_map _ _ _ (fun a ha b hb => ofNat_inj (hp a ha) (ht b hb))

namespace Pack

/-- The names of the files that are exported, in their order. -/
def packNames (child : Bool) : List FileName :=
  FileName.sharedRequired ++ FileName.sharedOptional.filter (fun f => f ≠ FileName.rollup) ++
    (if child then FileName.childRequired ++ FileName.childOptional
     else FileName.baseRequired ++ FileName.baseOptional)

/-- `FileName.table` with code points. -/
def tableT : List (Text × FileKind) :=
  [([110, 111, 100, 101, 95, 100, 105, 99, 116, 105, 111, 110, 97, 114, 121, 95, 98, 108, 111,
     99, 107, 115, 46, 116, 102, 99], 0),
   ([110, 111, 100, 101, 95, 100, 105, 99, 116, 105, 111, 110, 97, 114, 121, 95, 111, 102, 102,
     115, 101, 116, 115, 46, 108, 111, 103, 97, 114, 114, 97, 121], 1),
   ([112, 114, 101, 100, 105, 99, 97, 116, 101, 95, 100, 105, 99, 116, 105, 111, 110, 97, 114,
     121, 95, 98, 108, 111, 99, 107, 115, 46, 116, 102, 99], 2),
   ([112, 114, 101, 100, 105, 99, 97, 116, 101, 95, 100, 105, 99, 116, 105, 111, 110, 97, 114,
     121, 95, 111, 102, 102, 115, 101, 116, 115, 46, 108, 111, 103, 97, 114, 114, 97, 121], 3),
   ([118, 97, 108, 117, 101, 95, 100, 105, 99, 116, 105, 111, 110, 97, 114, 121, 95, 116, 121,
     112, 101, 115, 46, 108, 111, 103, 97, 114, 114, 97, 121], 4),
   ([118, 97, 108, 117, 101, 95, 100, 105, 99, 116, 105, 111, 110, 97, 114, 121, 95, 116, 121,
     112, 101, 95, 111, 102, 102, 115, 101, 116, 115, 46, 108, 111, 103, 97, 114, 114, 97, 121],
     5),
   ([118, 97, 108, 117, 101, 95, 100, 105, 99, 116, 105, 111, 110, 97, 114, 121, 95, 98, 108,
     111, 99, 107, 115, 46, 116, 102, 99], 6),
   ([118, 97, 108, 117, 101, 95, 100, 105, 99, 116, 105, 111, 110, 97, 114, 121, 95, 111, 102,
     102, 115, 101, 116, 115, 46, 108, 111, 103, 97, 114, 114, 97, 121], 7),
   ([110, 111, 100, 101, 95, 118, 97, 108, 117, 101, 95, 105, 100, 109, 97, 112, 95, 98, 105,
     116, 115, 46, 98, 105, 116, 97, 114, 114, 97, 121], 8),
   ([110, 111, 100, 101, 95, 118, 97, 108, 117, 101, 95, 105, 100, 109, 97, 112, 95, 98, 105,
     116, 95, 105, 110, 100, 101, 120, 95, 98, 108, 111, 99, 107, 115, 46, 98, 105, 116, 97, 114,
     114, 97, 121], 9),
   ([110, 111, 100, 101, 95, 118, 97, 108, 117, 101, 95, 105, 100, 109, 97, 112, 95, 98, 105,
     116, 95, 105, 110, 100, 101, 120, 95, 115, 98, 108, 111, 99, 107, 115, 46, 98, 105, 116, 97,
     114, 114, 97, 121], 10),
   ([112, 114, 101, 100, 105, 99, 97, 116, 101, 95, 105, 100, 109, 97, 112, 95, 98, 105, 116,
     115, 46, 98, 105, 116, 97, 114, 114, 97, 121], 11),
   ([112, 114, 101, 100, 105, 99, 97, 116, 101, 95, 105, 100, 109, 97, 112, 95, 98, 105, 116,
     95, 105, 110, 100, 101, 120, 95, 98, 108, 111, 99, 107, 115, 46, 98, 105, 116, 97, 114, 114,
     97, 121], 12),
   ([112, 114, 101, 100, 105, 99, 97, 116, 101, 95, 105, 100, 109, 97, 112, 95, 98, 105, 116,
     95, 105, 110, 100, 101, 120, 95, 115, 98, 108, 111, 99, 107, 115, 46, 98, 105, 116, 97, 114,
     114, 97, 121], 13),
   ([98, 97, 115, 101, 95, 115, 117, 98, 106, 101, 99, 116, 115, 46, 108, 111, 103, 97, 114,
     114, 97, 121], 14),
   ([98, 97, 115, 101, 95, 111, 98, 106, 101, 99, 116, 115, 46, 108, 111, 103, 97, 114, 114,
     97, 121], 15),
   ([99, 104, 105, 108, 100, 95, 112, 111, 115, 95, 115, 117, 98, 106, 101, 99, 116, 115, 46,
     108, 111, 103, 97, 114, 114, 97, 121], 14),
   ([99, 104, 105, 108, 100, 95, 112, 111, 115, 95, 111, 98, 106, 101, 99, 116, 115, 46, 108,
     111, 103, 97, 114, 114, 97, 121], 15),
   ([99, 104, 105, 108, 100, 95, 110, 101, 103, 95, 115, 117, 98, 106, 101, 99, 116, 115, 46,
     108, 111, 103, 97, 114, 114, 97, 121], 16),
   ([99, 104, 105, 108, 100, 95, 110, 101, 103, 95, 111, 98, 106, 101, 99, 116, 115, 46, 108,
     111, 103, 97, 114, 114, 97, 121], 17),
   ([98, 97, 115, 101, 95, 115, 95, 112, 95, 97, 100, 106, 97, 99, 101, 110, 99, 121, 95, 108,
     105, 115, 116, 95, 110, 117, 109, 115, 46, 108, 111, 103, 97, 114, 114, 97, 121], 18),
   ([98, 97, 115, 101, 95, 115, 95, 112, 95, 97, 100, 106, 97, 99, 101, 110, 99, 121, 95, 108,
     105, 115, 116, 95, 98, 105, 116, 115, 46, 98, 105, 116, 97, 114, 114, 97, 121], 19),
   ([98, 97, 115, 101, 95, 115, 95, 112, 95, 97, 100, 106, 97, 99, 101, 110, 99, 121, 95, 108,
     105, 115, 116, 95, 98, 105, 116, 95, 105, 110, 100, 101, 120, 95, 98, 108, 111, 99, 107,
     115, 46, 108, 111, 103, 97, 114, 114, 97, 121], 20),
   ([98, 97, 115, 101, 95, 115, 95, 112, 95, 97, 100, 106, 97, 99, 101, 110, 99, 121, 95, 108,
     105, 115, 116, 95, 98, 105, 116, 95, 105, 110, 100, 101, 120, 95, 115, 98, 108, 111, 99,
     107, 115, 46, 108, 111, 103, 97, 114, 114, 97, 121], 21),
   ([98, 97, 115, 101, 95, 115, 112, 95, 111, 95, 97, 100, 106, 97, 99, 101, 110, 99, 121, 95,
     108, 105, 115, 116, 95, 110, 117, 109, 115, 46, 108, 111, 103, 97, 114, 114, 97, 121], 22),
   ([98, 97, 115, 101, 95, 115, 112, 95, 111, 95, 97, 100, 106, 97, 99, 101, 110, 99, 121, 95,
     108, 105, 115, 116, 95, 98, 105, 116, 115, 46, 98, 105, 116, 97, 114, 114, 97, 121], 23),
   ([98, 97, 115, 101, 95, 115, 112, 95, 111, 95, 97, 100, 106, 97, 99, 101, 110, 99, 121, 95,
     108, 105, 115, 116, 95, 98, 105, 116, 95, 105, 110, 100, 101, 120, 95, 98, 108, 111, 99,
     107, 115, 46, 108, 111, 103, 97, 114, 114, 97, 121], 24),
   ([98, 97, 115, 101, 95, 115, 112, 95, 111, 95, 97, 100, 106, 97, 99, 101, 110, 99, 121, 95,
     108, 105, 115, 116, 95, 98, 105, 116, 95, 105, 110, 100, 101, 120, 95, 115, 98, 108, 111,
     99, 107, 115, 46, 108, 111, 103, 97, 114, 114, 97, 121], 25),
   ([98, 97, 115, 101, 95, 111, 95, 112, 115, 95, 97, 100, 106, 97, 99, 101, 110, 99, 121, 95,
     108, 105, 115, 116, 95, 110, 117, 109, 115, 46, 108, 111, 103, 97, 114, 114, 97, 121], 26),
   ([98, 97, 115, 101, 95, 111, 95, 112, 115, 95, 97, 100, 106, 97, 99, 101, 110, 99, 121, 95,
     108, 105, 115, 116, 95, 98, 105, 116, 115, 46, 98, 105, 116, 97, 114, 114, 97, 121], 27),
   ([98, 97, 115, 101, 95, 111, 95, 112, 115, 95, 97, 100, 106, 97, 99, 101, 110, 99, 121, 95,
     108, 105, 115, 116, 95, 98, 105, 116, 95, 105, 110, 100, 101, 120, 95, 98, 108, 111, 99,
     107, 115, 46, 108, 111, 103, 97, 114, 114, 97, 121], 28),
   ([98, 97, 115, 101, 95, 111, 95, 112, 115, 95, 97, 100, 106, 97, 99, 101, 110, 99, 121, 95,
     108, 105, 115, 116, 95, 98, 105, 116, 95, 105, 110, 100, 101, 120, 95, 115, 98, 108, 111,
     99, 107, 115, 46, 108, 111, 103, 97, 114, 114, 97, 121], 29),
   ([98, 97, 115, 101, 95, 112, 114, 101, 100, 105, 99, 97, 116, 101, 95, 119, 97, 118, 101,
     108, 101, 116, 95, 116, 114, 101, 101, 95, 98, 105, 116, 115, 46, 98, 105, 116, 97, 114,
     114, 97, 121], 30),
   ([98, 97, 115, 101, 95, 112, 114, 101, 100, 105, 99, 97, 116, 101, 95, 119, 97, 118, 101,
     108, 101, 116, 95, 116, 114, 101, 101, 95, 98, 105, 116, 95, 105, 110, 100, 101, 120, 95,
     98, 108, 111, 99, 107, 115, 46, 108, 111, 103, 97, 114, 114, 97, 121], 31),
   ([98, 97, 115, 101, 95, 112, 114, 101, 100, 105, 99, 97, 116, 101, 95, 119, 97, 118, 101,
     108, 101, 116, 95, 116, 114, 101, 101, 95, 98, 105, 116, 95, 105, 110, 100, 101, 120, 95,
     115, 98, 108, 111, 99, 107, 115, 46, 108, 111, 103, 97, 114, 114, 97, 121], 32),
   ([112, 111, 115, 95, 115, 95, 112, 95, 97, 100, 106, 97, 99, 101, 110, 99, 121, 95, 108,
     105, 115, 116, 95, 110, 117, 109, 115, 46, 108, 111, 103, 97, 114, 114, 97, 121], 18),
   ([112, 111, 115, 95, 115, 95, 112, 95, 97, 100, 106, 97, 99, 101, 110, 99, 121, 95, 108,
     105, 115, 116, 95, 98, 105, 116, 115, 46, 98, 105, 116, 97, 114, 114, 97, 121], 19),
   ([112, 111, 115, 95, 115, 95, 112, 95, 97, 100, 106, 97, 99, 101, 110, 99, 121, 95, 108,
     105, 115, 116, 95, 98, 105, 116, 95, 105, 110, 100, 101, 120, 95, 98, 108, 111, 99, 107,
     115, 46, 108, 111, 103, 97, 114, 114, 97, 121], 20),
   ([112, 111, 115, 95, 115, 95, 112, 95, 97, 100, 106, 97, 99, 101, 110, 99, 121, 95, 108,
     105, 115, 116, 95, 98, 105, 116, 95, 105, 110, 100, 101, 120, 95, 115, 98, 108, 111, 99,
     107, 115, 46, 108, 111, 103, 97, 114, 114, 97, 121], 21),
   ([112, 111, 115, 95, 115, 112, 95, 111, 95, 97, 100, 106, 97, 99, 101, 110, 99, 121, 95,
     108, 105, 115, 116, 95, 110, 117, 109, 115, 46, 108, 111, 103, 97, 114, 114, 97, 121], 22),
   ([112, 111, 115, 95, 115, 112, 95, 111, 95, 97, 100, 106, 97, 99, 101, 110, 99, 121, 95,
     108, 105, 115, 116, 95, 98, 105, 116, 115, 46, 98, 105, 116, 97, 114, 114, 97, 121], 23),
   ([112, 111, 115, 95, 115, 112, 95, 111, 95, 97, 100, 106, 97, 99, 101, 110, 99, 121, 95,
     108, 105, 115, 116, 95, 98, 105, 116, 95, 105, 110, 100, 101, 120, 95, 98, 108, 111, 99,
     107, 115, 46, 108, 111, 103, 97, 114, 114, 97, 121], 24),
   ([112, 111, 115, 95, 115, 112, 95, 111, 95, 97, 100, 106, 97, 99, 101, 110, 99, 121, 95,
     108, 105, 115, 116, 95, 98, 105, 116, 95, 105, 110, 100, 101, 120, 95, 115, 98, 108, 111,
     99, 107, 115, 46, 108, 111, 103, 97, 114, 114, 97, 121], 25),
   ([112, 111, 115, 95, 111, 95, 112, 115, 95, 97, 100, 106, 97, 99, 101, 110, 99, 121, 95,
     108, 105, 115, 116, 95, 110, 117, 109, 115, 46, 108, 111, 103, 97, 114, 114, 97, 121], 26),
   ([112, 111, 115, 95, 111, 95, 112, 115, 95, 97, 100, 106, 97, 99, 101, 110, 99, 121, 95,
     108, 105, 115, 116, 95, 98, 105, 116, 115, 46, 98, 105, 116, 97, 114, 114, 97, 121], 27),
   ([112, 111, 115, 95, 111, 95, 112, 115, 95, 97, 100, 106, 97, 99, 101, 110, 99, 121, 95,
     108, 105, 115, 116, 95, 98, 105, 116, 95, 105, 110, 100, 101, 120, 95, 98, 108, 111, 99,
     107, 115, 46, 108, 111, 103, 97, 114, 114, 97, 121], 28),
   ([112, 111, 115, 95, 111, 95, 112, 115, 95, 97, 100, 106, 97, 99, 101, 110, 99, 121, 95,
     108, 105, 115, 116, 95, 98, 105, 116, 95, 105, 110, 100, 101, 120, 95, 115, 98, 108, 111,
     99, 107, 115, 46, 108, 111, 103, 97, 114, 114, 97, 121], 29),
   ([112, 111, 115, 95, 112, 114, 101, 100, 105, 99, 97, 116, 101, 95, 119, 97, 118, 101, 108,
     101, 116, 95, 116, 114, 101, 101, 95, 98, 105, 116, 115, 46, 98, 105, 116, 97, 114, 114, 97,
     121], 30),
   ([112, 111, 115, 95, 112, 114, 101, 100, 105, 99, 97, 116, 101, 95, 119, 97, 118, 101, 108,
     101, 116, 95, 116, 114, 101, 101, 95, 98, 105, 116, 95, 105, 110, 100, 101, 120, 95, 98,
     108, 111, 99, 107, 115, 46, 108, 111, 103, 97, 114, 114, 97, 121], 31),
   ([112, 111, 115, 95, 112, 114, 101, 100, 105, 99, 97, 116, 101, 95, 119, 97, 118, 101, 108,
     101, 116, 95, 116, 114, 101, 101, 95, 98, 105, 116, 95, 105, 110, 100, 101, 120, 95, 115,
     98, 108, 111, 99, 107, 115, 46, 108, 111, 103, 97, 114, 114, 97, 121], 32),
   ([110, 101, 103, 95, 115, 95, 112, 95, 97, 100, 106, 97, 99, 101, 110, 99, 121, 95, 108,
     105, 115, 116, 95, 110, 117, 109, 115, 46, 108, 111, 103, 97, 114, 114, 97, 121], 33),
   ([110, 101, 103, 95, 115, 95, 112, 95, 97, 100, 106, 97, 99, 101, 110, 99, 121, 95, 108,
     105, 115, 116, 95, 98, 105, 116, 115, 46, 98, 105, 116, 97, 114, 114, 97, 121], 34),
   ([110, 101, 103, 95, 115, 95, 112, 95, 97, 100, 106, 97, 99, 101, 110, 99, 121, 95, 108,
     105, 115, 116, 95, 98, 105, 116, 95, 105, 110, 100, 101, 120, 95, 98, 108, 111, 99, 107,
     115, 46, 108, 111, 103, 97, 114, 114, 97, 121], 35),
   ([110, 101, 103, 95, 115, 95, 112, 95, 97, 100, 106, 97, 99, 101, 110, 99, 121, 95, 108,
     105, 115, 116, 95, 98, 105, 116, 95, 105, 110, 100, 101, 120, 95, 115, 98, 108, 111, 99,
     107, 115, 46, 108, 111, 103, 97, 114, 114, 97, 121], 36),
   ([110, 101, 103, 95, 115, 112, 95, 111, 95, 97, 100, 106, 97, 99, 101, 110, 99, 121, 95,
     108, 105, 115, 116, 95, 110, 117, 109, 115, 46, 108, 111, 103, 97, 114, 114, 97, 121], 37),
   ([110, 101, 103, 95, 115, 112, 95, 111, 95, 97, 100, 106, 97, 99, 101, 110, 99, 121, 95,
     108, 105, 115, 116, 95, 98, 105, 116, 115, 46, 98, 105, 116, 97, 114, 114, 97, 121], 38),
   ([110, 101, 103, 95, 115, 112, 95, 111, 95, 97, 100, 106, 97, 99, 101, 110, 99, 121, 95,
     108, 105, 115, 116, 95, 98, 105, 116, 95, 105, 110, 100, 101, 120, 95, 98, 108, 111, 99,
     107, 115, 46, 108, 111, 103, 97, 114, 114, 97, 121], 39),
   ([110, 101, 103, 95, 115, 112, 95, 111, 95, 97, 100, 106, 97, 99, 101, 110, 99, 121, 95,
     108, 105, 115, 116, 95, 98, 105, 116, 95, 105, 110, 100, 101, 120, 95, 115, 98, 108, 111,
     99, 107, 115, 46, 108, 111, 103, 97, 114, 114, 97, 121], 40),
   ([110, 101, 103, 95, 111, 95, 112, 115, 95, 97, 100, 106, 97, 99, 101, 110, 99, 121, 95,
     108, 105, 115, 116, 95, 110, 117, 109, 115, 46, 108, 111, 103, 97, 114, 114, 97, 121], 41),
   ([110, 101, 103, 95, 111, 95, 112, 115, 95, 97, 100, 106, 97, 99, 101, 110, 99, 121, 95,
     108, 105, 115, 116, 95, 98, 105, 116, 115, 46, 98, 105, 116, 97, 114, 114, 97, 121], 42),
   ([110, 101, 103, 95, 111, 95, 112, 115, 95, 97, 100, 106, 97, 99, 101, 110, 99, 121, 95,
     108, 105, 115, 116, 95, 98, 105, 116, 95, 105, 110, 100, 101, 120, 95, 98, 108, 111, 99,
     107, 115, 46, 108, 111, 103, 97, 114, 114, 97, 121], 43),
   ([110, 101, 103, 95, 111, 95, 112, 115, 95, 97, 100, 106, 97, 99, 101, 110, 99, 121, 95,
     108, 105, 115, 116, 95, 98, 105, 116, 95, 105, 110, 100, 101, 120, 95, 115, 98, 108, 111,
     99, 107, 115, 46, 108, 111, 103, 97, 114, 114, 97, 121], 44),
   ([110, 101, 103, 95, 112, 114, 101, 100, 105, 99, 97, 116, 101, 95, 119, 97, 118, 101, 108,
     101, 116, 95, 116, 114, 101, 101, 95, 98, 105, 116, 115, 46, 98, 105, 116, 97, 114, 114, 97,
     121], 45),
   ([110, 101, 103, 95, 112, 114, 101, 100, 105, 99, 97, 116, 101, 95, 119, 97, 118, 101, 108,
     101, 116, 95, 116, 114, 101, 101, 95, 98, 105, 116, 95, 105, 110, 100, 101, 120, 95, 98,
     108, 111, 99, 107, 115, 46, 108, 111, 103, 97, 114, 114, 97, 121], 46),
   ([110, 101, 103, 95, 112, 114, 101, 100, 105, 99, 97, 116, 101, 95, 119, 97, 118, 101, 108,
     101, 116, 95, 116, 114, 101, 101, 95, 98, 105, 116, 95, 105, 110, 100, 101, 120, 95, 115,
     98, 108, 111, 99, 107, 115, 46, 108, 111, 103, 97, 114, 114, 97, 121], 47),
   ([112, 97, 114, 101, 110, 116, 46, 104, 101, 120], 48),
   ([114, 111, 108, 108, 117, 112, 46, 104, 101, 120], 49)]

/-- The names of the files of an exported layer with code points. -/
def packTrueT : List Text :=
  [[110, 111, 100, 101, 95, 100, 105, 99, 116, 105, 111, 110, 97, 114, 121, 95, 98, 108, 111,
     99, 107, 115, 46, 116, 102, 99],
   [110, 111, 100, 101, 95, 100, 105, 99, 116, 105, 111, 110, 97, 114, 121, 95, 111, 102, 102,
     115, 101, 116, 115, 46, 108, 111, 103, 97, 114, 114, 97, 121],
   [112, 114, 101, 100, 105, 99, 97, 116, 101, 95, 100, 105, 99, 116, 105, 111, 110, 97, 114,
     121, 95, 98, 108, 111, 99, 107, 115, 46, 116, 102, 99],
   [112, 114, 101, 100, 105, 99, 97, 116, 101, 95, 100, 105, 99, 116, 105, 111, 110, 97, 114,
     121, 95, 111, 102, 102, 115, 101, 116, 115, 46, 108, 111, 103, 97, 114, 114, 97, 121],
   [118, 97, 108, 117, 101, 95, 100, 105, 99, 116, 105, 111, 110, 97, 114, 121, 95, 116, 121,
     112, 101, 115, 46, 108, 111, 103, 97, 114, 114, 97, 121],
   [118, 97, 108, 117, 101, 95, 100, 105, 99, 116, 105, 111, 110, 97, 114, 121, 95, 116, 121,
     112, 101, 95, 111, 102, 102, 115, 101, 116, 115, 46, 108, 111, 103, 97, 114, 114, 97, 121],
   [118, 97, 108, 117, 101, 95, 100, 105, 99, 116, 105, 111, 110, 97, 114, 121, 95, 98, 108,
     111, 99, 107, 115, 46, 116, 102, 99],
   [118, 97, 108, 117, 101, 95, 100, 105, 99, 116, 105, 111, 110, 97, 114, 121, 95, 111, 102,
     102, 115, 101, 116, 115, 46, 108, 111, 103, 97, 114, 114, 97, 121],
   [110, 111, 100, 101, 95, 118, 97, 108, 117, 101, 95, 105, 100, 109, 97, 112, 95, 98, 105,
     116, 115, 46, 98, 105, 116, 97, 114, 114, 97, 121],
   [110, 111, 100, 101, 95, 118, 97, 108, 117, 101, 95, 105, 100, 109, 97, 112, 95, 98, 105,
     116, 95, 105, 110, 100, 101, 120, 95, 98, 108, 111, 99, 107, 115, 46, 98, 105, 116, 97, 114,
     114, 97, 121],
   [110, 111, 100, 101, 95, 118, 97, 108, 117, 101, 95, 105, 100, 109, 97, 112, 95, 98, 105,
     116, 95, 105, 110, 100, 101, 120, 95, 115, 98, 108, 111, 99, 107, 115, 46, 98, 105, 116, 97,
     114, 114, 97, 121],
   [112, 114, 101, 100, 105, 99, 97, 116, 101, 95, 105, 100, 109, 97, 112, 95, 98, 105, 116,
     115, 46, 98, 105, 116, 97, 114, 114, 97, 121],
   [112, 114, 101, 100, 105, 99, 97, 116, 101, 95, 105, 100, 109, 97, 112, 95, 98, 105, 116,
     95, 105, 110, 100, 101, 120, 95, 98, 108, 111, 99, 107, 115, 46, 98, 105, 116, 97, 114, 114,
     97, 121],
   [112, 114, 101, 100, 105, 99, 97, 116, 101, 95, 105, 100, 109, 97, 112, 95, 98, 105, 116,
     95, 105, 110, 100, 101, 120, 95, 115, 98, 108, 111, 99, 107, 115, 46, 98, 105, 116, 97, 114,
     114, 97, 121],
   [112, 97, 114, 101, 110, 116, 46, 104, 101, 120],
   [112, 111, 115, 95, 115, 95, 112, 95, 97, 100, 106, 97, 99, 101, 110, 99, 121, 95, 108, 105,
     115, 116, 95, 110, 117, 109, 115, 46, 108, 111, 103, 97, 114, 114, 97, 121],
   [112, 111, 115, 95, 115, 95, 112, 95, 97, 100, 106, 97, 99, 101, 110, 99, 121, 95, 108, 105,
     115, 116, 95, 98, 105, 116, 115, 46, 98, 105, 116, 97, 114, 114, 97, 121],
   [112, 111, 115, 95, 115, 95, 112, 95, 97, 100, 106, 97, 99, 101, 110, 99, 121, 95, 108, 105,
     115, 116, 95, 98, 105, 116, 95, 105, 110, 100, 101, 120, 95, 98, 108, 111, 99, 107, 115, 46,
     108, 111, 103, 97, 114, 114, 97, 121],
   [112, 111, 115, 95, 115, 95, 112, 95, 97, 100, 106, 97, 99, 101, 110, 99, 121, 95, 108, 105,
     115, 116, 95, 98, 105, 116, 95, 105, 110, 100, 101, 120, 95, 115, 98, 108, 111, 99, 107,
     115, 46, 108, 111, 103, 97, 114, 114, 97, 121],
   [112, 111, 115, 95, 115, 112, 95, 111, 95, 97, 100, 106, 97, 99, 101, 110, 99, 121, 95, 108,
     105, 115, 116, 95, 110, 117, 109, 115, 46, 108, 111, 103, 97, 114, 114, 97, 121],
   [112, 111, 115, 95, 115, 112, 95, 111, 95, 97, 100, 106, 97, 99, 101, 110, 99, 121, 95, 108,
     105, 115, 116, 95, 98, 105, 116, 115, 46, 98, 105, 116, 97, 114, 114, 97, 121],
   [112, 111, 115, 95, 115, 112, 95, 111, 95, 97, 100, 106, 97, 99, 101, 110, 99, 121, 95, 108,
     105, 115, 116, 95, 98, 105, 116, 95, 105, 110, 100, 101, 120, 95, 98, 108, 111, 99, 107,
     115, 46, 108, 111, 103, 97, 114, 114, 97, 121],
   [112, 111, 115, 95, 115, 112, 95, 111, 95, 97, 100, 106, 97, 99, 101, 110, 99, 121, 95, 108,
     105, 115, 116, 95, 98, 105, 116, 95, 105, 110, 100, 101, 120, 95, 115, 98, 108, 111, 99,
     107, 115, 46, 108, 111, 103, 97, 114, 114, 97, 121],
   [112, 111, 115, 95, 111, 95, 112, 115, 95, 97, 100, 106, 97, 99, 101, 110, 99, 121, 95, 108,
     105, 115, 116, 95, 110, 117, 109, 115, 46, 108, 111, 103, 97, 114, 114, 97, 121],
   [112, 111, 115, 95, 111, 95, 112, 115, 95, 97, 100, 106, 97, 99, 101, 110, 99, 121, 95, 108,
     105, 115, 116, 95, 98, 105, 116, 115, 46, 98, 105, 116, 97, 114, 114, 97, 121],
   [112, 111, 115, 95, 111, 95, 112, 115, 95, 97, 100, 106, 97, 99, 101, 110, 99, 121, 95, 108,
     105, 115, 116, 95, 98, 105, 116, 95, 105, 110, 100, 101, 120, 95, 98, 108, 111, 99, 107,
     115, 46, 108, 111, 103, 97, 114, 114, 97, 121],
   [112, 111, 115, 95, 111, 95, 112, 115, 95, 97, 100, 106, 97, 99, 101, 110, 99, 121, 95, 108,
     105, 115, 116, 95, 98, 105, 116, 95, 105, 110, 100, 101, 120, 95, 115, 98, 108, 111, 99,
     107, 115, 46, 108, 111, 103, 97, 114, 114, 97, 121],
   [112, 111, 115, 95, 112, 114, 101, 100, 105, 99, 97, 116, 101, 95, 119, 97, 118, 101, 108,
     101, 116, 95, 116, 114, 101, 101, 95, 98, 105, 116, 115, 46, 98, 105, 116, 97, 114, 114, 97,
     121],
   [112, 111, 115, 95, 112, 114, 101, 100, 105, 99, 97, 116, 101, 95, 119, 97, 118, 101, 108,
     101, 116, 95, 116, 114, 101, 101, 95, 98, 105, 116, 95, 105, 110, 100, 101, 120, 95, 98,
     108, 111, 99, 107, 115, 46, 108, 111, 103, 97, 114, 114, 97, 121],
   [112, 111, 115, 95, 112, 114, 101, 100, 105, 99, 97, 116, 101, 95, 119, 97, 118, 101, 108,
     101, 116, 95, 116, 114, 101, 101, 95, 98, 105, 116, 95, 105, 110, 100, 101, 120, 95, 115,
     98, 108, 111, 99, 107, 115, 46, 108, 111, 103, 97, 114, 114, 97, 121],
   [110, 101, 103, 95, 115, 95, 112, 95, 97, 100, 106, 97, 99, 101, 110, 99, 121, 95, 108, 105,
     115, 116, 95, 110, 117, 109, 115, 46, 108, 111, 103, 97, 114, 114, 97, 121],
   [110, 101, 103, 95, 115, 95, 112, 95, 97, 100, 106, 97, 99, 101, 110, 99, 121, 95, 108, 105,
     115, 116, 95, 98, 105, 116, 115, 46, 98, 105, 116, 97, 114, 114, 97, 121],
   [110, 101, 103, 95, 115, 95, 112, 95, 97, 100, 106, 97, 99, 101, 110, 99, 121, 95, 108, 105,
     115, 116, 95, 98, 105, 116, 95, 105, 110, 100, 101, 120, 95, 98, 108, 111, 99, 107, 115, 46,
     108, 111, 103, 97, 114, 114, 97, 121],
   [110, 101, 103, 95, 115, 95, 112, 95, 97, 100, 106, 97, 99, 101, 110, 99, 121, 95, 108, 105,
     115, 116, 95, 98, 105, 116, 95, 105, 110, 100, 101, 120, 95, 115, 98, 108, 111, 99, 107,
     115, 46, 108, 111, 103, 97, 114, 114, 97, 121],
   [110, 101, 103, 95, 115, 112, 95, 111, 95, 97, 100, 106, 97, 99, 101, 110, 99, 121, 95, 108,
     105, 115, 116, 95, 110, 117, 109, 115, 46, 108, 111, 103, 97, 114, 114, 97, 121],
   [110, 101, 103, 95, 115, 112, 95, 111, 95, 97, 100, 106, 97, 99, 101, 110, 99, 121, 95, 108,
     105, 115, 116, 95, 98, 105, 116, 115, 46, 98, 105, 116, 97, 114, 114, 97, 121],
   [110, 101, 103, 95, 115, 112, 95, 111, 95, 97, 100, 106, 97, 99, 101, 110, 99, 121, 95, 108,
     105, 115, 116, 95, 98, 105, 116, 95, 105, 110, 100, 101, 120, 95, 98, 108, 111, 99, 107,
     115, 46, 108, 111, 103, 97, 114, 114, 97, 121],
   [110, 101, 103, 95, 115, 112, 95, 111, 95, 97, 100, 106, 97, 99, 101, 110, 99, 121, 95, 108,
     105, 115, 116, 95, 98, 105, 116, 95, 105, 110, 100, 101, 120, 95, 115, 98, 108, 111, 99,
     107, 115, 46, 108, 111, 103, 97, 114, 114, 97, 121],
   [110, 101, 103, 95, 111, 95, 112, 115, 95, 97, 100, 106, 97, 99, 101, 110, 99, 121, 95, 108,
     105, 115, 116, 95, 110, 117, 109, 115, 46, 108, 111, 103, 97, 114, 114, 97, 121],
   [110, 101, 103, 95, 111, 95, 112, 115, 95, 97, 100, 106, 97, 99, 101, 110, 99, 121, 95, 108,
     105, 115, 116, 95, 98, 105, 116, 115, 46, 98, 105, 116, 97, 114, 114, 97, 121],
   [110, 101, 103, 95, 111, 95, 112, 115, 95, 97, 100, 106, 97, 99, 101, 110, 99, 121, 95, 108,
     105, 115, 116, 95, 98, 105, 116, 95, 105, 110, 100, 101, 120, 95, 98, 108, 111, 99, 107,
     115, 46, 108, 111, 103, 97, 114, 114, 97, 121],
   [110, 101, 103, 95, 111, 95, 112, 115, 95, 97, 100, 106, 97, 99, 101, 110, 99, 121, 95, 108,
     105, 115, 116, 95, 98, 105, 116, 95, 105, 110, 100, 101, 120, 95, 115, 98, 108, 111, 99,
     107, 115, 46, 108, 111, 103, 97, 114, 114, 97, 121],
   [110, 101, 103, 95, 112, 114, 101, 100, 105, 99, 97, 116, 101, 95, 119, 97, 118, 101, 108,
     101, 116, 95, 116, 114, 101, 101, 95, 98, 105, 116, 115, 46, 98, 105, 116, 97, 114, 114, 97,
     121],
   [110, 101, 103, 95, 112, 114, 101, 100, 105, 99, 97, 116, 101, 95, 119, 97, 118, 101, 108,
     101, 116, 95, 116, 114, 101, 101, 95, 98, 105, 116, 95, 105, 110, 100, 101, 120, 95, 98,
     108, 111, 99, 107, 115, 46, 108, 111, 103, 97, 114, 114, 97, 121],
   [110, 101, 103, 95, 112, 114, 101, 100, 105, 99, 97, 116, 101, 95, 119, 97, 118, 101, 108,
     101, 116, 95, 116, 114, 101, 101, 95, 98, 105, 116, 95, 105, 110, 100, 101, 120, 95, 115,
     98, 108, 111, 99, 107, 115, 46, 108, 111, 103, 97, 114, 114, 97, 121],
   [99, 104, 105, 108, 100, 95, 112, 111, 115, 95, 115, 117, 98, 106, 101, 99, 116, 115, 46,
     108, 111, 103, 97, 114, 114, 97, 121],
   [99, 104, 105, 108, 100, 95, 112, 111, 115, 95, 111, 98, 106, 101, 99, 116, 115, 46, 108,
     111, 103, 97, 114, 114, 97, 121],
   [99, 104, 105, 108, 100, 95, 110, 101, 103, 95, 115, 117, 98, 106, 101, 99, 116, 115, 46,
     108, 111, 103, 97, 114, 114, 97, 121],
   [99, 104, 105, 108, 100, 95, 110, 101, 103, 95, 111, 98, 106, 101, 99, 116, 115, 46, 108,
     111, 103, 97, 114, 114, 97, 121]]

/-- The names of the files of an exported layer with code points. -/
def packFalseT : List Text :=
  [[110, 111, 100, 101, 95, 100, 105, 99, 116, 105, 111, 110, 97, 114, 121, 95, 98, 108, 111,
     99, 107, 115, 46, 116, 102, 99],
   [110, 111, 100, 101, 95, 100, 105, 99, 116, 105, 111, 110, 97, 114, 121, 95, 111, 102, 102,
     115, 101, 116, 115, 46, 108, 111, 103, 97, 114, 114, 97, 121],
   [112, 114, 101, 100, 105, 99, 97, 116, 101, 95, 100, 105, 99, 116, 105, 111, 110, 97, 114,
     121, 95, 98, 108, 111, 99, 107, 115, 46, 116, 102, 99],
   [112, 114, 101, 100, 105, 99, 97, 116, 101, 95, 100, 105, 99, 116, 105, 111, 110, 97, 114,
     121, 95, 111, 102, 102, 115, 101, 116, 115, 46, 108, 111, 103, 97, 114, 114, 97, 121],
   [118, 97, 108, 117, 101, 95, 100, 105, 99, 116, 105, 111, 110, 97, 114, 121, 95, 116, 121,
     112, 101, 115, 46, 108, 111, 103, 97, 114, 114, 97, 121],
   [118, 97, 108, 117, 101, 95, 100, 105, 99, 116, 105, 111, 110, 97, 114, 121, 95, 116, 121,
     112, 101, 95, 111, 102, 102, 115, 101, 116, 115, 46, 108, 111, 103, 97, 114, 114, 97, 121],
   [118, 97, 108, 117, 101, 95, 100, 105, 99, 116, 105, 111, 110, 97, 114, 121, 95, 98, 108,
     111, 99, 107, 115, 46, 116, 102, 99],
   [118, 97, 108, 117, 101, 95, 100, 105, 99, 116, 105, 111, 110, 97, 114, 121, 95, 111, 102,
     102, 115, 101, 116, 115, 46, 108, 111, 103, 97, 114, 114, 97, 121],
   [110, 111, 100, 101, 95, 118, 97, 108, 117, 101, 95, 105, 100, 109, 97, 112, 95, 98, 105,
     116, 115, 46, 98, 105, 116, 97, 114, 114, 97, 121],
   [110, 111, 100, 101, 95, 118, 97, 108, 117, 101, 95, 105, 100, 109, 97, 112, 95, 98, 105,
     116, 95, 105, 110, 100, 101, 120, 95, 98, 108, 111, 99, 107, 115, 46, 98, 105, 116, 97, 114,
     114, 97, 121],
   [110, 111, 100, 101, 95, 118, 97, 108, 117, 101, 95, 105, 100, 109, 97, 112, 95, 98, 105,
     116, 95, 105, 110, 100, 101, 120, 95, 115, 98, 108, 111, 99, 107, 115, 46, 98, 105, 116, 97,
     114, 114, 97, 121],
   [112, 114, 101, 100, 105, 99, 97, 116, 101, 95, 105, 100, 109, 97, 112, 95, 98, 105, 116,
     115, 46, 98, 105, 116, 97, 114, 114, 97, 121],
   [112, 114, 101, 100, 105, 99, 97, 116, 101, 95, 105, 100, 109, 97, 112, 95, 98, 105, 116,
     95, 105, 110, 100, 101, 120, 95, 98, 108, 111, 99, 107, 115, 46, 98, 105, 116, 97, 114, 114,
     97, 121],
   [112, 114, 101, 100, 105, 99, 97, 116, 101, 95, 105, 100, 109, 97, 112, 95, 98, 105, 116,
     95, 105, 110, 100, 101, 120, 95, 115, 98, 108, 111, 99, 107, 115, 46, 98, 105, 116, 97, 114,
     114, 97, 121],
   [98, 97, 115, 101, 95, 115, 95, 112, 95, 97, 100, 106, 97, 99, 101, 110, 99, 121, 95, 108,
     105, 115, 116, 95, 110, 117, 109, 115, 46, 108, 111, 103, 97, 114, 114, 97, 121],
   [98, 97, 115, 101, 95, 115, 95, 112, 95, 97, 100, 106, 97, 99, 101, 110, 99, 121, 95, 108,
     105, 115, 116, 95, 98, 105, 116, 115, 46, 98, 105, 116, 97, 114, 114, 97, 121],
   [98, 97, 115, 101, 95, 115, 95, 112, 95, 97, 100, 106, 97, 99, 101, 110, 99, 121, 95, 108,
     105, 115, 116, 95, 98, 105, 116, 95, 105, 110, 100, 101, 120, 95, 98, 108, 111, 99, 107,
     115, 46, 108, 111, 103, 97, 114, 114, 97, 121],
   [98, 97, 115, 101, 95, 115, 95, 112, 95, 97, 100, 106, 97, 99, 101, 110, 99, 121, 95, 108,
     105, 115, 116, 95, 98, 105, 116, 95, 105, 110, 100, 101, 120, 95, 115, 98, 108, 111, 99,
     107, 115, 46, 108, 111, 103, 97, 114, 114, 97, 121],
   [98, 97, 115, 101, 95, 115, 112, 95, 111, 95, 97, 100, 106, 97, 99, 101, 110, 99, 121, 95,
     108, 105, 115, 116, 95, 110, 117, 109, 115, 46, 108, 111, 103, 97, 114, 114, 97, 121],
   [98, 97, 115, 101, 95, 115, 112, 95, 111, 95, 97, 100, 106, 97, 99, 101, 110, 99, 121, 95,
     108, 105, 115, 116, 95, 98, 105, 116, 115, 46, 98, 105, 116, 97, 114, 114, 97, 121],
   [98, 97, 115, 101, 95, 115, 112, 95, 111, 95, 97, 100, 106, 97, 99, 101, 110, 99, 121, 95,
     108, 105, 115, 116, 95, 98, 105, 116, 95, 105, 110, 100, 101, 120, 95, 98, 108, 111, 99,
     107, 115, 46, 108, 111, 103, 97, 114, 114, 97, 121],
   [98, 97, 115, 101, 95, 115, 112, 95, 111, 95, 97, 100, 106, 97, 99, 101, 110, 99, 121, 95,
     108, 105, 115, 116, 95, 98, 105, 116, 95, 105, 110, 100, 101, 120, 95, 115, 98, 108, 111,
     99, 107, 115, 46, 108, 111, 103, 97, 114, 114, 97, 121],
   [98, 97, 115, 101, 95, 111, 95, 112, 115, 95, 97, 100, 106, 97, 99, 101, 110, 99, 121, 95,
     108, 105, 115, 116, 95, 110, 117, 109, 115, 46, 108, 111, 103, 97, 114, 114, 97, 121],
   [98, 97, 115, 101, 95, 111, 95, 112, 115, 95, 97, 100, 106, 97, 99, 101, 110, 99, 121, 95,
     108, 105, 115, 116, 95, 98, 105, 116, 115, 46, 98, 105, 116, 97, 114, 114, 97, 121],
   [98, 97, 115, 101, 95, 111, 95, 112, 115, 95, 97, 100, 106, 97, 99, 101, 110, 99, 121, 95,
     108, 105, 115, 116, 95, 98, 105, 116, 95, 105, 110, 100, 101, 120, 95, 98, 108, 111, 99,
     107, 115, 46, 108, 111, 103, 97, 114, 114, 97, 121],
   [98, 97, 115, 101, 95, 111, 95, 112, 115, 95, 97, 100, 106, 97, 99, 101, 110, 99, 121, 95,
     108, 105, 115, 116, 95, 98, 105, 116, 95, 105, 110, 100, 101, 120, 95, 115, 98, 108, 111,
     99, 107, 115, 46, 108, 111, 103, 97, 114, 114, 97, 121],
   [98, 97, 115, 101, 95, 112, 114, 101, 100, 105, 99, 97, 116, 101, 95, 119, 97, 118, 101,
     108, 101, 116, 95, 116, 114, 101, 101, 95, 98, 105, 116, 115, 46, 98, 105, 116, 97, 114,
     114, 97, 121],
   [98, 97, 115, 101, 95, 112, 114, 101, 100, 105, 99, 97, 116, 101, 95, 119, 97, 118, 101,
     108, 101, 116, 95, 116, 114, 101, 101, 95, 98, 105, 116, 95, 105, 110, 100, 101, 120, 95,
     98, 108, 111, 99, 107, 115, 46, 108, 111, 103, 97, 114, 114, 97, 121],
   [98, 97, 115, 101, 95, 112, 114, 101, 100, 105, 99, 97, 116, 101, 95, 119, 97, 118, 101,
     108, 101, 116, 95, 116, 114, 101, 101, 95, 98, 105, 116, 95, 105, 110, 100, 101, 120, 95,
     115, 98, 108, 111, 99, 107, 115, 46, 108, 111, 103, 97, 114, 114, 97, 121],
   [98, 97, 115, 101, 95, 115, 117, 98, 106, 101, 99, 116, 115, 46, 108, 111, 103, 97, 114,
     114, 97, 121],
   [98, 97, 115, 101, 95, 111, 98, 106, 101, 99, 116, 115, 46, 108, 111, 103, 97, 114, 114, 97,
     121]]

/-- The names of the files of an exported layer with code points. -/
def packT (child : Bool) : List Text := if child then packTrueT else packFalseT

theorem table_eq : FileName.table = tableT.map (fun q => (stringOf q.1, q.2)) := by decide +kernel

theorem packNames_eq (child : Bool) : packNames child = (packT child).map stringOf := by
  cases child <;> decide +kernel

theorem table_ascii : ∀ q ∈ tableT, ∀ c ∈ q.1, c < 0x80 := by decide +kernel

theorem packT_ascii (child : Bool) : ∀ t ∈ packT child, ∀ c ∈ t, c < 0x80 := by
  cases child <;> decide +kernel

/-- A name with code points. -/
theorem text_of {f : FileName} {t : Text} (h : f = stringOf t) (ht : ∀ c ∈ t, c < 0x80) (u : Text)
    (hu : ∀ c ∈ u, c < 0x80) : stringOf u = f ↔ u = t := by
  rw [h]; exact stringOf_inj hu ht

theorem lookup_stringOf (l : List (Text × FileKind)) (h : ∀ q ∈ l, ∀ c ∈ q.1, c < 0x80) {t : Text}
    (ht : ∀ c ∈ t, c < 0x80) :
    (l.map (fun q => (stringOf q.1, q.2))).lookup (stringOf t) = l.lookup t := by
  induction l with
  | nil => rfl
  | cons q l ih =>
    rw [List.map_cons, List.lookup_cons, List.lookup_cons,
      ih (fun q hq => h q (List.mem_cons_of_mem _ hq))]
    have hq := h q List.mem_cons_self
    by_cases e : t = q.1
    · simp [e]
    · have : stringOf t ≠ stringOf q.1 := fun e' => e ((stringOf_inj ht hq).mp e')
      rw [beq_eq_false_iff_ne.mpr e, beq_eq_false_iff_ne.mpr this]

theorem kind_eq {t : Text} (ht : ∀ c ∈ t, c < 0x80) :
    FileName.kind (stringOf t) = Out.ofOption (tableT.lookup t) := by
  unfold FileName.kind
  rw [table_eq, lookup_stringOf _ table_ascii ht]

/-- `"rollup.hex"`. -/
def rollupT : Text := [114, 111, 108, 108, 117, 112, 46, 104, 101, 120]

/-- `"parent.hex"`. -/
def parentT : Text := [112, 97, 114, 101, 110, 116, 46, 104, 101, 120]

theorem rollup_eq : FileName.rollup = stringOf rollupT := by decide +kernel

theorem parent_eq : FileName.parent = stringOf parentT := by decide +kernel

theorem rollupT_ascii : ∀ c ∈ rollupT, c < 0x80 := by decide

theorem parentT_ascii : ∀ c ∈ parentT, c < 0x80 := by decide

theorem lit_base : ("base_" : FileName) = stringOf [98, 97, 115, 101, 95] := by decide +kernel
theorem lit_pos : ("pos_" : FileName) = stringOf [112, 111, 115, 95] := by decide +kernel
theorem lit_neg : ("neg_" : FileName) = stringOf [110, 101, 103, 95] := by decide +kernel
theorem lit_child : ("child_" : FileName) = stringOf [99, 104, 105, 108, 100, 95] := by
  decide +kernel
theorem lit_nv : ("node_value_idmap" : FileName) =
    stringOf [110, 111, 100, 101, 95, 118, 97, 108, 117, 101, 95, 105, 100, 109, 97, 112] := by
  decide +kernel
theorem lit_p : ("predicate_idmap" : FileName) =
    stringOf [112, 114, 101, 100, 105, 99, 97, 116, 101, 95, 105, 100, 109, 97, 112] := by
  decide +kernel
theorem lit_bs : ("base_subjects.logarray" : FileName) = stringOf [98, 97, 115, 101, 95, 115, 117,
    98, 106, 101, 99, 116, 115, 46, 108, 111, 103, 97, 114, 114, 97, 121] := by decide +kernel
theorem lit_bo : ("base_objects.logarray" : FileName) = stringOf [98, 97, 115, 101, 95, 111, 98,
    106, 101, 99, 116, 115, 46, 108, 111, 103, 97, 114, 114, 97, 121] := by decide +kernel

/-- The condition of `names` with code points. -/
def nameT (child : Bool) (t : Text) : Bool :=
  t ≠ rollupT &&
    (if child then !List.isPrefixOf [98, 97, 115, 101, 95] t
     else !List.isPrefixOf [112, 111, 115, 95] t && !List.isPrefixOf [110, 101, 103, 95] t &&
      !List.isPrefixOf [99, 104, 105, 108, 100, 95] t && t ≠ parentT)

/-- The condition of `required` with code points. -/
def reqT (t : Text) : Bool :=
  !List.isPrefixOf [110, 111, 100, 101, 95, 118, 97, 108, 117, 101, 95, 105, 100, 109, 97, 112] t &&
    !List.isPrefixOf [112, 114, 101, 100, 105, 99, 97, 116, 101, 95, 105, 100, 109, 97, 112] t &&
    !List.isPrefixOf [99, 104, 105, 108, 100, 95] t &&
    t ≠ [98, 97, 115, 101, 95, 115, 117, 98, 106, 101, 99, 116, 115, 46, 108, 111, 103, 97, 114,
      114, 97, 121] &&
    t ≠ [98, 97, 115, 101, 95, 111, 98, 106, 101, 99, 116, 115, 46, 108, 111, 103, 97, 114, 114, 97,
      121]

theorem names_eq (child : Bool) :
    names child = ((tableT.map (·.1)).filter (nameT child)).map stringOf := by
  unfold names
  rw [table_eq, List.map_map]
  have : (fun q : FileName × FileKind => q.1) ∘ (fun q : Text × FileKind => (stringOf q.1, q.2)) =
      stringOf ∘ (fun q : Text × FileKind => q.1) := rfl
  rw [this, ← List.map_map, List.filter_map]
  refine congrArg _ (List.filter_congr (fun t ht => ?_))
  obtain ⟨q, hq, rfl⟩ := List.mem_map.mp ht
  have ha := table_ascii q hq
  unfold nameT
  show (decide (stringOf q.1 ≠ FileName.rollup) && _) = _
  rw [lit_base, lit_pos, lit_neg, lit_child, rollup_eq, parent_eq]
  rw [hasPrefix_eq (by decide) ha, hasPrefix_eq (by decide) ha, hasPrefix_eq (by decide) ha,
    hasPrefix_eq (by decide) ha]
  simp only [ne_eq, stringOf_inj ha rollupT_ascii, stringOf_inj ha parentT_ascii]

theorem required_eq (child : Bool) :
    required child = (((tableT.map (·.1)).filter (nameT child)).filter reqT).map stringOf := by
  unfold required
  rw [names_eq, List.filter_map]
  refine congrArg _ (List.filter_congr (fun t ht => ?_))
  obtain ⟨q, hq, rfl⟩ := List.mem_map.mp (List.mem_filter.mp ht).1
  have ha := table_ascii q hq
  unfold reqT
  dsimp only [Function.comp]
  rw [lit_nv, lit_p, lit_child, lit_bs, lit_bo]
  rw [hasPrefix_eq (by decide) ha, hasPrefix_eq (by decide) ha, hasPrefix_eq (by decide) ha]
  simp only [ne_eq, stringOf_inj ha (show ∀ c ∈ ([98, 97, 115, 101, 95, 115, 117, 98, 106, 101, 99,
    116, 115, 46, 108, 111, 103, 97, 114, 114, 97, 121] : Text), c < 0x80 by decide),
    stringOf_inj ha (show ∀ c ∈ ([98, 97, 115, 101, 95, 111, 98, 106, 101, 99, 116, 115, 46, 108,
    111, 103, 97, 114, 114, 97, 121] : Text), c < 0x80 by decide)]

theorem packNames_perm (child : Bool) : (packNames child).Perm (names child) := by
  rw [packNames_eq, names_eq]
  refine List.Perm.map _ ?_
  rw [← List.isPerm_iff]
  cases child <;> decide +kernel

theorem mem_packNames {child : Bool} {f : FileName} (h : f ∈ packNames child) :
    ∃ t ∈ packT child, f = stringOf t ∧ ∀ c ∈ t, c < 0x80 := by
  rw [packNames_eq] at h
  obtain ⟨t, h1, h2⟩ := List.mem_map.mp h
  exact ⟨t, h1, h2.symm, packT_ascii child t h1⟩

theorem packT_kinds (child : Bool) :
    ∀ t ∈ packT child, ∃ k, tableT.lookup t = some k ∧ k ≠ FileKind.rollup := by
  have : ∀ t ∈ packT child, (tableT.lookup t).isSome ∧ tableT.lookup t ≠ some FileKind.rollup := by
    cases child <;> decide +kernel
  intro t ht
  obtain ⟨h1, h2⟩ := this t ht
  cases h : tableT.lookup t with
  | none => rw [h] at h1; cases h1
  | some k => exact ⟨k, rfl, fun e => h2 (by rw [h, e])⟩

theorem packNames_kinds (child : Bool) :
    ∀ f ∈ packNames child, ∃ k, FileName.kind f = .ok k ∧ k ≠ FileKind.rollup := by
  intro f hf
  obtain ⟨t, ht, rfl, ha⟩ := mem_packNames hf
  obtain ⟨k, h1, h2⟩ := packT_kinds child t ht
  exact ⟨k, by rw [kind_eq ha, h1]; rfl, h2⟩

theorem packNames_nodup (child : Bool) : ((packNames child).map FileName.kind).Nodup := by
  rw [packNames_eq, List.map_map]
  have : (packT child).map (FileName.kind ∘ stringOf) =
      (packT child).map (fun t => Out.ofOption (tableT.lookup t)) :=
    List.map_congr_left (fun t ht => kind_eq (packT_ascii child t ht))
  rw [this]
  cases child <;> decide +kernel

theorem packNames_parent (child : Bool) :
    ∀ f ∈ packNames child, FileName.kind f = .ok FileKind.parent → f = FileName.parent := by
  intro f hf hk
  obtain ⟨t, ht, rfl, ha⟩ := mem_packNames hf
  have : ∀ t ∈ packT child, tableT.lookup t = some FileKind.parent → t = parentT := by
    cases child <;> decide +kernel
  rw [kind_eq ha] at hk
  rw [parent_eq, this t ht]
  cases h : tableT.lookup t with
  | none => rw [h] at hk; cases hk
  | some k => rw [h] at hk; cases hk; rfl

theorem parent_packNames (child : Bool) : FileName.parent ∈ packNames child ↔ child = true := by
  have h : parentT ∈ packT child ↔ child = true := by cases child <;> decide +kernel
  rw [← h, packNames_eq, parent_eq]
  constructor
  · intro h
    obtain ⟨t, h1, h2⟩ := List.mem_map.mp h
    rw [← (stringOf_inj (packT_ascii child t h1) parentT_ascii).mp h2]
    exact h1
  · exact fun h => List.mem_map.mpr ⟨_, h, rfl⟩

theorem packNames_normal (child : Bool) :
    ∀ f ∈ packNames child, f ≠ ".." ∧ f ≠ "." ∧ f ≠ "/" := by
  intro f hf
  obtain ⟨t, ht, rfl, ha⟩ := mem_packNames hf
  have h : ∀ t ∈ packT child, 2 < t.length := by cases child <;> decide +kernel
  have hl := h t ht
  have : ∀ x : String, x.toList.length ≤ 2 → stringOf t ≠ x := fun x hx e => by
    have h1 := textOf_stringOf ha
    rw [e] at h1
    rw [← h1] at hl
    unfold textOf at hl
    rw [List.length_map] at hl
    omega
  exact ⟨this _ (by decide), this _ (by decide), this _ (by decide)⟩

theorem required_of {child : Bool} {f : FileName} (hf : f ∈ packNames child)
    (h : ∀ t, f = stringOf t → (∀ c ∈ t, c < 0x80) → reqT t = true) : f ∈ required child := by
  have hn := (packNames_perm child).mem_iff.mp hf
  obtain ⟨t, ht, rfl, ha⟩ := mem_packNames hf
  rw [names_eq] at hn
  rw [required_eq]
  obtain ⟨u, h1, h2⟩ := List.mem_map.mp hn
  have hu : ∀ c ∈ u, c < 0x80 := by
    obtain ⟨q, hq, rfl⟩ := List.mem_map.mp (List.mem_filter.mp h1).1
    exact table_ascii q hq
  have := (stringOf_inj hu ha).mp h2
  subst this
  exact List.mem_map.mpr ⟨u, List.mem_filter.mpr ⟨h1, h u rfl hu⟩, rfl⟩

/-- The names of required files with code points. -/
def reqPackT (child : Bool) : List Text :=
  (packT child).take 8 ++ ((packT child).drop 14).take (if child then 31 else 15)

theorem sharedRequired_eq (child : Bool) :
    FileName.sharedRequired = ((packT child).take 8).map stringOf := by
  cases child <;> decide +kernel

theorem childRequired_eq :
    FileName.childRequired = (((packT true).drop 14).take 31).map stringOf := by decide +kernel

theorem baseRequired_eq :
    FileName.baseRequired = (((packT false).drop 14).take 15).map stringOf := by decide +kernel

theorem reqPackT_ok (child : Bool) : ∀ t ∈ reqPackT child, reqT t = true := by
  cases child <;> decide +kernel

theorem reqPackT_sub (child : Bool) {t : Text} (h : t ∈ reqPackT child) : t ∈ packT child := by
  rcases List.mem_append.mp h with h | h
  · exact List.mem_of_mem_take h
  · exact List.mem_of_mem_drop (List.mem_of_mem_take h)

theorem required_mem (child : Bool) {t : Text} (h : t ∈ reqPackT child) :
    stringOf t ∈ required child := by
  have hp := reqPackT_sub child h
  refine required_of (by rw [packNames_eq]; exact List.mem_map.mpr ⟨t, hp, rfl⟩) (fun u e hu => ?_)
  rw [← (stringOf_inj (packT_ascii child t hp) hu).mp e]
  exact reqPackT_ok child t h

theorem required_shared (child : Bool) : ∀ f ∈ FileName.sharedRequired, f ∈ required child := by
  intro f hf
  rw [sharedRequired_eq child] at hf
  obtain ⟨t, h1, rfl⟩ := List.mem_map.mp hf
  exact required_mem child (List.mem_append_left _ h1)

theorem required_child : ∀ f ∈ FileName.childRequired, f ∈ required true := by
  intro f hf
  rw [childRequired_eq] at hf
  obtain ⟨t, h1, rfl⟩ := List.mem_map.mp hf
  exact required_mem true (List.mem_append_right _ h1)

theorem required_base : ∀ f ∈ FileName.baseRequired, f ∈ required false := by
  intro f hf
  rw [baseRequired_eq] at hf
  obtain ⟨t, h1, rfl⟩ := List.mem_map.mp hf
  exact required_mem false (List.mem_append_right _ h1)

end Pack

end Verif
