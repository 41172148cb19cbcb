import Verif.Model.Layer
import Verif.Lemmas.Sort
import Mathlib.Data.List.Nodup

/-!
Dictionaries and ids across a stack of layers.

The node/value dictionary and the predicate dictionary of a layer are both treated
as one list of entries with an id map.
-/

set_option linter.unusedSectionVars false
set_option linter.unusedVariables false

namespace Verif

/-- An id map that permutes the ids `1..n`. -/
def IdMapOk (m : IdMap) (n : Nat) : Prop := ∀ l, m = some l → l.Perm (List.range n)

theorem IdMapOk.none (n : Nat) : IdMapOk none n := by intro l h; cases h

theorem IdMapOk.outer_inner {m : IdMap} {n i : Nat} (h : IdMapOk m n) (h1 : 1 ≤ i) (h2 : i ≤ n) :
    ∃ j, 1 ≤ j ∧ j ≤ n ∧ outerToInner m i = some j ∧ innerToOuter m j = some i := by
  cases m with
  | none => exact ⟨i, h1, h2, rfl, rfl⟩
  | some l =>
    have hp := h l rfl
    have hlen : l.length = n := by simpa using hp.length_eq
    have hmem : i - 1 ∈ l := by rw [hp.mem_iff, List.mem_range]; omega
    have hidx : l.idxOf (i - 1) < l.length := List.idxOf_lt_length_iff.2 hmem
    refine ⟨l.idxOf (i - 1) + 1, by omega, by omega, ?_, ?_⟩
    · unfold outerToInner
      simp only
      rw [if_neg (by omega), if_neg (by omega), if_pos hmem]
    · unfold innerToOuter
      simp only
      rw [if_neg (by omega), if_neg (by omega)]
      simp only [Nat.add_sub_cancel, List.getElem?_eq_getElem hidx, Option.map_some,
        List.getElem_idxOf hidx, Option.some.injEq]
      omega

theorem IdMapOk.inner_outer {m : IdMap} {n j : Nat} (h : IdMapOk m n) (h1 : 1 ≤ j) (h2 : j ≤ n) :
    ∃ i, 1 ≤ i ∧ i ≤ n ∧ innerToOuter m j = some i ∧ outerToInner m i = some j := by
  cases m with
  | none => exact ⟨j, h1, h2, rfl, rfl⟩
  | some l =>
    have hp := h l rfl
    have hlen : l.length = n := by simpa using hp.length_eq
    have hlt : j - 1 < l.length := by omega
    have hmem : l[j - 1] ∈ l := List.getElem_mem hlt
    have hr : l[j - 1] < n := by rw [hp.mem_iff, List.mem_range] at hmem; exact hmem
    have hnd : l.Nodup := hp.nodup_iff.2 List.nodup_range
    refine ⟨l[j - 1] + 1, by omega, by omega, ?_, ?_⟩
    · unfold innerToOuter
      simp only
      rw [if_neg (by omega), if_neg (by omega)]
      simp [List.getElem?_eq_getElem hlt]
    · unfold outerToInner
      simp only
      rw [if_neg (by omega), if_neg (by omega)]
      simp only [Nat.add_sub_cancel, hmem, if_true, Option.some.injEq]
      have := hnd.idxOf_getElem (j - 1) hlt
      omega

theorem IdMapOk.outer_big {m : IdMap} {n i : Nat} (h : IdMapOk m n) (h2 : n < i) :
    outerToInner m i = some i := by
  cases m with
  | none => rfl
  | some l =>
    have hlen : l.length = n := by simpa using (h l rfl).length_eq
    unfold outerToInner
    simp only
    rw [if_pos (by omega)]

section Dict
variable {α : Type} [DecidableEq α]

theorem dictGet_of_id {d : List α} {a : α} {i : Nat} (h : dictId d a = some i) :
    dictGet d i = some a ∧ 1 ≤ i ∧ i ≤ d.length := by
  unfold dictId at h
  split at h
  · rename_i hm
    simp only [Option.some.injEq] at h
    subst h
    have hidx : d.idxOf a < d.length := List.idxOf_lt_length_iff.2 hm
    refine ⟨?_, by omega, by omega⟩
    unfold dictGet
    rw [if_neg (by omega)]
    simp [List.getElem?_eq_getElem hidx]
  · cases h

theorem dictId_of_get {d : List α} (hd : d.Nodup) {a : α} {i : Nat} (h : dictGet d i = some a) :
    dictId d a = some i := by
  unfold dictGet at h
  split at h
  · cases h
  · rename_i hi
    obtain ⟨hlt, rfl⟩ := List.getElem?_eq_some_iff.1 h
    unfold dictId
    rw [if_pos (List.getElem_mem hlt), hd.idxOf_getElem (i - 1) hlt]
    congr 1
    omega

theorem dictId_none {d : List α} {a : α} : dictId d a = none ↔ a ∉ d := by
  unfold dictId
  split <;> simp_all

omit [DecidableEq α] in
theorem dictGet_none_of_gt {d : List α} {i : Nat} (h : d.length < i) : dictGet d i = none := by
  unfold dictGet
  rw [if_neg (by omega), List.getElem?_eq_none (by omega)]

omit [DecidableEq α] in
theorem dictGet_some_of_le {d : List α} {i : Nat} (h1 : 1 ≤ i) (h2 : i ≤ d.length) :
    ∃ a, dictGet d i = some a ∧ a ∈ d := by
  have hlt : i - 1 < d.length := by omega
  refine ⟨d[i - 1], ?_, List.getElem_mem hlt⟩
  unfold dictGet
  rw [if_neg (by omega), List.getElem?_eq_getElem hlt]

/-! ### Levels -/

/-- The number of entries below and including a level. -/
def lvCount : List (List α × IdMap) → Nat
  | [] => 0
  | (d, _) :: L => lvCount L + d.length

/-- The id of an entry. -/
def lvId : List (List α × IdMap) → α → Option (Option Nat)
  | [], _ => some none
  | (d, m) :: L, a =>
    match dictId d a with
    | some i => (innerToOuter m i).map (fun j => some (j + lvCount L))
    | none => lvId L a

/-- The entry of an id. -/
def lvGet : List (List α × IdMap) → Nat → Option (Option α)
  | [], _ => some none
  | (d, m) :: L, id =>
    if id > lvCount L then (outerToInner m (id - lvCount L)).map (dictGet d) else lvGet L id

/-- Every level has distinct entries that do not occur below, and its id map is a
permutation. -/
def LvOk : List (List α × IdMap) → Prop
  | [] => True
  | (d, m) :: L => d.Nodup ∧ (∀ a ∈ d, ∀ e ∈ L, a ∉ e.1) ∧ IdMapOk m d.length ∧ LvOk L

/-- The entry occurs in one of the levels. -/
def lvMem (L : List (List α × IdMap)) (a : α) : Prop := ∃ e ∈ L, a ∈ e.1

theorem lvId_total : ∀ {L : List (List α × IdMap)}, LvOk L → ∀ a,
    (∃ i, lvId L a = some (some i) ∧ 1 ≤ i ∧ i ≤ lvCount L ∧ lvMem L a) ∨
      (lvId L a = some none ∧ ¬ lvMem L a)
  | [], _, a => Or.inr ⟨rfl, by simp [lvMem]⟩
  | (d, m) :: L, h, a => by
    obtain ⟨h1, h2, h3, h4⟩ := h
    simp only [lvId, lvCount]
    cases hd : dictId d a with
    | some i =>
      left
      obtain ⟨_, g2, g3⟩ := dictGet_of_id hd
      obtain ⟨j, k1, k2, k3, _⟩ := h3.inner_outer g2 g3
      refine ⟨j + lvCount L, by simp [k3], by omega, by omega, (d, m), by simp, ?_⟩
      by_contra hn
      rw [dictId_none.2 hn] at hd
      cases hd
    | none =>
      have hn := dictId_none.1 hd
      rcases lvId_total h4 a with ⟨i, g1, g2, g3, e, g4, g5⟩ | ⟨g1, g2⟩
      · left
        exact ⟨i, g1, g2, by omega, e, by simp [g4], g5⟩
      · right
        refine ⟨g1, ?_⟩
        rintro ⟨e, he, hae⟩
        rcases List.mem_cons.1 he with rfl | he
        · exact hn hae
        · exact g2 ⟨e, he, hae⟩

theorem lvGet_total : ∀ {L : List (List α × IdMap)}, LvOk L → ∀ id, 1 ≤ id →
    (∃ a, lvGet L id = some (some a) ∧ id ≤ lvCount L ∧ lvId L a = some (some id)) ∨
      (lvGet L id = some none ∧ lvCount L < id)
  | [], _, id, hid => Or.inr ⟨rfl, by simp only [lvCount]; omega⟩
  | (d, m) :: L, h, id, hid => by
    obtain ⟨h1, h2, h3, h4⟩ := h
    unfold lvGet
    by_cases hc : id > lvCount L
    · rw [if_pos hc]
      by_cases hb : id - lvCount L ≤ d.length
      · left
        obtain ⟨j, k1, k2, k3, k4⟩ := h3.outer_inner (show 1 ≤ id - lvCount L by omega) hb
        obtain ⟨a, g1, g2⟩ := dictGet_some_of_le k1 k2
        refine ⟨a, by simp [k3, g1], by simp only [lvCount]; omega, ?_⟩
        unfold lvId
        rw [dictId_of_get h1 g1]
        simp only [k4, Option.map_some, Option.some.injEq]
        omega
      · right
        rw [h3.outer_big (by omega)]
        simp only [Option.map_some, Option.some.injEq, lvCount]
        exact ⟨dictGet_none_of_gt (by omega), by omega⟩
    · rw [if_neg hc]
      rcases lvGet_total h4 id hid with ⟨a, g1, g2, g3⟩ | ⟨_, g2⟩
      · left
        refine ⟨a, g1, by simp only [lvCount]; omega, ?_⟩
        unfold lvId
        have : a ∉ d := by
          intro ha
          rcases lvId_total h4 a with ⟨_, _, _, _, e, he, hae⟩ | ⟨k1, _⟩
          · exact h2 a ha e he hae
          · rw [g3] at k1; cases k1
        rw [dictId_none.2 this]
        exact g3
      · omega

/-- The two directions are inverse to each other. -/
theorem lv_iff : ∀ {L : List (List α × IdMap)}, LvOk L → ∀ {a id}, id ≠ 0 →
    (lvId L a = some (some id) ↔ lvGet L id = some (some a))
  | [], _, a, id, _ => by simp [lvId, lvGet]
  | (d, m) :: L, h, a, id, hid => by
    constructor
    · intro hi
      obtain ⟨h1, h2, h3, h4⟩ := h
      unfold lvId at hi
      unfold lvGet
      cases hd : dictId d a with
      | some i =>
        rw [hd] at hi
        obtain ⟨g1, g2, g3⟩ := dictGet_of_id hd
        obtain ⟨j, k1, k2, k3, k4⟩ := h3.inner_outer g2 g3
        simp only [k3, Option.map_some, Option.some.injEq] at hi
        subst hi
        rw [if_pos (by omega)]
        simp [k4, g1]
      | none =>
        rw [hd] at hi
        simp only at hi
        rcases lvId_total h4 a with ⟨i, q1, q2, q3, _⟩ | ⟨q1, _⟩
        · rw [hi] at q1
          simp only [Option.some.injEq] at q1
          subst q1
          rw [if_neg (by omega)]
          exact (lv_iff h4 hid).1 hi
        · rw [hi] at q1; cases q1
    · intro hg
      rcases lvGet_total h id (by omega) with ⟨a', g1, _, g3⟩ | ⟨g1, _⟩
      · rw [hg] at g1
        simp only [Option.some.injEq] at g1
        rw [g1]; exact g3
      · rw [hg] at g1; cases g1

omit [DecidableEq α] in
/-- Ids of lower levels are kept. -/
theorem lvGet_cons_low {e : List α × IdMap} {L : List (List α × IdMap)} {id : Nat}
    (h : id ≤ lvCount L) : lvGet (e :: L) id = lvGet L id := by
  obtain ⟨d, m⟩ := e
  unfold lvGet
  rw [if_neg (by omega)]
  cases L <;> rfl

theorem lvId_cons_low {e : List α × IdMap} {L : List (List α × IdMap)} (h : LvOk (e :: L)) {a : α}
    {i : Nat} (hi : lvId L a = some (some i)) : lvId (e :: L) a = some (some i) := by
  obtain ⟨d, m⟩ := e
  obtain ⟨h1, h2, h3, h4⟩ := h
  unfold lvId
  have : a ∉ d := by
    intro ha
    rcases lvId_total h4 a with ⟨_, _, _, _, e, he, hae⟩ | ⟨k1, _⟩
    · exact h2 a ha e he hae
    · rw [hi] at k1; cases k1
  rw [dictId_none.2 this]
  exact hi

end Dict

/-! ### Layers -/

variable {K V : Type}

/-- The node and value entries of a layer in dictionary order. -/
def LayerData.objs (d : LayerData K V) : List (Obj K V) :=
  d.nodes.map Obj.node ++ d.values.map Obj.value

theorem LayerData.objs_length (d : LayerData K V) :
    d.objs.length = d.nodes.length + d.values.length := by simp [LayerData.objs]

/-- The node and value levels of a stack. -/
def nvLevels (S : List (LayerData K V)) : List (List (Obj K V) × IdMap) :=
  S.map (fun d => (d.objs, d.nvMap))

/-- The predicate levels of a stack. -/
def pLevels (S : List (LayerData K V)) : List (List K × IdMap) :=
  S.map (fun d => (d.preds, d.pMap))

/-- The recorded counts of a layer are those of the layers below it. -/
def CountsOk : List (LayerData K V) → Prop
  | [] => True
  | d :: S => d.parentNV = Stack.nvCount S ∧ d.parentP = Stack.pCount S ∧ CountsOk S

section Bridge
variable [DecidableEq K] [DecidableEq V]

omit [DecidableEq K] [DecidableEq V] in
theorem nvCount_eq : ∀ {S : List (LayerData K V)}, CountsOk S →
    Stack.nvCount S = lvCount (nvLevels S)
  | [], _ => rfl
  | d :: S, h => by
    obtain ⟨h1, _, h3⟩ := h
    have := nvCount_eq h3
    show _ = lvCount ((d.objs, d.nvMap) :: nvLevels S)
    simp only [Stack.nvCount, lvCount, LayerData.objs_length]
    omega

omit [DecidableEq K] [DecidableEq V] in
theorem pCount_eq : ∀ {S : List (LayerData K V)}, CountsOk S →
    Stack.pCount S = lvCount (pLevels S)
  | [], _ => rfl
  | d :: S, h => by
    obtain ⟨_, h1, h3⟩ := h
    have := pCount_eq h3
    show _ = lvCount ((d.preds, d.pMap) :: pLevels S)
    simp only [Stack.pCount, lvCount]
    omega

omit [DecidableEq K] [DecidableEq V] in
theorem obj_node_inj (a b : K) (h : (Obj.node a : Obj K V) = Obj.node b) : a = b := by
  cases h; rfl

omit [DecidableEq K] [DecidableEq V] in
theorem obj_value_inj (a b : V) (h : (Obj.value a : Obj K V) = Obj.value b) : a = b := by
  cases h; rfl

theorem idxOf_map_inj {α β : Type} [DecidableEq α] [DecidableEq β] {f : α → β}
    (hf : ∀ a b, f a = f b → a = b) (l : List α) (a : α) : (l.map f).idxOf (f a) = l.idxOf a := by
  induction l with
  | nil => rfl
  | cons b l ih =>
    rw [List.map_cons, List.idxOf_cons, List.idxOf_cons]
    by_cases h : b = a
    · subst h; simp
    · have h' : f b ≠ f a := fun e => h (hf _ _ e)
      have e1 : (b == a) = false := by simpa using h
      have e2 : (f b == f a) = false := by simpa using h'
      rw [e1, e2]
      simp [ih]

theorem dictId_node (d : LayerData K V) (k : K) : dictId d.objs (.node k) = dictId d.nodes k := by
  unfold dictId LayerData.objs
  by_cases h : k ∈ d.nodes
  · rw [if_pos h, if_pos (by simp [h])]
    rw [List.idxOf_append_of_mem (by simpa using h), idxOf_map_inj obj_node_inj]
  · rw [if_neg h, if_neg (by simp [h])]

theorem dictId_value (d : LayerData K V) (v : V) :
    dictId d.objs (.value v) = (dictId d.values v).map (· + d.nodes.length) := by
  unfold dictId LayerData.objs
  by_cases h : v ∈ d.values
  · rw [if_pos h, if_pos (by simp [h])]
    rw [List.idxOf_append_of_notMem (by simp), idxOf_map_inj obj_value_inj]
    simp
    omega
  · rw [if_neg h, if_neg (by simp [h])]; rfl

theorem objectId_eq : ∀ {S : List (LayerData K V)}, CountsOk S → ∀ o,
    Stack.objectId S o = lvId (nvLevels S) o
  | [], _, o => by cases o <;> rfl
  | d :: S, h, o => by
    have hS : CountsOk S := h.2.2
    have hc := nvCount_eq hS
    show _ = lvId ((d.objs, d.nvMap) :: nvLevels S) o
    cases o with
    | node k =>
      have ih := objectId_eq hS (.node k)
      simp only [Stack.objectId] at ih
      simp only [Stack.objectId, Stack.nodeId, lvId, dictId_node]
      cases dictId d.nodes k with
      | none => exact ih
      | some i => simp only [hc]; cases innerToOuter d.nvMap i <;> rfl
    | value v =>
      have ih := objectId_eq hS (.value v)
      simp only [Stack.objectId] at ih
      simp only [Stack.objectId, Stack.valueId, lvId, dictId_value]
      cases dictId d.values v with
      | none => exact ih
      | some i =>
        simp only [Option.map_some]
        simp only [hc]; cases innerToOuter d.nvMap (i + d.nodes.length) <;> rfl

omit [DecidableEq V] in
theorem predId_eq : ∀ {S : List (LayerData K V)}, CountsOk S → ∀ p,
    Stack.predId S p = lvId (pLevels S) p
  | [], _, o => rfl
  | d :: S, h, p => by
    have hS : CountsOk S := h.2.2
    have hc := pCount_eq hS
    show _ = lvId ((d.preds, d.pMap) :: pLevels S) p
    simp only [Stack.predId, lvId]
    cases dictId d.preds p with
    | none => exact predId_eq hS p
    | some i => simp only [hc]; cases innerToOuter d.pMap i <;> rfl

omit [DecidableEq K] [DecidableEq V] in
/-- The entry of an id within one layer. -/
theorem dictGet_objs (d : LayerData K V) (j : Nat) :
    dictGet d.objs j = if j > d.nodes.length
      then (dictGet d.values (j - d.nodes.length)).map Obj.value
      else (dictGet d.nodes j).map Obj.node := by
  unfold dictGet LayerData.objs
  by_cases h0 : j = 0
  · subst h0; simp
  · rw [if_neg h0]
    by_cases h : j > d.nodes.length
    · rw [if_pos h, if_neg (by omega), List.getElem?_append_right (by simp; omega)]
      simp only [List.length_map, List.getElem?_map]
      congr 2
      omega
    · rw [if_neg h, if_neg h0, List.getElem?_append_left (by simp; omega)]
      simp only [List.getElem?_map]

omit [DecidableEq K] [DecidableEq V] in
theorem locateNV_spec : ∀ {S : List (LayerData K V)}, CountsOk S → ∀ {id}, 1 ≤ id →
    (S = [] ∧ Stack.locateNV S (Stack.nvCount S) id = some none) ∨
    ∃ d i, Stack.locateNV S (Stack.nvCount S) id = some (some (d, i)) ∧
      lvGet (nvLevels S) id = (outerToInner d.nvMap i).map (dictGet d.objs)
  | [], _, id, _ => Or.inl ⟨rfl, rfl⟩
  | [d], h, id, hid => by
    right
    refine ⟨d, id, rfl, ?_⟩
    show lvGet [(d.objs, d.nvMap)] id = _
    have hp : id > 0 := by omega
    simp only [lvGet, lvCount, hp, if_true, Nat.sub_zero]
  | d :: d' :: S, h, id, hid => by
    right
    have hS : CountsOk (d' :: S) := h.2.2
    have hc := nvCount_eq hS
    have hpc : Stack.nvCount (d :: d' :: S) - d.nodes.length - d.values.length =
        Stack.nvCount (d' :: S) := by
      have := h.1
      simp only [Stack.nvCount] at this ⊢
      omega
    unfold Stack.locateNV
    rw [if_neg (by simp only [Stack.nvCount]; omega), hpc]
    simp only
    by_cases hi : id > Stack.nvCount (d' :: S)
    · rw [if_pos hi]
      refine ⟨d, _, rfl, ?_⟩
      show lvGet ((d.objs, d.nvMap) :: nvLevels (d' :: S)) id = _
      rw [lvGet, if_pos (by omega), hc]
    · rw [if_neg hi]
      rcases locateNV_spec hS hid with ⟨g, _⟩ | ⟨e, i, g1, g2⟩
      · cases g
      · refine ⟨e, i, g1, ?_⟩
        show lvGet ((d.objs, d.nvMap) :: nvLevels (d' :: S)) id = _
        rw [lvGet_cons_low (by omega)]
        exact g2

omit [DecidableEq K] [DecidableEq V] in
theorem locateP_spec : ∀ {S : List (LayerData K V)}, CountsOk S → ∀ {id}, 1 ≤ id →
    (S = [] ∧ Stack.locateP S (Stack.pCount S) id = some none) ∨
    ∃ d i, Stack.locateP S (Stack.pCount S) id = some (some (d, i)) ∧
      lvGet (pLevels S) id = (outerToInner d.pMap i).map (dictGet d.preds)
  | [], _, id, _ => Or.inl ⟨rfl, rfl⟩
  | [d], h, id, hid => by
    right
    refine ⟨d, id, rfl, ?_⟩
    show lvGet [(d.preds, d.pMap)] id = _
    have hp : id > 0 := by omega
    simp only [lvGet, lvCount, hp, if_true, Nat.sub_zero]
  | d :: d' :: S, h, id, hid => by
    right
    have hS : CountsOk (d' :: S) := h.2.2
    have hc := pCount_eq hS
    have hpc : Stack.pCount (d :: d' :: S) - d.preds.length = Stack.pCount (d' :: S) := by
      have := h.2.1
      simp only [Stack.pCount] at this ⊢
      omega
    unfold Stack.locateP
    rw [if_neg (by simp only [Stack.pCount]; omega), hpc]
    simp only
    by_cases hi : id > Stack.pCount (d' :: S)
    · rw [if_pos hi]
      refine ⟨d, _, rfl, ?_⟩
      show lvGet ((d.preds, d.pMap) :: pLevels (d' :: S)) id = _
      rw [lvGet, if_pos (by omega), hc]
    · rw [if_neg hi]
      rcases locateP_spec hS hid with ⟨g, _⟩ | ⟨e, i, g1, g2⟩
      · cases g
      · refine ⟨e, i, g1, ?_⟩
        show lvGet ((d.preds, d.pMap) :: pLevels (d' :: S)) id = _
        rw [lvGet_cons_low (by omega)]
        exact g2

theorem idObject_eq {S : List (LayerData K V)} (h : CountsOk S) {id : Nat} (hid : 1 ≤ id) :
    Stack.idObject S id = lvGet (nvLevels S) id := by
  unfold Stack.idObject
  rw [if_neg (by omega)]
  rcases locateNV_spec h hid with ⟨rfl, g⟩ | ⟨d, i, g1, g2⟩
  · simp [g, nvLevels, lvGet]
  · rw [g2]
    simp only [g1, Option.bind_eq_bind, Option.bind_some]
    cases outerToInner d.nvMap i with
    | none => rfl
    | some j =>
      simp only [Option.bind_some, Option.map_some, dictGet_objs, pure]
      split <;> rfl

theorem idSubject_eq {S : List (LayerData K V)} (h : CountsOk S) {id : Nat} (hid : 1 ≤ id) :
    Stack.idSubject S id = (lvGet (nvLevels S) id).map
      (fun r => match r with | some (.node k) => some k | _ => none) := by
  unfold Stack.idSubject
  rw [if_neg (by omega)]
  rcases locateNV_spec h hid with ⟨rfl, g⟩ | ⟨d, i, g1, g2⟩
  · simp [g, nvLevels, lvGet]
  · rw [g2]
    simp only [g1, Option.bind_eq_bind, Option.bind_some]
    cases outerToInner d.nvMap i with
    | none => rfl
    | some j =>
      simp only [Option.bind_some, Option.map_some, dictGet_objs, pure, Option.some.injEq]
      by_cases hj : j > d.nodes.length
      · rw [if_pos hj, dictGet_none_of_gt hj]
        cases dictGet d.values (j - d.nodes.length) <;> rfl
      · rw [if_neg hj]
        cases dictGet d.nodes j <;> rfl

theorem idObjectIsNode_eq {S : List (LayerData K V)} (h : CountsOk S) {id : Nat} (hid : 1 ≤ id)
    (hok : LvOk (nvLevels S)) :
    Stack.idObjectIsNode S id = (lvGet (nvLevels S) id).map
      (fun r => r.map (fun o => match o with | .node _ => true | .value _ => false)) := by
  unfold Stack.idObjectIsNode
  rw [if_neg (by omega)]
  have hz : ∀ {d : LayerData K V} {i j}, outerToInner d.nvMap i = some j → i ≠ 0 → j ≠ 0 := by
    intro d i j hj hi
    unfold outerToInner at hj
    split at hj
    · simp only [Option.some.injEq] at hj; omega
    · rw [if_neg hi] at hj
      split at hj
      · simp only [Option.some.injEq] at hj; omega
      · split at hj
        · simp only [Option.some.injEq] at hj; omega
        · cases hj
  rcases locateNV_spec h hid with ⟨rfl, g⟩ | ⟨d, i, g1, g2⟩
  · simp [g, nvLevels, lvGet]
  · rw [g2]
    simp only [g1, Option.bind_eq_bind, Option.bind_some]
    cases hj : outerToInner d.nvMap i with
    | none => rfl
    | some j =>
      simp only [Option.bind_some, Option.map_some, dictGet_objs, pure]
      by_cases h0 : j = 0
      · -- the lookup would have found an entry of id 0
        have hi : i = 0 := by
          by_contra hi
          exact hz hj hi h0
        exfalso
        subst h0
        rw [hj] at g2
        rcases lvGet_total hok id hid with ⟨a, q1, _⟩ | ⟨q1, q2⟩
        · rw [g2] at q1
          simp [dictGet] at q1
        · -- position 0 is never asked for
          subst hi
          have : ∀ {S : List (LayerData K V)} {pc}, Stack.locateNV S pc id = some (some (d, 0)) →
              False := by
            intro S
            induction S with
            | nil => intro pc hh; simp [Stack.locateNV] at hh
            | cons e S ih =>
              intro pc hh
              cases S with
              | nil =>
                simp only [Stack.locateNV, Option.some.injEq, Prod.mk.injEq] at hh
                omega
              | cons e' S =>
                unfold Stack.locateNV at hh
                split at hh
                · cases hh
                · simp only at hh
                  split at hh
                  · simp only [Option.some.injEq, Prod.mk.injEq] at hh
                    omega
                  · exact ih hh
          exact this g1
      · by_cases hj1 : j > d.nodes.length + d.values.length
        · rw [if_pos hj1, if_pos (by omega), dictGet_none_of_gt (by omega)]
          rfl
        · rw [if_neg hj1]
          by_cases hj2 : j > d.nodes.length
          · rw [if_pos hj2, if_pos hj2]
            obtain ⟨a, ha, _⟩ := dictGet_some_of_le (d := d.values)
              (show 1 ≤ j - d.nodes.length by omega) (by omega)
            rw [ha]; rfl
          · rw [if_neg hj2, if_neg hj2]
            obtain ⟨a, ha, _⟩ := dictGet_some_of_le (d := d.nodes)
              (show 1 ≤ j by omega) (by omega)
            rw [ha]; rfl

theorem idPredicate_eq {S : List (LayerData K V)} (h : CountsOk S) {id : Nat} (hid : 1 ≤ id) :
    Stack.idPredicate S id = lvGet (pLevels S) id := by
  unfold Stack.idPredicate
  rw [if_neg (by omega)]
  rcases locateP_spec h hid with ⟨rfl, g⟩ | ⟨d, i, g1, g2⟩
  · simp [g, pLevels, lvGet]
  · rw [g2]
    simp only [g1, Option.bind_eq_bind, Option.bind_some]
    cases outerToInner d.pMap i <;> rfl

end Bridge

end Verif
