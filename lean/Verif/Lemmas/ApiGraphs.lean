import Verif.Lemmas.ApiSim

/-!
The calls on named graphs are as specified (`Verif.Api.Step`).
-/

namespace Verif.Api

open Spec SimpleBuilder Store World Session

variable {K V L : Type} [LinearOrder K] [LinearOrder V] [DecidableEq L]
  {s : Session K V L} {w : World K V} {a : State K V L} {ch : Choice K V L}

section Label

variable {disk : Bool} {m : LabelMap L Name} {l : L} {n : Option Name} {d d' : LabelData Name}

theorem labelCall_get : labelCall disk m (.get l) = (.got (m.get? l), m) := by
  cases disk <;> rfl

theorem labelCall_create : labelCall disk m (.create l) = MemoryLabels.create m l := by
  cases disk <;> rfl

theorem labelCall_delete : labelCall disk m (.delete l) = MemoryLabels.delete m l := by
  cases disk <;> rfl

theorem set_missing (hg : m.get? l = none) : labelCall disk m (.set l d n) = (.missing, m) := by
  cases disk <;>
    simp [labelCall, DiskLabels.call, MemoryLabels.call, DiskLabels.set, MemoryLabels.set, hg]

theorem set_late (hg : m.get? l = some d') (hv : d'.version ≠ d.version) :
    labelCall disk m (.set l d n) = (.set none, m) := by
  have : d' ≠ d := by rintro rfl; exact hv rfl
  cases disk <;>
    simp [labelCall, DiskLabels.call, MemoryLabels.call, DiskLabels.set, MemoryLabels.set, hg,
      LabelData.withUpdatedLayer, hv, this]

theorem set_done (hg : m.get? l = some d) :
    labelCall disk m (.set l d n) =
      (.set (some ⟨n, d.version + 1⟩), m.insert l ⟨n, d.version + 1⟩) := by
  cases disk <;>
    simp [labelCall, DiskLabels.call, MemoryLabels.call, DiskLabels.set, MemoryLabels.set, hg,
      LabelData.withUpdatedLayer]

theorem set_same (hg : m.get? l = some d') (hv : d'.version = d.version) :
    labelCall disk m (.set l d n) =
        (.set (some ⟨n, d.version + 1⟩), m.insert l ⟨n, d.version + 1⟩) ∨
      (d'.layer ≠ d.layer ∧ labelCall disk m (.set l d n) = (.set none, m)) := by
  by_cases he : d' = d
  · subst he; exact Or.inl (set_done hg)
  · have hl : d'.layer ≠ d.layer := by
      intro hl
      cases d; cases d'
      cases hl; cases hv
      exact he rfl
    cases disk
    · left
      simp [labelCall, MemoryLabels.call, MemoryLabels.set, hg, LabelData.withUpdatedLayer, hv]
    · right
      simp [labelCall, DiskLabels.call, DiskLabels.set, hg, he, hl]

end Label

theorem Sim.noGraph (h : Sim s w a) {l : L} : a.graphs l = none ↔ s.labels.get? l = none := by
  rw [h.labels]; cases s.labels.get? l <;> simp

theorem Sim.graph (h : Sim s w a) {l : L} {d : LabelData Name} (hd : s.labels.get? l = some d) :
    a.graphs l = some (d.layer, d.version) := by
  rw [h.labels, hd]; rfl

theorem Sim.createGraph (h : Sim s w a) (l : L) :
    SimulatesAt w a (.createGraph l) (s.perform ch (.createGraph l)) := by
  cases hg : s.labels.get? l with
  | some d =>
    have : s.perform ch (.createGraph l) = (.failed, s) := by
      simp only [perform, labelCall_create, MemoryLabels.create, hg]
    rw [this]
    exact ⟨a, .createGraphTwice (by rw [h.graph hg]; simp), h⟩
  | none =>
    have : s.perform ch (.createGraph l) =
        (.done, { s with labels := s.labels.insert l .newEmpty }) := by
      simp only [perform, labelCall_create, MemoryLabels.create, hg]
    rw [this]
    refine ⟨_, .createGraph (h.noGraph.2 hg), h.setGraph (by simp) ?_ (h.keys.insert _ _)⟩
    intro k
    rw [LabelMap.get?_insert]
    rfl

theorem Sim.openGraph (h : Sim s w a) (l : L) :
    SimulatesAt w a (.openGraph l) (s.perform ch (.openGraph l)) := by
  have : s.perform ch (.openGraph l) = (.flag (s.labels.get? l).isSome, s) := by
    simp only [perform, labelCall_get]
  rw [this]
  refine ⟨a, .openGraph ?_, h⟩
  rw [Ne, h.noGraph]
  cases s.labels.get? l <;> simp

theorem Sim.removeGraph (h : Sim s w a) (l : L) :
    Sim { s with labels := s.labels.remove l } w (a.setGraph l none) := by
  refine h.setGraph (by simp) ?_ (h.keys.remove _)
  intro k
  rw [LabelMap.get?_remove]
  rfl

theorem Sim.deleteGraph (h : Sim s w a) (l : L) :
    SimulatesAt w a (.deleteGraph l) (s.perform ch (.deleteGraph l)) := by
  have : s.perform ch (.deleteGraph l) =
      (.flag (s.labels.get? l).isSome, { s with labels := s.labels.remove l }) := by
    simp only [perform, labelCall_delete, MemoryLabels.delete]
  rw [this]
  refine ⟨_, .deleteGraph ?_, h.removeGraph l⟩
  rw [Ne, h.noGraph]
  cases s.labels.get? l <;> simp

theorem Sim.dropGraph (h : Sim s w a) (l : L) :
    SimulatesAt w a (.dropGraph l) (s.perform ch (.dropGraph l)) := by
  have : s.perform ch (.dropGraph l) = (.done, { s with labels := s.labels.remove l }) := by
    simp only [perform, graphCall, NamedGraph.delete, runProg, labelCall_delete,
      MemoryLabels.delete, said]
  rw [this]
  exact ⟨_, .dropGraph, h.removeGraph l⟩

theorem Sim.graphs (h : Sim s w a) (hl : ∀ l, (ch.labels l).Perm l) :
    SimulatesAt w a .graphs (s.perform ch .graphs) := by
  refine ⟨a, .graphs ?_ ?_, h⟩
  · rw [(hl _).nodup_iff]
    exact List.pairwise_map.2 h.keys
  · intro l
    rw [(hl _).mem_iff]
    show l ∈ s.labels.map Prod.fst ↔ _
    rw [Ne, h.noGraph, List.mem_map]
    constructor
    · rintro ⟨⟨k, d⟩, hm, rfl⟩
      rw [(h.keys.mem_iff k d).1 hm]; simp
    · intro hn
      obtain ⟨d, hd⟩ := Option.ne_none_iff_exists'.1 hn
      exact ⟨(l, d), (h.keys.mem_iff l d).2 hd, rfl⟩

theorem Sim.head (h : Sim s w a) (l : L) : Simulates a (.head l) (s.perform ch (.head l)) := by
  show Simulates a (.head l) (s.head l)
  unfold Session.head
  cases hg : s.labels.get? l with
  | none =>
    simp only [NamedGraph.headVersion, runProg, labelCall_get, hg]
    exact ⟨w, a, .headMissing (h.noGraph.2 hg), h⟩
  | some d =>
    simp only [NamedGraph.headVersion, runProg, labelCall_get, hg]
    obtain ⟨o, v⟩ := d
    cases o with
    | none => exact ⟨w, a, .headNone (h.graph hg), h⟩
    | some n =>
      have hn := h.heads l n v (h.graph hg)
      obtain ⟨x, w', h1, h2, _, _, h3⟩ := h.load hn .failed
      dsimp only
      rw [h1]
      refine ⟨w', _, ?_, h2.hold hn (by rw [h3]; exact List.mem_cons_self ..)⟩
      dsimp only
      rw [h.handlesLength]
      exact .head (h.graph hg)

theorem Sim.withLayer (_h : Sim s w a) {i : Nat} {l : InternalLayer K V}
    (hi : s.layers[i]? = some l) (k) : s.withLayer i k = k l := by
  unfold Session.withLayer; rw [hi]

theorem Sim.insertGraph (h : Sim s w a) (l : L) {n v : Nat} (hn : a.log.known n) :
    Sim { s with labels := s.labels.insert l ⟨some n, v⟩ } w (a.setGraph l (some (some n, v))) := by
  refine h.setGraph ?_ ?_ (h.keys.insert _ _)
  · intro m v' e; cases e; exact hn
  · intro k
    rw [LabelMap.get?_insert]
    rfl

theorem Sim.isAncestor (h : Sim s w a) {n : Nat} (hn : a.log.known n) (m : Nat) :
    ∃ b, s.store.isAncestor n m = .ok b ∧ (b = true ↔ a.log.Ancestor m n) := by
  obtain ⟨b, h1, h2⟩ := h.layers.run.shape.closed.isAncestor h.layers.run.shape.parent n m
  rw [← h.store]
  exact ⟨b, h1, by rw [h2, h.layers.ancestor hn]⟩

theorem Sim.setHead (h : Sim s w a) (l : L) {i : Nat} (hi : a.Held i) :
    SimulatesAt w a (.setHead l i) (s.perform ch (.setHead l i)) := by
  obtain ⟨n, hi⟩ := hi
  obtain ⟨x, hx, hn, hxh⟩ := h.handle hi
  obtain ⟨hxn, _⟩ := h.layers.named hn hxh
  simp only [perform]
  rw [h.withLayer hx]
  cases hg : s.labels.get? l with
  | none =>
    simp only [graphCall, NamedGraph.setHead, runProg, labelCall_get, hg, said]
    exact ⟨a, .setHeadMissing (h.noGraph.2 hg), h⟩
  | some d =>
    obtain ⟨o, v⟩ := d
    cases o with
    | none =>
      simp only [graphCall, NamedGraph.setHead, NamedGraph.trySet, runProg, labelCall_get,
        hg, said, set_done hg, hxn]
      exact ⟨_, .setHead (h.graph hg) hi (by simp), h.insertGraph l hn⟩
    | some r =>
      obtain ⟨b, h1, h2⟩ := h.isAncestor hn r
      cases b with
      | true =>
        simp only [graphCall, NamedGraph.setHead, NamedGraph.trySet, runProg, labelCall_get,
          hg, said, set_done hg, hxn, h1]
        refine ⟨_, .setHead (h.graph hg) hi ?_, h.insertGraph l hn⟩
        intro r' e; cases e; exact h2.1 rfl
      | false =>
        simp only [graphCall, NamedGraph.setHead, runProg, labelCall_get, hg, said, hxn, h1]
        exact ⟨a, .setHeadRefused (h.graph hg) hi (fun ha => by simpa using h2.2 ha), h⟩

theorem Sim.forceSetHead (h : Sim s w a) (l : L) {i : Nat} (hi : a.Held i) :
    SimulatesAt w a (.forceSetHead l i) (s.perform ch (.forceSetHead l i)) := by
  obtain ⟨n, hi⟩ := hi
  obtain ⟨x, hx, hn, hxh⟩ := h.handle hi
  obtain ⟨hxn, _⟩ := h.layers.named hn hxh
  simp only [perform]
  rw [h.withLayer hx]
  cases hg : s.labels.get? l with
  | none =>
    simp only [graphCall, NamedGraph.forceSetHead, runProg, labelCall_get, hg,
      said]
    exact ⟨a, .forceSetHeadMissing (h.noGraph.2 hg), h⟩
  | some d =>
    obtain ⟨o, v⟩ := d
    simp only [graphCall, NamedGraph.forceSetHead, runProg, labelCall_get,
        hg, said, set_done hg, hxn]
    exact ⟨_, .forceSetHead (h.graph hg) hi, h.insertGraph l hn⟩

theorem Sim.forceSetHeadVersion (h : Sim s w a) (l : L) {i v : Nat} (hi : a.Held i) :
    SimulatesAt w a (.forceSetHeadVersion l i v) (s.perform ch (.forceSetHeadVersion l i v)) := by
  obtain ⟨n, hi⟩ := hi
  obtain ⟨x, hx, hn, hxh⟩ := h.handle hi
  obtain ⟨hxn, _⟩ := h.layers.named hn hxh
  simp only [perform]
  rw [h.withLayer hx]
  cases hg : s.labels.get? l with
  | none =>
    simp only [graphCall, NamedGraph.forceSetHeadVersion, runProg, labelCall_get, hg, said]
    exact ⟨a, .forceSetHeadVersionMissing (h.noGraph.2 hg), h⟩
  | some d =>
    obtain ⟨o, v'⟩ := d
    by_cases hv : v' = v
    · subst hv
      simp only [graphCall, NamedGraph.forceSetHeadVersion, NamedGraph.trySet, runProg,
        labelCall_get, hg, said, set_done hg, ne_eq, not_true_eq_false, if_false, hxn]
      exact ⟨_, .forceSetHeadVersion (h.graph hg) hi, h.insertGraph l hn⟩
    · simp only [graphCall, NamedGraph.forceSetHeadVersion, runProg, labelCall_get, hg, said, ne_eq, hv, not_false_eq_true, if_true]
      exact ⟨a, .forceSetHeadVersionRefused (h.graph hg) hv, h⟩

end Verif.Api
