import Verif.Lemmas.ArchiveRollup
import Verif.Model.Pack
import Verif.PackSpec

/-!
What the three layer stores do with a sequence of calls that makes new layers.
-/

namespace Verif

theorem Out.forEach_append {α σ : Type} (f : σ → α → Out σ) (l l' : List α) (s : σ) :
    Out.forEach f s (l ++ l') = (Out.forEach f s l).bind (fun s' => Out.forEach f s' l') := by
  induction l generalizing s with
  | nil => rfl
  | cons a l ih =>
    show (f s a).bind _ = ((f s a).bind _).bind _
    cases f s a with
    | ok s' => exact ih s'
    | err => rfl
    | panic => rfl

theorem Out.forEach_cons {α σ : Type} (f : σ → α → Out σ) (a : α) (l : List α) (s : σ) :
    Out.forEach f s (a :: l) = (f s a).bind (fun s' => Out.forEach f s' l) := rfl

/-- A file that is written: the layer, the name and the contents. -/
abbrev Put := LayerName × FileName × Bytes

namespace Backend

/-- What a file with contents, or none, answers. -/
structure Answers (B : Backend) (s : B.State) (n : LayerName) (f : FileName) (x : Option Bytes) :
    Prop where
  ex : B.fileExists s n f = .ok x.isSome
  absent : x = none → B.map s n f = .err ∧ B.size s n f = .err
  present : ∀ b, x = some b → B.map s n f = .ok b ∧ B.size s n f = .ok b.length

theorem Answers.map_eq {B : Backend} {s : B.State} {n : LayerName} {f : FileName} {x : Option Bytes}
    (h : B.Answers s n f x) : B.map s n f = ArchiveHeader.orErr x := by
  cases x with
  | none => exact (h.absent rfl).1
  | some b => exact (h.present b rfl).1

theorem Answers.size_eq {B : Backend} {s : B.State} {n : LayerName} {f : FileName}
    {x : Option Bytes} (h : B.Answers s n f x) :
    B.size s n f = ArchiveHeader.orErr (x.map List.length) := by
  cases x with
  | none => exact (h.absent rfl).2
  | some b => exact (h.present b rfl).2

/-- A file of a new layer has what was put there. -/
def Filled (B : Backend) (s : B.State) (puts : List Put) (n : LayerName) : Prop :=
  B.directoryExists s n = true ∧
  (∀ f b, (n, f, b) ∈ puts → B.Answers s n f (some b)) ∧
  (∀ f k, FileName.kind f = .ok k → k ≠ FileKind.rollup →
    (∀ f' b, (n, f', b) ∈ puts → FileName.kind f' ≠ .ok k) → B.Answers s n f none) ∧
  B.fileExists s n FileName.rollup = .ok false ∧
  ((∀ b, (n, FileName.parent, b) ∉ puts) → B.layerParent s n = .ok none) ∧
  (∀ b p, (n, FileName.parent, b) ∈ puts → readParentFile b = .ok p →
    B.layerParent s n = .ok (some p))

/-- Puts that can be made: into the new layers, with known names, no kind twice, and not too
big. -/
structure Allowed (sel : List LayerName) (puts : List Put) : Prop where
  into : ∀ p ∈ puts, p.1 ∈ sel
  known : ∀ p ∈ puts, ∃ k, FileName.kind p.2.1 = .ok k ∧ k ≠ FileKind.rollup
  once : (puts.map (fun p => (p.1, FileName.kind p.2.1))).Nodup
  small : ∀ n ∈ sel, ((puts.filter (fun p => p.1 = n)).map (fun p => p.2.2.length)).sum < 2 ^ 64
  parents : ∀ p ∈ puts, FileName.kind p.2.1 = .ok FileKind.parent → p.2.1 = FileName.parent

/-- Creating new layers, writing their files and finalizing them works. -/
def Takes (B : Backend) (s : B.State) : Prop :=
  ∀ (sel order : List LayerName) (puts : List Put), sel.Nodup → order.Perm sel →
    (∀ n ∈ sel, B.directoryExists s n = false) → Allowed sel puts →
    ∃ s1 s2 s3, Out.forEach B.create s sel = .ok s1 ∧
      Out.forEach (fun s p => B.write s p.1 p.2.1 p.2.2) s1 puts = .ok s2 ∧
      Out.forEach B.finalize s2 order = .ok s3 ∧
      (∀ n ∈ sel, B.Filled s3 puts n) ∧ ∀ n, n ∉ sel → PackSpec.Unchanged B s s3 n

/-! ### Stores with plain files -/

/-- A store in which a layer is a set of files with contents. -/
structure Plain (B : Backend) where
  dirs : B.State → LayerName → Bool
  content : B.State → LayerName → FileName → Option Bytes
  none_of : ∀ s n f, dirs s n = false → content s n f = none
  create_ok : ∀ s n, dirs s n = false → ∃ s', B.create s n = .ok s' ∧
    (∀ m, dirs s' m = (decide (m = n) || dirs s m)) ∧ ∀ m g, content s' m g = content s m g
  write_ok : ∀ s n f b, dirs s n = true → content s n f = none → ∃ s', B.write s n f b = .ok s' ∧
    (∀ m, dirs s' m = dirs s m) ∧
    ∀ m g, content s' m g = if m = n ∧ g = f then some b else content s m g
  final_ok : ∀ s n, dirs s n = true → B.finalize s n = .ok s
  dir_eq : ∀ s n, B.directoryExists s n = dirs s n
  ans : ∀ s n f, B.Answers s n f (content s n f)
  parent_eq : ∀ s n, B.layerParent s n = defaultLayerParent (dirs s n)
    (.ok (content s n FileName.parent).isSome) (ArchiveHeader.orErr (content s n FileName.parent))

namespace Plain

variable {B : Backend} (P : B.Plain)

theorem createAll (sel : List LayerName) (s : B.State) (hn : sel.Nodup)
    (hd : ∀ n ∈ sel, P.dirs s n = false) : ∃ s', Out.forEach B.create s sel = .ok s' ∧
      (∀ m, P.dirs s' m = (decide (m ∈ sel) || P.dirs s m)) ∧
      ∀ m g, P.content s' m g = P.content s m g := by
  induction sel generalizing s with
  | nil => exact ⟨s, rfl, fun m => by simp, fun _ _ => rfl⟩
  | cons n sel ih =>
    obtain ⟨s1, h1, h2, h3⟩ := P.create_ok s n (hd n List.mem_cons_self)
    rw [List.nodup_cons] at hn
    obtain ⟨s', g1, g2, g3⟩ := ih s1 hn.2 (fun m hm => by
      rw [h2, hd m (List.mem_cons_of_mem _ hm)]
      have : m ≠ n := fun e => hn.1 (e ▸ hm)
      simp [this])
    refine ⟨s', ?_, fun m => ?_, fun m g => by rw [g3, h3]⟩
    · show (B.create s n).bind _ = _
      rw [h1]; exact g1
    · rw [g2, h2]
      by_cases e : m = n <;> simp [e]

theorem putAll (puts : List Put) (s : B.State) (hd : ∀ p ∈ puts, P.dirs s p.1 = true)
    (hc : ∀ p ∈ puts, P.content s p.1 p.2.1 = none)
    (hn : (puts.map (fun p => (p.1, p.2.1))).Nodup) :
    ∃ s', Out.forEach (fun s p => B.write s p.1 p.2.1 p.2.2) s puts = .ok s' ∧
      (∀ m, P.dirs s' m = P.dirs s m) ∧
      (∀ m g b, (m, g, b) ∈ puts → P.content s' m g = some b) ∧
      (∀ m g, (∀ b, (m, g, b) ∉ puts) → P.content s' m g = P.content s m g) := by
  induction puts generalizing s with
  | nil => exact ⟨s, rfl, fun _ => rfl, fun _ _ _ h => (by cases h), fun _ _ _ => rfl⟩
  | cons p puts ih =>
    obtain ⟨n, f, b⟩ := p
    obtain ⟨s1, h1, h2, h3⟩ := P.write_ok s n f b (hd _ List.mem_cons_self) (hc _ List.mem_cons_self)
    rw [List.map_cons, List.nodup_cons] at hn
    obtain ⟨s', g1, g2, g3, g4⟩ := ih s1
      (fun p hp => by rw [h2]; exact hd p (List.mem_cons_of_mem _ hp))
      (fun p hp => by
        rw [h3, if_neg]
        · exact hc p (List.mem_cons_of_mem _ hp)
        · rintro ⟨e1, e2⟩
          exact hn.1 (List.mem_map.mpr ⟨p, hp, by rw [e1, e2]⟩)) hn.2
    refine ⟨s', ?_, fun m => by rw [g2, h2], fun m g b' hm => ?_, fun m g hm => ?_⟩
    · show (B.write s n f b).bind _ = _
      rw [h1]; exact g1
    · rcases List.mem_cons.mp hm with e | e
      · cases e
        rw [g4, h3, if_pos ⟨rfl, rfl⟩]
        intro b' hb
        exact hn.1 (List.mem_map.mpr ⟨_, hb, rfl⟩)
      · exact g3 m g b' e
    · rw [g4 m g (fun b' hb => hm b' (List.mem_cons_of_mem _ hb)), h3, if_neg]
      rintro ⟨rfl, rfl⟩
      exact hm b List.mem_cons_self

theorem finalAll (order : List LayerName) (s : B.State) (hd : ∀ n ∈ order, P.dirs s n = true) :
    Out.forEach B.finalize s order = .ok s := by
  induction order with
  | nil => rfl
  | cons n order ih =>
    show (B.finalize s n).bind _ = _
    rw [P.final_ok s n (hd n List.mem_cons_self)]
    exact ih (fun m hm => hd m (List.mem_cons_of_mem _ hm))

theorem answers_eq (s s' : B.State) (n : LayerName)
    (h : ∀ f, P.content s' n f = P.content s n f) (f : FileName) :
    B.fileExists s' n f = B.fileExists s n f ∧ B.map s' n f = B.map s n f ∧
      B.size s' n f = B.size s n f := by
  refine ⟨?_, ?_, ?_⟩
  · rw [(P.ans s' n f).ex, (P.ans s n f).ex, h]
  · rw [(P.ans s' n f).map_eq, (P.ans s n f).map_eq, h]
  · rw [(P.ans s' n f).size_eq, (P.ans s n f).size_eq, h]

include P in
theorem takes (s : B.State) : B.Takes s := by
  intro sel order puts hn ho hd ha
  obtain ⟨s1, h1, h2, h3⟩ := P.createAll sel s hn (fun n hn => by rw [← P.dir_eq]; exact hd n hn)
  have hk : (puts.map (fun p => (p.1, p.2.1))).Nodup := by
    have h := ha.once
    rw [List.Nodup, List.pairwise_map] at h ⊢
    exact h.imp (fun hne e => hne (by
      have e1 := congrArg Prod.fst e
      have e2 := congrArg Prod.snd e
      dsimp only at e1 e2
      rw [e1, e2]))
  obtain ⟨s2, g1, g2, g3, g4⟩ := P.putAll puts s1
    (fun p hp => by rw [h2]; simp [ha.into p hp])
    (fun p hp => by
      rw [h3]; exact P.none_of s _ _ (by rw [← P.dir_eq]; exact hd _ (ha.into p hp))) hk
  have hf := P.finalAll order s2 (fun n hn => by rw [g2, h2]; simp [(ho.mem_iff).mp hn])
  have old : ∀ n ∈ sel, ∀ f, (∀ b, (n, f, b) ∉ puts) → P.content s2 n f = none := by
    intro n hn f hf
    rw [g4 n f hf, h3]
    exact P.none_of s _ _ (by rw [← P.dir_eq]; exact hd _ hn)
  refine ⟨s1, s2, s2, h1, g1, hf, fun n hn => ⟨?_, ?_, ?_, ?_, ?_, ?_⟩, fun n hn => ⟨?_, ?_, ?_⟩⟩
  · rw [P.dir_eq, g2, h2]; simp [hn]
  · intro f b hb
    rw [← g3 n f b hb]
    exact P.ans s2 n f
  · intro f k hk _ hno
    rw [← old n hn f (fun b hb => hno f b hb hk)]
    exact P.ans s2 n f
  · rw [(P.ans s2 n _).ex, old n hn]
    · rfl
    · intro b hb
      obtain ⟨k, h1, h2⟩ := ha.known _ hb
      have : FileName.kind FileName.rollup = .ok FileKind.rollup := by decide
      rw [this] at h1
      exact h2 (by cases h1; rfl)
  · intro hno
    rw [P.parent_eq, old n hn _ hno, g2, h2]
    simp [hn, defaultLayerParent, Out.bind]
  · intro b p hb hp
    rw [P.parent_eq, g3 n _ b hb, g2, h2]
    simp [hn, defaultLayerParent, Out.bind, ArchiveHeader.orErr, hp]
  · rw [P.dir_eq, P.dir_eq, g2, h2]; simp [hn]
  · have : ∀ f, P.content s2 n f = P.content s n f := fun f => by
      rw [g4 n f (fun b hb => hn (ha.into _ hb)), h3]
    exact P.answers_eq s s2 n this
  · rw [P.parent_eq, P.parent_eq, g2, h2, g4 n _ (fun b hb => hn (ha.into _ hb)), h3]
    simp [hn]

end Plain

end Backend

end Verif
