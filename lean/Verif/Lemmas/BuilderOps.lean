import Verif.Lemmas.Intern

/-!
The invariant of the layer builder while triples are added and removed.
-/

set_option linter.unusedSectionVars false
set_option linter.unusedVariables false

namespace Verif

open SimpleBuilder

variable {K V : Type} [LinearOrder K] [LinearOrder V]

/-- The ids a triple of entries has for the builder. -/
def RelT (S : List (LayerData K V)) (nvm : List (Obj K V × Nat)) (pm : List (K × Nat))
    (g : GTriple K V) (t : Triple) : Prop :=
  Rel (nvLevels S) nvm g.s t.s ∧ Rel (pLevels S) pm g.p t.p ∧ Rel (nvLevels S) nvm g.o t.o

/-- The id triples `ts` collected by the builder stand for the entries in `A`; id
triples with a zero are kept but stand for nothing. -/
structure OpsInv (S : List (LayerData K V)) (nvm : List (Obj K V × Nat)) (pm : List (K × Nat))
    (ts : List Triple) (A : GTriple K V → Prop) : Prop where
  complete : ∀ g, A g → ∃ t ∈ ts, RelT S nvm pm g t
  sound : ∀ t ∈ ts, (∃ g, A g ∧ RelT S nvm pm g t) ∨
    (¬ t.Nonzero ∧ t.s ≤ Stack.nvCount S ∧ t.p ≤ Stack.pCount S ∧ t.o ≤ Stack.nvCount S)

/-- The builder has been asked to add `A` and to remove `R`. -/
structure BldInv (S : List (LayerData K V)) (b : SimpleBuilder K V) (A R : GTriple K V → Prop) :
    Prop where
  parent : b.parent = S
  nv : MapInv (nvLevels S) b.nvMap b.nvMapCount
  p : MapInv (pLevels S) b.pMap b.pMapCount
  nvc : b.nvMapCount = Stack.nvCount S + b.nodeCount + b.valCount
  pc : b.pMapCount = Stack.pCount S + b.predCount
  adds : OpsInv S b.nvMap b.pMap b.adds A
  rems : OpsInv S b.nvMap b.pMap b.rems R

theorem OpsInv.mono {S : List (LayerData K V)} {nvm nvm' : List (Obj K V × Nat)}
    {pm pm' : List (K × Nat)} {ts : List Triple} {A : GTriple K V → Prop}
    (h : OpsInv S nvm pm ts A) (h1 : ∀ q ∈ nvm, q ∈ nvm') (h2 : ∀ q ∈ pm, q ∈ pm') :
    OpsInv S nvm' pm' ts A where
  complete := by
    intro g hg
    obtain ⟨t, ht, r1, r2, r3⟩ := h.complete g hg
    exact ⟨t, ht, r1.mono h1, r2.mono h2, r3.mono h1⟩
  sound := by
    intro t ht
    rcases h.sound t ht with ⟨g, hg, r1, r2, r3⟩ | h
    · exact Or.inl ⟨g, hg, r1.mono h1, r2.mono h2, r3.mono h1⟩
    · exact Or.inr h

/-- Widening what has been asked for by one triple. -/
theorem OpsInv.push {S : List (LayerData K V)} {nvm : List (Obj K V × Nat)}
    {pm : List (K × Nat)} {ts : List Triple} {A : GTriple K V → Prop} {t : Triple}
    (h : OpsInv S nvm pm ts A) {g : GTriple K V} (hr : RelT S nvm pm g t) :
    OpsInv S nvm pm (ts ++ [t]) (fun g' => A g' ∨ g' = g) where
  complete := by
    rintro g' (hg | rfl)
    · obtain ⟨u, hu, r⟩ := h.complete g' hg
      exact ⟨u, by simp [hu], r⟩
    · exact ⟨t, by simp, hr⟩
  sound := by
    intro u hu
    rcases List.mem_append.1 hu with hu | hu
    · rcases h.sound u hu with ⟨g', hg, r⟩ | h
      · exact Or.inl ⟨g', Or.inl hg, r⟩
      · exact Or.inr h
    · rw [List.mem_singleton] at hu
      subst hu
      exact Or.inl ⟨g, Or.inr rfl, hr⟩

theorem OpsInv.pushZero {S : List (LayerData K V)} {nvm : List (Obj K V × Nat)}
    {pm : List (K × Nat)} {ts : List Triple} {A : GTriple K V → Prop} {t : Triple}
    (h : OpsInv S nvm pm ts A) (hz : ¬ t.Nonzero) (hr : t.s ≤ Stack.nvCount S ∧
      t.p ≤ Stack.pCount S ∧ t.o ≤ Stack.nvCount S) :
    OpsInv S nvm pm (ts ++ [t]) A where
  complete := by
    intro g hg
    obtain ⟨u, hu, r⟩ := h.complete g hg
    exact ⟨u, by simp [hu], r⟩
  sound := by
    intro u hu
    rcases List.mem_append.1 hu with hu | hu
    · exact h.sound u hu
    · rw [List.mem_singleton] at hu
      subst hu
      exact Or.inr ⟨hz, hr⟩

theorem OpsInv.congr {S : List (LayerData K V)} {nvm : List (Obj K V × Nat)}
    {pm : List (K × Nat)} {ts : List Triple} {A B : GTriple K V → Prop}
    (h : OpsInv S nvm pm ts A) (hab : ∀ g, A g ↔ B g) : OpsInv S nvm pm ts B where
  complete := fun g hg => h.complete g ((hab g).2 hg)
  sound := by
    intro t ht
    rcases h.sound t ht with ⟨g, hg, r⟩ | h
    · exact Or.inl ⟨g, (hab g).1 hg, r⟩
    · exact Or.inr h

theorem BldInv.new {S : List (LayerData K V)} {Ps Ns : List (List Triple)} (h : StackOk S Ps Ns) :
    BldInv S (SimpleBuilder.new S) (fun _ => False) (fun _ => False) where
  parent := rfl
  nv := by
    have := MapInv.init h.nv
    rw [← h.nvCount] at this
    exact this
  p := by
    have := MapInv.init h.pr
    rw [← h.pCount] at this
    exact this
  nvc := rfl
  pc := rfl
  adds := ⟨by simp, by simp [SimpleBuilder.new]⟩
  rems := ⟨by simp, by simp [SimpleBuilder.new]⟩

/-- Interning keeps the invariant and yields the id of the entry. -/
theorem BldInv.internNV {S : List (LayerData K V)} {b : SimpleBuilder K V}
    {A R : GTriple K V → Prop} (hc : CountsOk S) (h : BldInv S b A R) (o : Obj K V) :
    ∃ i b', b.internNV o = some (i, b') ∧ BldInv S b' A R ∧ Rel (nvLevels S) b'.nvMap o i ∧
      (∀ q ∈ b.nvMap, q ∈ b'.nvMap) ∧ b'.pMap = b.pMap := by
  unfold SimpleBuilder.internNV
  cases ha : assocGet b.nvMap o with
  | some n => exact ⟨n, b, rfl, h, Or.inl (assocGet_some ha), fun q hq => hq, rfl⟩
  | none =>
    simp only [h.parent, objectId_eq hc]
    rcases lvId_total h.nv.ok o with ⟨i, h1, _⟩ | ⟨h1, _⟩
    · simp only [h1, Option.bind_eq_bind, Option.bind_some]
      refine ⟨i, _, rfl, ?_, Or.inl (by simp), by simp +contextual, rfl⟩
      exact ⟨rfl, h.nv.known ha h1, h.p, h.nvc, h.pc, h.adds.mono (by simp +contextual) (by simp),
        h.rems.mono (by simp +contextual) (by simp)⟩
    · simp only [h1, Option.bind_eq_bind, Option.bind_some]
      refine ⟨_, _, rfl, ?_, Or.inl (by simp), by simp +contextual, rfl⟩
      refine ⟨h.parent, h.nv.fresh ha h1, h.p, ?_, h.pc,
        h.adds.mono (by simp +contextual) (by simp),
        h.rems.mono (by simp +contextual) (by simp)⟩
      have := h.nvc
      cases o <;> simp only [] <;> omega

theorem BldInv.internP {S : List (LayerData K V)} {b : SimpleBuilder K V}
    {A R : GTriple K V → Prop} (hc : CountsOk S) (h : BldInv S b A R) (p : K) :
    ∃ i b', b.internP p = some (i, b') ∧ BldInv S b' A R ∧ Rel (pLevels S) b'.pMap p i ∧
      (∀ q ∈ b.pMap, q ∈ b'.pMap) ∧ b'.nvMap = b.nvMap := by
  unfold SimpleBuilder.internP
  cases ha : assocGet b.pMap p with
  | some n => exact ⟨n, b, rfl, h, Or.inl (assocGet_some ha), fun q hq => hq, rfl⟩
  | none =>
    simp only [h.parent, predId_eq hc]
    rcases lvId_total h.p.ok p with ⟨i, h1, _⟩ | ⟨h1, _⟩
    · simp only [h1, Option.bind_eq_bind, Option.bind_some]
      refine ⟨i, _, rfl, ?_, Or.inl (by simp), by simp +contextual, rfl⟩
      exact ⟨rfl, h.nv, h.p.known ha h1, h.nvc, h.pc, h.adds.mono (by simp) (by simp +contextual),
        h.rems.mono (by simp) (by simp +contextual)⟩
    · simp only [h1, Option.bind_eq_bind, Option.bind_some]
      refine ⟨_, _, rfl, ?_, Or.inl (by simp), by simp +contextual, rfl⟩
      refine ⟨rfl, h.nv, h.p.fresh ha h1, h.nvc, ?_,
        h.adds.mono (by simp) (by simp +contextual),
        h.rems.mono (by simp) (by simp +contextual)⟩
      have := h.pc
      simp only
      omega

theorem BldInv.calculateTriple {S : List (LayerData K V)} {b : SimpleBuilder K V}
    {A R : GTriple K V → Prop} (hc : CountsOk S) (h : BldInv S b A R) (t : VTriple K V) :
    ∃ u b', b.calculateTriple t = some (u, b') ∧ BldInv S b' A R ∧
      RelT S b'.nvMap b'.pMap t.toG u := by
  obtain ⟨i, b1, e1, g1, r1, m1, q1⟩ := h.internNV hc (.node t.s)
  obtain ⟨j, b2, e2, g2, r2, m2, q2⟩ := g1.internP hc t.p
  obtain ⟨k, b3, e3, g3, r3, m3, q3⟩ := g2.internNV hc t.o
  refine ⟨⟨i, j, k⟩, b3, ?_, g3, ?_, ?_, r3⟩
  · unfold SimpleBuilder.calculateTriple
    simp only [e1, e2, e3, Option.bind_eq_bind, Option.bind_some]
    rfl
  · refine r1.mono ?_
    intro q hq
    rw [← q2] at hq
    exact m3 q hq
  · refine r2.mono ?_
    intro q hq
    rw [q3]; exact hq

/-- The triples of entries that a call adds. -/
def Op.adds (S : List (LayerData K V)) (op : Op K V) (g : GTriple K V) : Prop :=
  match op with
  | .addValue t => g = t.toG
  | .addId t => Res S g t
  | _ => False

/-- The triples of entries that a call removes. -/
def Op.removes (S : List (LayerData K V)) (op : Op K V) (g : GTriple K V) : Prop :=
  match op with
  | .removeValue t => g = t.toG
  | .removeId t => Res S g t
  | _ => False

/-- Id triples given to the builder use ids of the parent (or zero). -/
def Op.Valid (S : List (LayerData K V)) (op : Op K V) : Prop :=
  match op with
  | .addId t | .removeId t =>
    t.s ≤ Stack.nvCount S ∧ t.p ≤ Stack.pCount S ∧ t.o ≤ Stack.nvCount S
  | _ => True

theorem RelT.of_res {S : List (LayerData K V)} {nvm : List (Obj K V × Nat)} {pm : List (K × Nat)}
    (hc : CountsOk S) {g : GTriple K V} {t : Triple} (h : Res S g t) : RelT S nvm pm g t := by
  obtain ⟨h1, h2, h3⟩ := h
  rw [objectId_eq hc] at h1 h3
  rw [predId_eq hc] at h2
  exact ⟨Or.inr h1, Or.inr h2, Or.inr h3⟩

theorem OpsInv.pushId {S : List (LayerData K V)} {Ps Ns : List (List Triple)}
    (hS : StackOk S Ps Ns) {nvm : List (Obj K V × Nat)}
    {pm : List (K × Nat)} {ts : List Triple} {A : GTriple K V → Prop} {t : Triple}
    (h : OpsInv S nvm pm ts A) (hr : t.s ≤ Stack.nvCount S ∧
      t.p ≤ Stack.pCount S ∧ t.o ≤ Stack.nvCount S) :
    OpsInv S nvm pm (ts ++ [t]) (fun g => A g ∨ Res S g t) := by
  by_cases hz : t.Nonzero
  · obtain ⟨g, hg⟩ := Res.exists hS hz hr.1 hr.2.1 hr.2.2
    refine (h.push (RelT.of_res hS.counts hg)).congr ?_
    intro g'
    constructor
    · rintro (h | rfl)
      · exact Or.inl h
      · exact Or.inr hg
    · rintro (h | h)
      · exact Or.inl h
      · exact Or.inr (Res.inj hS h hg)
  · refine (h.pushZero hz hr).congr ?_
    intro g'
    constructor
    · exact Or.inl
    · rintro (h | h)
      · exact h
      · exact absurd (Res.range hS h).1 hz

theorem OpsInv.false {S : List (LayerData K V)} {nvm : List (Obj K V × Nat)}
    {pm : List (K × Nat)} {ts : List Triple} {A : GTriple K V → Prop}
    (h : OpsInv S nvm pm ts A) : OpsInv S nvm pm ts (fun g => A g ∨ False) :=
  h.congr (by simp)

theorem BldInv.step {S : List (LayerData K V)} {Ps Ns : List (List Triple)} {b : SimpleBuilder K V}
    {A R : GTriple K V → Prop} (hS : StackOk S Ps Ns) (h : BldInv S b A R) (op : Op K V)
    (hv : Op.Valid S op) :
    ∃ b', b.step op = some b' ∧
      BldInv S b' (fun g => A g ∨ Op.adds S op g) (fun g => R g ∨ Op.removes S op g) := by
  cases op with
  | addValue t =>
    obtain ⟨u, b', e, g, r⟩ := h.calculateTriple hS.counts t
    refine ⟨{ b' with adds := b'.adds ++ [u] }, ?_, ?_⟩
    · simp only [SimpleBuilder.step, SimpleBuilder.addValueTriple, e, Option.bind_eq_bind,
        Option.bind_some]; rfl
    · exact ⟨g.parent, g.nv, g.p, g.nvc, g.pc, g.adds.push r, g.rems.false⟩
  | addId t =>
    exact ⟨_, rfl, h.parent, h.nv, h.p, h.nvc, h.pc, h.adds.pushId hS hv, h.rems.false⟩
  | removeValue t =>
    obtain ⟨u, b', e, g, r⟩ := h.calculateTriple hS.counts t
    refine ⟨{ b' with rems := b'.rems ++ [u] }, ?_, ?_⟩
    · simp only [SimpleBuilder.step, SimpleBuilder.removeValueTriple, e, Option.bind_eq_bind,
        Option.bind_some]; rfl
    · exact ⟨g.parent, g.nv, g.p, g.nvc, g.pc, g.adds.false, g.rems.push r⟩
  | removeId t =>
    exact ⟨_, rfl, h.parent, h.nv, h.p, h.nvc, h.pc, h.adds.false, h.rems.pushId hS hv⟩

theorem BldInv.congr {S : List (LayerData K V)} {b : SimpleBuilder K V}
    {A R A' R' : GTriple K V → Prop} (h : BldInv S b A R) (ha : ∀ g, A g ↔ A' g)
    (hr : ∀ g, R g ↔ R' g) : BldInv S b A' R' :=
  ⟨h.parent, h.nv, h.p, h.nvc, h.pc, h.adds.congr ha, h.rems.congr hr⟩

theorem BldInv.run {S : List (LayerData K V)} {Ps Ns : List (List Triple)} (hS : StackOk S Ps Ns) :
    ∀ {ops : List (Op K V)} {b : SimpleBuilder K V} {A R : GTriple K V → Prop},
    BldInv S b A R → (∀ op ∈ ops, Op.Valid S op) →
    ∃ b', b.run ops = some b' ∧
      BldInv S b' (fun g => A g ∨ ∃ op ∈ ops, Op.adds S op g)
        (fun g => R g ∨ ∃ op ∈ ops, Op.removes S op g)
  | [], b, A, R, h, _ => ⟨b, rfl, h.congr (by simp) (by simp)⟩
  | op :: ops, b, A, R, h, hv => by
    obtain ⟨b1, e1, g1⟩ := h.step hS op (hv op (by simp))
    obtain ⟨b2, e2, g2⟩ := BldInv.run hS (ops := ops) g1 (fun o ho => hv o (by simp [ho]))
    refine ⟨b2, ?_, g2.congr ?_ ?_⟩
    · unfold SimpleBuilder.run
      simp only [e1, Option.bind_eq_bind, Option.bind_some, e2]
    · intro g; simp [or_assoc]
    · intro g; simp [or_assoc]

end Verif
