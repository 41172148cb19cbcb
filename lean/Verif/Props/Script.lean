import Verif.Lemmas.WorldMore

/-!
Scripts: sequences of commands that are carried out one after the other on the model of
the store. They are used to show concrete executions.
-/

set_option linter.unusedSectionVars false

namespace Verif

open SimpleBuilder Spec

variable {K V : Type} [LinearOrder K] [LinearOrder V]

/-- A command of a script. `new` is the name of the layer it makes. -/
inductive Cmd (K V : Type) where
  | base (new : Name) (ops : List (Op K V))
  | child (p new : Name) (ops : List (Op K V))
  | load (n : Name)
  /-- Cache the loaded layer at this place of the list. -/
  | cache (i : Nat)
  | dropAll
  | rollup (n new : Name)
  | rollupUpto (n upto new : Name)
  | impreciseRollupUpto (n upto new : Name)
  | squash (n new : Name)
  | squashUpto (n upto new : Name)
  | merge (ns : List Name) (new : Name)

/-- A test of `IdsKnown`. -/
def Op.known (S : List (LayerData K V)) : Op K V → Bool
  | .addValue _ | .removeValue _ => true
  | .addId t | .removeId t =>
    decide (t.s ≤ Stack.nvCount S ∧ t.p ≤ Stack.pCount S ∧ t.o ≤ Stack.nvCount S)

theorem Op.known_sound {S : List (LayerData K V)} {op : Op K V} (h : Op.known S op = true) :
    IdsKnown S op := by
  cases op <;> simp_all [Op.known, IdsKnown]

namespace World

open Store

/-- The layer last returned for a name. -/
def lookup (n : Name) : List (Name × InternalLayer K V) → Option (InternalLayer K V)
  | [] => none
  | (m, l) :: rest => if m = n then some l else lookup n rest

theorem lookup_mem {n : Name} {l : InternalLayer K V} :
    ∀ {q : List (Name × InternalLayer K V)}, lookup n q = some l → (n, l) ∈ q
  | [], h => by cases h
  | (m, x) :: rest, h => by
    unfold lookup at h
    split at h
    · rename_i hm
      cases h
      rw [hm]
      exact List.mem_cons_self ..
    · exact List.mem_cons_of_mem _ (lookup_mem h)

def decided (w : World K V) (t : Task) (pl : Plan K V) : World K V :=
  { w with plans := (t, pl) :: w.plans, past := w.seen }

/-- Carry out a rollup. -/
def finishRollup (w : World K V) (n new : Name) : Plan K V → Option (World K V)
  | .existing r =>
    let w1 : World K V := { w with pending := (n, r) :: w.pending, past := w.seen }
    some { w1 with store := registerRollup w1.store n r, past := w1.seen }
  | .write e =>
    if (w.store.get? new).isNone then
      let w1 : World K V := { w with store := (new, e) :: w.store
                                     past := w.seen
                                     pending := (n, new) :: w.pending
                                     log := .rollup new n e.parent :: w.log }
      some { w1 with store := registerRollup w1.store n new, past := w1.seen }
    else none

/-- A test of `SafePrecise`. -/
def safePrecise (st : Store K V) (l : InternalLayer K V) (upto : Name) : Bool :=
  match st.safeUptoBound l upto with
  | .ok bound =>
    match immediateLayersUpto l bound with
    | .ok mem => mem.all (fun e => e.pMap == e.nvMap)
    | _ => true
  | _ => true

theorem safePrecise_sound {st : Store K V} {l : InternalLayer K V} {upto : Name}
    (h : safePrecise st l upto = true) : SafePrecise st l upto := by
  intro bound mem h1 h2 e he
  simp only [safePrecise, h1, h2, List.all_eq_true, beq_iff_eq] at h
  exact h e he

/-- A test of `SafeImprecise`. -/
def safeImprecise (st : Store K V) (l : InternalLayer K V) (upto : Name) : Bool :=
  match st.safeUptoBound l upto with
  | .ok bound => bound == upto
  | _ => true

theorem safeImprecise_sound {st : Store K V} {l : InternalLayer K V} {upto : Name}
    (h : safeImprecise st l upto = true) : SafeImprecise st l upto := by
  intro bound h1
  simpa only [safeImprecise, h1, beq_iff_eq] using h

/-- A test of `Clean`. -/
def clean (d : LayerData K V) : Bool :=
  d.nvMap.isNone && d.pMap.isNone &&
    match d.pos.triples with
    | some ts => ts.all (fun t => decide (t.s ≤ d.nodes.length))
    | none => true

theorem clean_sound {d : LayerData K V} (h : clean d = true) : BaseMerge.Clean d := by
  simp only [clean, Bool.and_eq_true, Option.isNone_iff_eq_none] at h
  refine ⟨h.1.1, h.1.2, ?_⟩
  intro ts hts
  have h2 := h.2
  simp only [hts, List.all_eq_true, decide_eq_true_eq] at h2
  exact h2

/-- A test of the condition of a safe merge. -/
def cleanNames (st : Store K V) (ns : List Name) : Bool :=
  ns.all (fun n => match st.get? n with | some e => clean e.data | none => true)

theorem cleanNames_sound {st : Store K V} {ns : List Name} (h : cleanNames st ns = true) :
    ∀ n ∈ ns, ∀ e, st.get? n = some e → BaseMerge.Clean e.data := by
  intro n hn e he
  have := List.all_eq_true.1 h n hn
  simp only [he] at this
  exact clean_sound this

/-- Carry out one command. With `safe`, rollups down to an ancestor and merges that are not
safe are refused. -/
def exec (safe : Bool) (w : World K V) : Cmd K V → Option (World K V)
  | .base new ops =>
    if ops.all (Op.known []) ∧ (w.store.get? new).isNone then
      (((SimpleBuilder.new []).run ops).bind (·.commit)).map fun d =>
        { w with store := (new, { parent := none, data := d }) :: w.store
                 past := w.seen
                 log := .commit new none (ops.filterMap (opCall [])) :: w.log }
    else none
  | .child p new ops =>
    (lookup p w.held).bind fun l =>
    if ops.all (Op.known l.stack) ∧ (w.store.get? new).isNone then
      (((SimpleBuilder.new l.stack).run ops).bind (·.commit)).map fun d =>
        { w with store := (new, { parent := some p, data := d }) :: w.store
                 past := w.seen
                 log := .commit new (some p) (ops.filterMap (opCall l.stack)) :: w.log }
    else none
  | .load n =>
    match w.store.getLayer w.cache n with
    | .ok (some l, cs) =>
      some { w with held := (n, l) :: w.held, loaded := cs ++ w.loaded, past := w.seen }
    | _ => none
  | .cache i =>
    match w.loaded[i]? with
    | none => none
    | some l => some { w with cache := w.cache.insert l, past := w.seen }
  | .dropAll => some { w with cache := noCache, past := w.seen }
  | .rollup n new =>
    (lookup n w.held).bind fun l =>
    match performRollup w.store l with
    | .ok pl => (decided w (.rollup l.name) pl).finishRollup l.name new pl
    | _ => none
  | .rollupUpto n upto new =>
    (lookup n w.held).bind fun l =>
    if safe && !safePrecise w.store l upto then none else
    match performRollupUpto w.store w.cache l upto with
    | .ok pl => (decided w (.rollup l.name) pl).finishRollup l.name new pl
    | _ => none
  | .impreciseRollupUpto n upto new =>
    (lookup n w.held).bind fun l =>
    if safe && !safeImprecise w.store l upto then none else
    match performImpreciseRollupUpto w.store w.cache l upto with
    | .ok pl => (decided w (.rollup l.name) pl).finishRollup l.name new pl
    | _ => none
  | .squash n new =>
    (lookup n w.held).bind fun l =>
    match Store.squash l with
    | .ok (.write e) =>
      if (w.store.get? new).isNone then
        some { decided w (.squash l.name) (.write e) with
               store := (new, e) :: w.store
               past := (decided w (.squash l.name) (.write e)).seen
               log := .squash new l.name :: w.log }
      else none
    | _ => none
  | .squashUpto n upto new =>
    (lookup n w.held).bind fun l =>
    match w.store.squashUpto l upto with
    | .ok (.write e) =>
      if (w.store.get? new).isNone then
        some { decided w (.squashUpto l.name upto) (.write e) with
               store := (new, e) :: w.store
               past := (decided w (.squashUpto l.name upto) (.write e)).seen
               log := .squashUpto new l.name upto :: w.log }
      else none
    | _ => none
  | .merge ns new =>
    if safe && !cleanNames w.store ns then none else
    match w.store.mergeBase ns with
    | .ok (.write e) =>
      if (w.store.get? new).isNone then
        some { decided w (.merge ns) (.write e) with
               store := (new, e) :: w.store
               past := (decided w (.merge ns) (.write e)).seen
               log := .merge new ns :: w.log }
      else none
    | _ => none

theorem finishRollup_run {safe : Bool} {w w' : World K V} {n new : Name} {pl : Plan K V}
    (h : Run safe (decided w (.rollup n) pl))
    (he : (decided w (.rollup n) pl).finishRollup n new pl = some w') : Run safe w' := by
  cases pl with
  | existing r =>
    simp only [finishRollup, Option.some.injEq] at he
    subst he
    exact .step (.step h (.keep (List.mem_cons_self ..))) (.register (List.mem_cons_self ..))
  | write e =>
    dsimp only [finishRollup] at he
    split at he
    · rename_i hn
      simp only [Option.some.injEq] at he
      subst he
      exact .step (.step h (.writeRollup (List.mem_cons_self ..) (Option.isNone_iff_eq_none.1 hn)))
        (.register (List.mem_cons_self ..))
    · cases he

theorem commits_of_run {S : List (LayerData K V)} {ops : List (Op K V)} {d : LayerData K V}
    (h : ((SimpleBuilder.new S).run ops).bind (·.commit) = some d) : Commits S ops d := by
  obtain ⟨b, h1, h2⟩ := Option.bind_eq_some_iff.1 h
  exact ⟨b, b.nvMap, b.pMap, h1, List.Perm.refl _, List.Perm.refl _, h2⟩

theorem exec_run {safe : Bool} {w w' : World K V} {c : Cmd K V} (h : Run safe w)
    (he : w.exec safe c = some w') : Run safe w' := by
  cases c with
  | base new ops =>
    dsimp only [exec] at he
    split at he
    · rename_i hc
      obtain ⟨d, h1, rfl⟩ := Option.map_eq_some_iff.1 he
      exact .step h (.commitBase (Option.isNone_iff_eq_none.1 hc.2)
        (fun op ho => Op.known_sound (List.all_eq_true.1 hc.1 op ho)) (commits_of_run h1))
    · cases he
  | child p new ops =>
    obtain ⟨l, hl, he⟩ := Option.bind_eq_some_iff.1 he
    split at he
    · rename_i hc
      obtain ⟨d, h1, rfl⟩ := Option.map_eq_some_iff.1 he
      exact .step h (.commit (lookup_mem hl) (Option.isNone_iff_eq_none.1 hc.2)
        (fun op ho => Op.known_sound (List.all_eq_true.1 hc.1 op ho)) (commits_of_run h1))
    · cases he
  | load n =>
    dsimp only [exec] at he
    split at he
    · rename_i l cs hl
      cases he
      exact .step h (.load (v := fun _ => ⟨w.store, w.cache⟩) (i := fun _ => 0) (fun _ => rfl)
        (fun _ => Nat.le_refl _) hl)
    · cases he
  | cache i =>
    dsimp only [exec] at he
    split at he
    · cases he
    · rename_i l hl
      cases he
      exact .step h (.cacheLayer (List.mem_of_getElem? hl))
  | dropAll =>
    dsimp only [exec] at he
    cases he
    exact .step h (.evict (by intro n l hn; cases hn))
  | rollup n new =>
    obtain ⟨l, hl, he⟩ := Option.bind_eq_some_iff.1 he
    split at he
    · rename_i pl hp
      exact finishRollup_run (.step h (.planRollup (lookup_mem hl) hp)) he
    · cases he
  | rollupUpto n upto new =>
    obtain ⟨l, hl, he⟩ := Option.bind_eq_some_iff.1 he
    split at he
    · cases he
    · rename_i hsafe
      split at he
      · rename_i pl hp
        refine finishRollup_run (.step h (.planRollupUpto (lookup_mem hl) (fun _ _ h => h) (fun e _ _ => safePrecise_sound ?_) hp)) he
        simpa [e] using hsafe
      · cases he
  | impreciseRollupUpto n upto new =>
    obtain ⟨l, hl, he⟩ := Option.bind_eq_some_iff.1 he
    split at he
    · cases he
    · rename_i hsafe
      split at he
      · rename_i pl hp
        refine finishRollup_run (.step h (.planImpreciseRollupUpto (lookup_mem hl) (fun _ _ h => h) (fun e _ _ => safeImprecise_sound ?_) hp)) he
        simpa [e] using hsafe
      · cases he
  | squash n new =>
    obtain ⟨l, hl, he⟩ := Option.bind_eq_some_iff.1 he
    split at he
    · rename_i e hp
      split at he
      · rename_i hn
        cases he
        exact .step (.step h (.planSquash (lookup_mem hl) hp))
          (.writeSquash (List.mem_cons_self ..) (Option.isNone_iff_eq_none.1 hn))
      · cases he
    · cases he
  | squashUpto n upto new =>
    obtain ⟨l, hl, he⟩ := Option.bind_eq_some_iff.1 he
    split at he
    · rename_i e hp
      split at he
      · rename_i hn
        cases he
        exact .step (.step h (.planSquashUpto (lookup_mem hl) hp))
          (.writeSquashUpto (List.mem_cons_self ..) (Option.isNone_iff_eq_none.1 hn))
      · cases he
    · cases he
  | merge ns new =>
    dsimp only [exec] at he
    split at he
    · cases he
    · rename_i hsafe
      split at he
      · rename_i e hp
        split at he
        · rename_i hn
          cases he
          refine .step (.step h (.planMerge (fun e => cleanNames_sound ?_) hp))
            (.writeMerge (List.mem_cons_self ..) (Option.isNone_iff_eq_none.1 hn))
          simpa [e] using hsafe
        · cases he
      · cases he

/-- Carry out a script. -/
def script (safe : Bool) (w : World K V) : List (Cmd K V) → Option (World K V)
  | [] => some w
  | c :: cs => (w.exec safe c).bind (·.script safe cs)

theorem script_run {safe : Bool} : ∀ {cs : List (Cmd K V)} {w w' : World K V}, Run safe w →
    w.script safe cs = some w' → Run safe w'
  | [], w, w', h, he => by
    simp only [script, Option.some.injEq] at he
    subst he
    exact h
  | c :: cs, w, w', h, he => by
    obtain ⟨w1, h1, h2⟩ := Option.bind_eq_some_iff.1 he
    exact script_run (exec_run h h1) h2

end World

end Verif
