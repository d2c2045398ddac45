import Verif.Spec.Lifetime
import Verif.Lemmas.History

/-!
# Code that does not look at certain objects
-/

set_option linter.unusedSectionVars false

namespace Factorama.Life
open Spec Graph Opt
variable {F V Fact : Type} [Zero F] [VarLike F V]

/-- `m` commutes with the change `φ` of the state, in states with `I`, which it preserves. -/
def Blind {S α : Type} (φ : S → S) (I : S → Prop) (m : SE S α) : Prop :=
  ∀ s, I s → m (φ s) = (φ (m s).1, (m s).2) ∧ I (m s).1

section
variable {S α β : Type} {φ : S → S} {I : S → Prop}

theorem Blind.ret (a : α) : Blind φ I (SE.ret a) := fun _ h => ⟨rfl, h⟩
theorem Blind.throw : Blind φ I (SE.throw : SE S α) := fun _ h => ⟨rfl, h⟩
theorem Blind.undefined : Blind φ I (SE.undefined : SE S α) := fun _ h => ⟨rfl, h⟩
theorem Blind.lift (r : Res α) : Blind φ I (SE.lift r) := fun _ h => ⟨rfl, h⟩

theorem Blind.bind {m : SE S α} {k : α → SE S β} (hm : Blind φ I m) (hk : ∀ a, Blind φ I (k a)) : Blind φ I (SE.bind m k) := by
  intro s hs
  obtain ⟨e, h1⟩ := hm s hs
  unfold SE.bind
  rw [e]
  rcases h : m s with ⟨t, r⟩
  rw [h] at h1
  cases r with
  | ok a => exact hk a t h1
  | threw => exact ⟨rfl, h1⟩
  | ub => exact ⟨rfl, h1⟩

theorem Blind.get {k : S → SE S β} (h1 : ∀ s, I s → k (φ s) = k s) (h2 : ∀ s, I s → Blind φ I (k s)) :
    Blind φ I (SE.bind SE.get k) := by
  intro s hs
  have : SE.bind SE.get k (φ s) = k s (φ s) := by
    show k (φ s) (φ s) = k s (φ s)
    rw [h1 s hs]
  rw [this]
  exact h2 s hs s hs

theorem Blind.modify {f : S → S} (h1 : ∀ s, I s → f (φ s) = φ (f s)) (h2 : ∀ s, I s → I (f s)) : Blind φ I (SE.modify f) :=
  fun s hs => ⟨by show (f (φ s), _) = _; rw [h1 s hs]; rfl, h2 s hs⟩

theorem Blind.forEach {l : List β} {body : β → SE S Unit} (h : ∀ b ∈ l, Blind φ I (body b)) : Blind φ I (SE.forEach l body) := by
  induction l with
  | nil => exact .ret ()
  | cons b l ih => exact (h b (List.mem_cons_self ..)).bind fun _ => ih fun c hc => h c (List.mem_cons_of_mem _ hc)
end

section
variable (D : VRef → Bool) (junk : VRef → V)

/-- The objects in `D` replaced. -/
def mask (h : Heap V) : Heap V := fun r => if D r then junk r else h r

/-- The graph uses none of the objects in `D`, and its factors have the property `P`. -/
structure Clear (P : Factor F V → Prop) (g : Graph F V) : Prop where
  vars : ∀ r ∈ g.varsVec, D r = false
  facs : ∀ f ∈ g.facs, (∀ r, some r ∈ f.variables → D r = false) ∧ LooksAtOwn f ∧ P f
  placed : ∀ it ∈ g.facPl, (∀ r, some r ∈ it.2.factor.variables → D r = false) ∧ LooksAtOwn it.2.factor ∧ P it.2.factor

variable {D junk} {P : Factor F V → Prop}

theorem mask_eq {h : Heap V} {r : VRef} (hr : D r = false) : mask D junk h r = h r := by simp [mask, hr]

theorem mask_set {h : Heap V} {r : VRef} (hr : D r = false) (v : V) : (mask D junk h).set r v = mask D junk (h.set r v) := by
  funext r'
  by_cases e : r' = r
  · subst e; simp [mask, Heap.set, hr]
  · simp [mask, Heap.set, e]

/-! ### Functions of the graph -/

theorem residualOne_mask {h : Heap V} {it : Nat × FacPlacement F V}
    (hit : (∀ r, some r ∈ it.2.factor.variables → D r = false) ∧ LooksAtOwn it.2.factor ∧ P it.2.factor) :
    residualOne (mask D junk h) it = residualOne h it := by
  funext buf
  have := (hit.2.1 h (mask D junk h) fun r hr => mask_eq (hit.1 r hr)).1
  simp only [residualOne, this]

theorem forEach_congr {S β : Type} {l : List β} {b b' : β → SE S Unit} (h : ∀ x ∈ l, b x = b' x) :
    SE.forEach l b = SE.forEach l b' := by
  induction l with
  | nil => rfl
  | cons x l ih =>
    unfold SE.forEach
    rw [h x (List.mem_cons_self ..), ih fun y hy => h y (List.mem_cons_of_mem _ hy)]

theorem computeResidualInto_mask {env : Env F V} {g : Graph F V} (hg : Clear D P g) {h : Heap V} :
    computeResidualInto env g (mask D junk h) = computeResidualInto env g h := by
  unfold computeResidualInto
  rw [forEach_congr fun it hit => residualOne_mask (hg.placed it ((env.order_perm _).mem_iff.1 hit))]

theorem computeResidual_mask {env : Env F V} {g : Graph F V} (hg : Clear D P g) {h : Heap V} :
    computeResidual env (mask D junk h) g = computeResidual env h g := by
  simp only [computeResidual, computeResidualInto_mask hg]

theorem denseVars_mask {g : Graph F V} {h : Heap V} {fp : FacPlacement F V} {vs : List (Option VRef)}
    (hv : ∀ r, some r ∈ vs → D r = false) : ∀ js, denseVars g (mask D junk h) fp vs js = denseVars g h fp vs js := by
  induction vs with
  | nil => intro js; rfl
  | cons v vs ih =>
    intro js
    have ih := ih fun r hr => hv r (List.mem_cons_of_mem _ hr)
    cases js with
    | nil => cases v <;> rfl
    | cons J js =>
      cases v with
      | none => rfl
      | some r =>
        have e := mask_eq (junk := junk) (h := h) (hv r (List.mem_cons_self ..))
        simp only [denseVars, e, ih]

theorem computeDense_mask {env : Env F V} {g : Graph F V} (hg : Clear D P g) {h : Heap V} :
    computeDense env (mask D junk h) g = computeDense env h g := by
  have : SE.forEach (env.order g.facPl) (denseOne g (mask D junk h)) = SE.forEach (env.order g.facPl) (denseOne g h) := by
    refine forEach_congr fun it hit => ?_
    have hp := hg.placed it ((env.order_perm _).mem_iff.1 hit)
    have e := (hp.2.1 h (mask D junk h) fun r hr => mask_eq (hp.1 r hr)).2 []
    unfold denseOne
    rw [e]
    congr 1
    funext js
    exact denseVars_mask hp.1 js
  simp only [computeDense, this]

theorem placeVariables_mask {h : Heap V} {rs : List VRef} (hr : ∀ r ∈ rs, D r = false) : ∀ off m,
    placeVariables (mask D junk h) rs off m = placeVariables h rs off m := by
  induction rs with
  | nil => intro _ _; rfl
  | cons r rs ih =>
    intro off m
    have e := mask_eq (junk := junk) (h := h) (hr r (List.mem_cons_self ..))
    simp only [placeVariables, e, ih fun r' h' => hr r' (List.mem_cons_of_mem _ h')]

theorem factorColumns_mask {h : Heap V} {pl : Int → Option VarPlacement} {vs : List (Option VRef)}
    (hv : ∀ r, some r ∈ vs → D r = false) : factorColumns (mask D junk h) pl vs = factorColumns h pl vs := by
  induction vs with
  | nil => rfl
  | cons v vs ih =>
    have ih := ih fun r hr => hv r (List.mem_cons_of_mem _ hr)
    cases v with
    | none => rfl
    | some r =>
      have e := mask_eq (junk := junk) (h := h) (hv r (List.mem_cons_self ..))
      simp only [factorColumns, e, ih]

theorem placeFactors_mask {h : Heap V} {pl : Int → Option VarPlacement} {fs : List (Factor F V)}
    (hf : ∀ f ∈ fs, ∀ r, some r ∈ f.variables → D r = false) : ∀ i off,
    placeFactors (mask D junk h) pl fs i off = placeFactors h pl fs i off := by
  induction fs with
  | nil => intro _ _; rfl
  | cons f fs ih =>
    intro i off
    have ih := ih fun f' h' => hf f' (List.mem_cons_of_mem _ h')
    simp only [placeFactors, factorColumns_mask (junk := junk) (h := h) (pl := pl) (hf f (List.mem_cons_self ..)), ih]

theorem countVars_mask {h : Heap V} {pl : Int → Option VarPlacement} {n : Nat} {vs : List (Option VRef)}
    (hv : ∀ r, some r ∈ vs → D r = false) : ∀ counts, countVars (mask D junk h) pl n vs counts = countVars h pl n vs counts := by
  induction vs with
  | nil => intro _; rfl
  | cons v vs ih =>
    intro counts
    have ih := ih fun r hr => hv r (List.mem_cons_of_mem _ hr)
    cases v with
    | none => rfl
    | some r =>
      have e := mask_eq (junk := junk) (h := h) (hv r (List.mem_cons_self ..))
      simp only [countVars, e, ih]

theorem countRows_mask {h : Heap V} {pl : Int → Option VarPlacement} {fps : List (Nat × FacPlacement F V)}
    (hf : ∀ it ∈ fps, ∀ r, some r ∈ it.2.factor.variables → D r = false) : ∀ counts,
    countRows (mask D junk h) pl fps counts = countRows h pl fps counts := by
  induction fps with
  | nil => intro _; rfl
  | cons it fps ih =>
    intro counts
    obtain ⟨i, fp⟩ := it
    have ih := ih fun f' h' => hf f' (List.mem_cons_of_mem _ h')
    have e := countVars_mask (junk := junk) (h := h) (pl := pl) (n := fp.residualDim) (hf (i, fp) (List.mem_cons_self ..)) counts
    simp only [countRows, e, ih]

/-- The factors placed come from the list. -/
theorem placeFactors_from {h : Heap V} {pl : Int → Option VarPlacement} {P : Factor F V → Prop} {fs : List (Factor F V)}
    (hf : ∀ f ∈ fs, P f) : ∀ i off m, (∀ it ∈ m, P it.2.factor) → ∀ it ∈ (placeFactors h pl fs i off m).1, P it.2.factor := by
  induction fs with
  | nil => intro _ _ m hm; exact hm
  | cons f fs ih =>
    intro i off m hm
    have ih := ih fun f' h' => hf f' (List.mem_cons_of_mem _ h')
    unfold placeFactors SE.bind SE.lift SE.modify
    cases factorColumns h pl f.variables with
    | threw => exact hm
    | ub => exact hm
    | ok cd =>
      refine ih _ _ _ fun it hit => ?_
      rcases List.mem_append.1 hit with h | h
      · exact hm it h
      · obtain rfl := List.mem_singleton.1 h
        exact hf f (List.mem_cons_self ..)

theorem finalize_mask {g : Graph F V} (hg : Clear D P g) {h : Heap V} :
    finalizeStructure (mask D junk h) g = finalizeStructure h g := by
  have e1 := placeVariables_mask (junk := junk) (h := h) hg.vars 0 (fun _ => none)
  have e2 := fun pl => placeFactors_mask (junk := junk) (h := h) (pl := pl) (fun f hf => (hg.facs f hf).1) 0 0
  have e3 : ∀ pl counts, countRows (mask D junk h) pl (placeFactors h pl g.facs 0 0 []).1 counts =
      countRows h pl (placeFactors h pl g.facs 0 0 []).1 counts := fun pl counts =>
    countRows_mask (placeFactors_from (P := fun f => ∀ r, some r ∈ f.variables → D r = false)
      (fun f hf => (hg.facs f hf).1) 0 0 [] (by simp)) counts
  unfold finalizeStructure
  rw [e1]
  dsimp only
  rw [e2]
  have e4 := e3 (placeVariables h g.varsVec 0 fun _ => none).1
  rcases e : placeFactors h (placeVariables h g.varsVec 0 fun _ => none).1 g.facs 0 0 [] with ⟨fpl, r⟩
  rw [e] at e4
  cases r with
  | threw => rfl
  | ub => rfl
  | ok n =>
    dsimp only at e4 ⊢
    rw [e4]

theorem finalize_clear {g : Graph F V} (hg : Clear D P g) (h : Heap V) : Clear D P (finalizeStructure h g).1 := by
  have hp := placeFactors_from (h := h) (pl := (placeVariables h g.varsVec 0 fun _ => none).1)
    (P := fun f => (∀ r, some r ∈ f.variables → D r = false) ∧ LooksAtOwn f ∧ P f) hg.facs 0 0 [] (by simp)
  unfold finalizeStructure
  dsimp only
  rcases e : placeFactors h (placeVariables h g.varsVec 0 fun _ => none).1 g.facs 0 0 [] with ⟨fpl, r⟩
  rw [e] at hp
  cases r with
  | threw => exact ⟨hg.vars, hg.facs, hp⟩
  | ub => exact ⟨hg.vars, hg.facs, hp⟩
  | ok n =>
    dsimp only
    split
    · exact ⟨hg.vars, hg.facs, hp⟩
    split
    · exact ⟨hg.vars, hg.facs, hp⟩
    · exact ⟨hg.vars, hg.facs, hp⟩
    split
    · exact ⟨hg.vars, hg.facs, hp⟩
    · exact ⟨hg.vars, hg.facs, hp⟩
    · exact ⟨hg.vars, hg.facs, hp⟩


theorem Clear.kept {g g' : Graph F V} (hg : Clear D P g) (hk : Kept g g') : Clear D P g' :=
  ⟨by rw [hk.varsVec]; exact hg.vars, by rw [hk.facs]; exact hg.facs, by rw [hk.facPl]; exact hg.placed⟩

theorem sparseVars_mask {h : Heap V} {vs : List (Option VRef)} (hv : ∀ r, some r ∈ vs → D r = false) : ∀ js,
    (sparseVars (mask D junk h) vs js : SE (SparseWork F V) Unit) = sparseVars h vs js := by
  induction vs with
  | nil => intro _; rfl
  | cons v vs ih =>
    intro js
    have ih := ih fun r hr => hv r (List.mem_cons_of_mem _ hr)
    cases js with
    | nil => cases v <;> rfl
    | cons J js =>
      cases v with
      | none => rfl
      | some r =>
        have e := mask_eq (junk := junk) (h := h) (hv r (List.mem_cons_self ..))
        simp only [sparseVars, e, ih]

omit [Zero F] [VarLike F V] in
theorem mem_of_lookup {β : Type} {l : List (Nat × β)} {i : Nat} {b : β} (h : l.lookup i = some b) : (i, b) ∈ l := by
  induction l with
  | nil => simp at h
  | cons x l ih =>
    rw [List.lookup_cons] at h
    split at h
    · rename_i e
      injection h with h
      have : i = x.1 := by simpa using e
      rw [this, ← h]
      exact List.mem_cons_self ..
    · exact List.mem_cons_of_mem _ (ih h)

theorem sparseOne_mask {h : Heap V} {s : SparseWork F V} (hs : Clear D P s.g) (i : Nat) :
    sparseOne (mask D junk h) i s = sparseOne h i s := by
  simp only [sparseOne, SE.bind_get]
  cases hl : s.g.facPl.lookup i with
  | none => rfl
  | some fp =>
    cases hb : s.g.sparseComps[i]? with
    | none => rfl
    | some buf =>
      have hp := hs.placed (i, fp) (mem_of_lookup hl)
      have e := (hp.2.1 h (mask D junk h) fun r hr => mask_eq (hp.1 r hr)).2 buf
      dsimp only at e hp ⊢
      rw [e]
      cases fp.factor.computeJacobians h buf with
      | threw => rfl
      | ub => rfl
      | ok js => simp only [sparseVars_mask hp.1]

theorem sparseLoop_mask {h : Heap V} : ∀ (is : List Nat) (s : SparseWork F V), Clear D P s.g →
    SE.forEach is (sparseOne (mask D junk h)) s = SE.forEach is (sparseOne h) s := by
  intro is
  induction is with
  | nil => intro _ _; rfl
  | cons i is ih =>
    intro s hs
    rw [SE.forEach_cons, SE.forEach_cons]
    unfold SE.bind
    rw [sparseOne_mask hs]
    obtain ⟨c, d, h1⟩ := sparseOne_scratch h i s
    rcases e : sparseOne h i s with ⟨s', r⟩
    rw [e] at h1
    cases r with
    | ok _ => exact ih s' (by simp only at h1; rw [h1]; exact ⟨hs.vars, hs.facs, hs.placed⟩)
    | threw => rfl
    | ub => rfl

theorem computeSparse_mask {g : Graph F V} (hg : Clear D P g) {h : Heap V} :
    computeSparse (mask D junk h) g = computeSparse h g := by
  simp only [computeSparse, sparseLoop_mask (junk := junk) (h := h) (List.range g.facs.length) ⟨g, List.replicate g.numValues 0⟩ hg]

theorem computeDenseAndResidual_mask {env : Env F V} {g : Graph F V} (hg : Clear D P g) {h : Heap V} :
    computeDenseAndResidual env (mask D junk h) g = computeDenseAndResidual env h g := by
  unfold computeDenseAndResidual SE.bind
  rw [computeDense_mask hg]
  have hk := computeDense_kept env h g
  rcases e : computeDense env h g with ⟨g', r⟩
  rw [e] at hk
  cases r with
  | ok _ => dsimp only; rw [computeResidual_mask (hg.kept hk)]
  | threw => rfl
  | ub => rfl

/-! ### Functions that change variables -/

/-- Code on the variables that does not look at `D`. -/
abbrev HBlind {α : Type} (D : VRef → Bool) (junk : VRef → V) (m : SE (Heap V) α) : Prop := Blind (mask D junk) (fun _ => True) m

theorem mutate_blind {r : VRef} (hr : D r = false) (f : V → Res V) : HBlind D junk (mutate r f) := by
  intro h _
  refine ⟨?_, trivial⟩
  unfold mutate
  rw [mask_eq hr]
  cases f (h r) with
  | ok v => dsimp only; rw [mask_set hr]
  | threw => rfl
  | ub => rfl

theorem setVectorLoop_blind (x : List F) {rs : List VRef} (hr : ∀ r ∈ rs, D r = false) : ∀ off,
    HBlind D junk (setVectorLoop x rs off) := by
  induction rs with
  | nil => intro _; exact .ret ()
  | cons r rs ih =>
    intro off
    have ih := ih fun r' h' => hr r' (List.mem_cons_of_mem _ h')
    have hr := hr r (List.mem_cons_self ..)
    refine .get (fun h _ => by simp only [mask_eq hr]) fun h _ => ?_
    split
    · exact ih _
    · refine (Blind.lift _).bind fun seg => (mutate_blind hr _).bind fun _ => ?_
      exact .get (fun h _ => by simp only [mask_eq hr]) fun h _ => ih _

theorem applyIncrementOne_blind {g : Graph F V} {dx : List F} {r : VRef} (hr : D r = false) :
    HBlind D junk (applyIncrementOne g dx r) := by
  refine .get (fun h _ => by simp only [mask_eq hr]) fun h _ => ?_
  split
  · exact .ret ()
  · split
    · exact .ret ()
    · split
      · exact .throw
      · exact (Blind.lift _).bind fun _ => mutate_blind hr _

theorem applyIncrement_blind {g : Graph F V} (hg : Clear D P g) {dx : List F} : HBlind D junk (applyIncrement g dx) := by
  unfold applyIncrement
  split
  · exact .throw
  · split
    · exact .throw
    · exact .forEach fun r hr => applyIncrementOne_blind (hg.vars r hr)

theorem stepVariable_blind {g : Graph F V} {dx : List F} {r : VRef} (hr : D r = false) :
    HBlind D junk (stepVariable g dx r) := by
  refine .get (fun h _ => by simp only [mask_eq hr]) fun h _ => ?_
  split
  · exact .ret ()
  · split
    · exact .ret ()
    · exact (Blind.lift _).bind fun _ => mutate_blind hr _

/-! ### Optimizer -/

/-- The state with the objects in `D` replaced. -/
def maskW (D : VRef → Bool) (junk : VRef → V) (s : OptWorld F V Fact) : OptWorld F V Fact := { s with heap := mask D junk s.heap }

/-- Code on the whole state that does not look at `D`. -/
abbrev WBlind {α : Type} (P : Factor F V → Prop) (D : VRef → Bool) (junk : VRef → V) (m : SE (OptWorld F V Fact) α) : Prop :=
  Blind (maskW D junk) (fun s => Clear D P s.graph) m

theorem modOpt_blind (f : Optimizer F Fact → Optimizer F Fact) : WBlind P D junk (modOpt f : SE (OptWorld F V Fact) Unit) :=
  .modify (fun _ _ => rfl) fun _ h => h

theorem modStats_blind (f : Stats F → Stats F) : WBlind P D junk (modStats f : SE (OptWorld F V Fact) Unit) :=
  .modify (fun _ _ => rfl) fun _ h => h

theorem onHeap_blind {α : Type} {m : Graph F V → SE (Heap V) α} (hm : ∀ g, Clear D P g → HBlind D junk (m g)) :
    WBlind P D junk (Opt.onHeap m : SE (OptWorld F V Fact) α) := by
  intro s hs
  have := (hm s.graph hs s.heap trivial).1
  refine ⟨?_, hs⟩
  simp only [Opt.onHeap, maskW, this]

theorem evalResidual1_blind (env : Env F V) : WBlind P D junk (evalResidual1 env : SE (OptWorld F V Fact) Unit) :=
  fun s hs => ⟨by simp only [evalResidual1, maskW, computeResidualInto_mask hs], hs⟩

theorem evalResidual2_blind (env : Env F V) : WBlind P D junk (evalResidual2 env : SE (OptWorld F V Fact) Unit) :=
  fun s hs => ⟨by simp only [evalResidual2, maskW, computeResidualInto_mask hs], hs⟩

theorem evalInitial_blind (env : Env F V) : WBlind P D junk (evalInitial env : SE (OptWorld F V Fact) (List F)) :=
  fun s hs => ⟨by simp only [evalInitial, maskW, computeResidual_mask hs], hs.kept (computeResidual_kept ..)⟩

theorem evalSparse_blind : WBlind P D junk (evalSparse : SE (OptWorld F V Fact) (SpMat F)) :=
  fun s hs => ⟨by simp only [evalSparse, maskW, computeSparse_mask hs], hs.kept (computeSparse_kept ..)⟩

theorem stepVariables_blind (dx : List F) : WBlind P D junk (stepVariables dx : SE (OptWorld F V Fact) Unit) :=
  onHeap_blind fun _ hg => .forEach fun r hr => stepVariable_blind (hg.vars r hr)

theorem giveUp_blind (st : Status) : WBlind P D junk (giveUp st : SE (OptWorld F V Fact) Unit) := modStats_blind _

theorem recordStats_blind (A : Arith F) (dx r : List F) : WBlind P D junk (recordStats A dx r : SE (OptWorld F V Fact) Unit) :=
  modStats_blind _

theorem raiseLambda_blind (A : Arith F) : WBlind P D junk (raiseLambda A : SE (OptWorld F V Fact) Unit) :=
  .get (fun _ _ => rfl) fun _ _ => modStats_blind _

theorem saveValues_mask {s : OptWorld F V Fact} (hs : Clear D P s.graph) : saveValues (maskW D junk s) = saveValues s := by
  refine List.map_congr_left fun r hr => ?_
  show (r, VarLike.value (mask D junk s.heap r)) = _
  rw [mask_eq (hs.vars r hr)]

theorem restoreValues_blind {saved : List (VRef × List F)} (h : ∀ p ∈ saved, D p.1 = false) :
    WBlind P D junk (restoreValues saved : SE (OptWorld F V Fact) Unit) :=
  onHeap_blind fun _ _ => .forEach fun p hp => mutate_blind (h p hp) _

theorem gaussNewtonStep_blind (A : Arith F) (L : LinAlg F Fact) (env : Env F V) :
    WBlind P D junk (gaussNewtonStep A L env : SE (OptWorld F V Fact) Unit) := by
  refine .get (fun _ _ => rfl) fun s0 _ => ?_
  split
  · exact .throw
  · refine (evalResidual1_blind env).bind fun _ => evalSparse_blind.bind fun J => .get (fun _ _ => rfl) fun s _ => ?_
    dsimp only
    split
    · exact (modOpt_blind _).bind fun _ => giveUp_blind _
    · refine (modOpt_blind _).bind fun _ => ?_
      split
      · exact .undefined
      split
      · exact giveUp_blind _
      split
      · exact giveUp_blind _
      split
      · exact giveUp_blind _
      · exact (stepVariables_blind _).bind fun _ => (evalResidual2_blind env).bind fun _ =>
          .get (fun _ _ => rfl) fun _ _ => recordStats_blind _ _ _

theorem lmTrials_blind (A : Arith F) (L : LinAlg F Fact) (env : Env F V) (J : SpMat F) (cost : F) : ∀ k dx,
    WBlind P D junk (lmTrials A L env J cost k dx : SE (OptWorld F V Fact) (Bool × List F)) := by
  intro k
  induction k with
  | zero => intro _; exact .ret _
  | succ k ih =>
    intro dx
    refine .get (fun s hs => by simp only [saveValues_mask hs]; rfl) fun s hs => ?_
    have hsaved : ∀ p ∈ saveValues s, D p.1 = false := by
      intro p hp
      obtain ⟨r, hr, rfl⟩ := List.mem_map.1 hp
      exact hs.vars r hr
    dsimp only
    split
    · exact (modOpt_blind _).bind fun _ => (raiseLambda_blind A).bind fun _ => ih _
    · refine (modOpt_blind _).bind fun _ => ?_
      split
      · exact .undefined
      split
      · exact (raiseLambda_blind A).bind fun _ => ih _
      split
      · exact (raiseLambda_blind A).bind fun _ => ih _
      · refine (stepVariables_blind _).bind fun _ => (evalResidual2_blind env).bind fun _ => .get (fun _ _ => rfl) fun s' _ => ?_
        split
        · exact (modStats_blind _).bind fun _ => .ret _
        · refine (restoreValues_blind hsaved).bind fun _ => (modStats_blind _).bind fun _ => .get (fun _ _ => rfl) fun s'' _ => ?_
          split
          · exact .ret _
          · exact ih _

theorem levenbergMarquardtStep_blind (A : Arith F) (L : LinAlg F Fact) (env : Env F V) :
    WBlind P D junk (levenbergMarquardtStep A L env : SE (OptWorld F V Fact) Unit) := by
  refine .get (fun _ _ => rfl) fun s0 _ => ?_
  split
  · exact .throw
  · refine (evalResidual1_blind env).bind fun _ => evalSparse_blind.bind fun J => .get (fun _ _ => rfl) fun s _ => ?_
    refine (modStats_blind _).bind fun _ => (lmTrials_blind A L env J _ 5 []).bind fun res => ?_
    split
    · exact .get (fun _ _ => rfl) fun _ _ => recordStats_blind _ _ _
    · refine Blind.bind (.get (fun _ _ => rfl) fun s' _ => ?_) fun _ => (modOpt_blind _).bind fun _ =>
        .get (fun _ _ => rfl) fun _ _ => recordStats_blind _ _ _
      split
      · exact modStats_blind _
      · exact modStats_blind _

theorem oneStep_blind (A : Arith F) (L : LinAlg F Fact) (env : Env F V) :
    WBlind P D junk (oneStep A L env : SE (OptWorld F V Fact) Unit) := by
  refine .get (fun _ _ => rfl) fun s _ => ?_
  split
  · exact gaussNewtonStep_blind A L env
  · exact levenbergMarquardtStep_blind A L env

theorem iterate_blind (A : Arith F) (L : LinAlg F Fact) (env : Env F V) : ∀ n,
    WBlind P D junk (iterate A L env n : SE (OptWorld F V Fact) Unit) := by
  intro n
  induction n with
  | zero => exact .ret ()
  | succ n ih =>
    intro s hs
    obtain ⟨e, h1⟩ := oneStep_blind (junk := junk) A L env s hs
    unfold iterate
    rw [e]
    rcases e' : oneStep A L env s with ⟨s', r⟩
    rw [e'] at h1
    cases r with
    | ub => exact ⟨rfl, h1⟩
    | threw => exact giveUp_blind .failed s' h1
    | ok _ =>
      dsimp only
      have hst : (maskW D junk s').opt = s'.opt ∧ (maskW D junk s).opt = s.opt := ⟨rfl, rfl⟩
      rw [hst.1, hst.2]
      generalize afterStep A s'.opt.settings s'.opt.initialStats s.opt.stats s'.opt.stats = q
      split
      · exact ⟨rfl, h1⟩
      · exact ih { s' with opt := { s'.opt with stats := q.1 } } h1

theorem optimize_blind (A : Arith F) (L : LinAlg F Fact) (env : Env F V) :
    WBlind P D junk (optimize A L env : SE (OptWorld F V Fact) Unit) := by
  refine .get (fun _ _ => rfl) fun s0 _ => ?_
  split
  · exact .throw
  · exact (modStats_blind _).bind fun _ => (evalInitial_blind env).bind fun _ => (modStats_blind _).bind fun _ =>
      (modOpt_blind _).bind fun _ => (iterate_blind A L env _).bind fun _ => (modStats_blind _).bind fun _ => modOpt_blind _

theorem prepare_blind (A : Arith F) (L : LinAlg F Fact) : WBlind P D junk (prepare A L : SE (OptWorld F V Fact) Unit) := by
  refine .get (fun _ _ => rfl) fun s _ => ?_
  split
  · exact .ret ()
  split
  · exact .ret ()
  · refine (Blind.lift _).bind fun J => ?_
    dsimp only
    split
    · exact modOpt_blind _
    split
    · exact (modOpt_blind _).bind fun _ => .undefined
    · exact modOpt_blind _

/-! ### Calls -/

/-- The call neither names an object in `D` nor offers a factor that uses one or does not have the property `P`. -/
def Avoids (P : Factor F V → Prop) (D : VRef → Bool) (c : Call F V) : Prop :=
  (∀ r, names r c → D r = false) ∧
  ∀ f : Factor F V, c = .user (.addFactor (some f)) → (∀ r, some r ∈ f.variables → D r = false) ∧ LooksAtOwn f ∧ P f

theorem step_blind (A : Arith F) (L : LinAlg F Fact) (env : Env F V) {c : Call F V} (hc : Avoids P D c) :
    WBlind P D junk (Opt.step A L env c : SE (OptWorld F V Fact) Unit) := by
  cases c with
  | setup b st => exact fun s hs => ⟨rfl, hs⟩
  | optimize => exact optimize_blind A L env
  | prepare => exact prepare_blind A L
  | user op =>
    intro s hs
    cases op with
    | addVariable p =>
      cases p with
      | none => exact ⟨rfl, hs⟩
      | some r =>
        have hr := hc.1 r rfl
        refine ⟨by simp only [Opt.step, World.step, World.onGraph, addVariable, maskW, mask_eq hr], ?_⟩
        show Clear D P (addVariable s.heap (some r) s.graph).1
        unfold addVariable
        dsimp only
        split
        · exact hs
        · refine ⟨?_, hs.facs, hs.placed⟩
          intro r' h'
          rcases List.mem_append.1 h' with h' | h'
          · exact hs.vars r' h'
          · rw [List.mem_singleton.1 h']; exact hr
    | addFactor p =>
      cases p with
      | none => exact ⟨rfl, hs⟩
      | some f =>
        have hf := hc.2 f rfl
        refine ⟨rfl, ?_⟩
        show Clear D P (addFactor (some f) s.graph).1
        unfold addFactor
        dsimp only
        split
        · exact hs
        · refine ⟨hs.vars, ?_, hs.placed⟩
          intro f' h'
          rcases List.mem_append.1 h' with h' | h'
          · exact hs.facs f' h'
          · rw [List.mem_singleton.1 h']; exact hf
    | finalize =>
      refine ⟨?_, finalize_clear hs s.heap⟩
      simp only [Opt.step, World.step, World.onGraph, maskW, finalize_mask hs]
    | setConstant r b =>
      refine ⟨?_, hs⟩
      simp only [Opt.step, World.step, World.onHeap, maskW, (mutate_blind (junk := junk) (hc.1 r rfl) _ s.heap trivial).1]
    | setValue r x =>
      refine ⟨?_, hs⟩
      simp only [Opt.step, World.step, World.onHeap, maskW, (mutate_blind (junk := junk) (hc.1 r rfl) _ s.heap trivial).1]
    | incrOne r x =>
      refine ⟨?_, hs⟩
      simp only [Opt.step, World.step, World.onHeap, maskW, (mutate_blind (junk := junk) (hc.1 r rfl) _ s.heap trivial).1]
    | setVector x =>
      refine ⟨?_, hs⟩
      simp only [Opt.step, World.step, World.onHeap, maskW, setVariableValuesFromVector,
        (setVectorLoop_blind (junk := junk) x hs.vars 0 s.heap trivial).1]
    | applyIncrement dx =>
      refine ⟨?_, hs⟩
      simp only [Opt.step, World.step, World.onHeap, maskW, (applyIncrement_blind (junk := junk) hs (dx := dx) s.heap trivial).1]
    | residual =>
      refine ⟨?_, hs.kept (computeResidual_kept env s.heap s.graph)⟩
      simp only [Opt.step, World.step, World.onGraph, maskW, computeResidual_mask hs]
    | residualInto buf =>
      refine ⟨?_, hs⟩
      simp only [Opt.step, World.step, maskW, computeResidualInto_mask hs]
    | dense =>
      refine ⟨?_, hs.kept (computeDense_kept env s.heap s.graph)⟩
      simp only [Opt.step, World.step, World.onGraph, maskW, computeDense_mask hs]
    | denseAndResidual =>
      refine ⟨?_, hs.kept (computeDenseAndResidual_kept env s.heap s.graph)⟩
      simp only [Opt.step, World.step, World.onGraph, maskW, computeDenseAndResidual_mask hs]
    | sparse =>
      refine ⟨?_, hs.kept (computeSparse_kept s.heap s.graph)⟩
      simp only [Opt.step, World.step, World.onGraph, maskW, computeSparse_mask hs]
    | copy => exact ⟨rfl, hs.kept (copy_kept s.graph)⟩

/-! ### Programs -/

/-- A handle given up after some calls is given up in the part after them. -/
theorem split_calls (env : Env F V) (cs : List (Call F V)) {rest pre post : List (Action F V)} {r : VRef}
    (h : cs.map (.call env) ++ rest = pre ++ .drop r :: post) :
    ∃ pre', pre = cs.map (.call env) ++ pre' ∧ rest = pre' ++ .drop r :: post := by
  induction cs generalizing pre with
  | nil => exact ⟨pre, rfl, h⟩
  | cons c cs ih =>
    cases pre with
    | nil => simp at h
    | cons a pre =>
      simp only [List.map_cons, List.cons_append, List.cons.injEq] at h
      obtain ⟨pre', e1, e2⟩ := ih h.2
      exact ⟨pre', by rw [e1, ← h.1]; rfl, e2⟩

theorem run_blind (A : Arith F) (L : LinAlg F Fact) (junk : VRef → V) : ∀ (rest : List (Action F V)) (D : VRef → Bool)
    (s : OptWorld F V Fact), Clear D P s.graph → (∀ env c, .call env c ∈ rest → Avoids P D c) →
    (∀ pre r post, rest = pre ++ .drop r :: post → r ∈ (run A L junk pre (maskW D junk s)).1.graph.varsVec ∨
      ((∀ f, P f → some r ∉ f.variables) ∧ ∀ env c, .call env c ∈ post → ¬ names r c)) →
    ∃ D', (∀ r, D' r = true → D r = true ∨ .drop r ∈ rest) ∧
      Clear D' P (run A L junk (withoutDrops rest) s).1.graph ∧
      run A L junk rest (maskW D junk s) =
        (maskW D' junk (run A L junk (withoutDrops rest) s).1, (run A L junk (withoutDrops rest) s).2) := by
  intro rest
  induction rest with
  | nil => intro D s hs _ _; exact ⟨D, fun r h => .inl h, hs, rfl⟩
  | cons a rest ih =>
    intro D s hs hav hsafe
    cases a with
    | call env c =>
      obtain ⟨e, h1⟩ := step_blind (junk := junk) A L env (hav env c (List.mem_cons_self ..)) s hs
      have ea : act A L junk (.call env c) (maskW D junk s) =
          (maskW D junk (Opt.step A L env c s).1, [(Opt.step A L env c s).2]) := by
        simp only [act, e]
      obtain ⟨D', hD, hc, hr⟩ := ih D (Opt.step A L env c s).1 h1 (fun env' c' h => hav env' c' (List.mem_cons_of_mem _ h))
        (by
          intro pre r post hp
          have := hsafe (.call env c :: pre) r post (by rw [hp]; rfl)
          simp only [run, ea] at this
          exact this)
      refine ⟨D', fun r h => (hD r h).imp id (List.mem_cons_of_mem _), hc, ?_⟩
      simp only [run, withoutDrops]
      rw [ea]
      simp only [hr, act]
    | drop r =>
      by_cases hr : r ∈ s.graph.varsVec
      · have ea : act A L junk (.drop r) (maskW D junk s) = (maskW D junk s, []) := by
          have : r ∈ (maskW D junk s).graph.varsVec := hr
          simp only [act, if_pos this]
        obtain ⟨D', hD, hc, hrun⟩ := ih D s hs (fun env' c' h => hav env' c' (List.mem_cons_of_mem _ h))
          (by
            intro pre r' post hp
            have := hsafe (.drop r :: pre) r' post (by rw [hp]; rfl)
            simp only [run, ea] at this
            exact this)
        refine ⟨D', fun r h => (hD r h).imp id (List.mem_cons_of_mem _), hc, ?_⟩
        simp only [run, ea, hrun, withoutDrops, List.nil_append]
      · obtain h | ⟨hnf, hnn⟩ := hsafe [] r rest rfl
        · exact absurd h hr
        let E : VRef → Bool := fun x => D x || x == r
        have hE : ∀ x, x ≠ r → E x = D x := fun x hx => by simp [E, hx]
        have ea : act A L junk (.drop r) (maskW D junk s) = (maskW E junk s, []) := by
          have : r ∉ (maskW D junk s).graph.varsVec := hr
          simp only [act, if_neg this]
          congr 1
          simp only [maskW]
          congr 1
          funext x
          by_cases hx : x = r
          · subst hx; simp [Heap.set, mask, E]
          · simp [Heap.set, mask, hx, hE x hx]
        have hf : ∀ f, ((∀ x, some x ∈ f.variables → D x = false) ∧ LooksAtOwn f ∧ P f) →
            ((∀ x, some x ∈ f.variables → E x = false) ∧ LooksAtOwn f ∧ P f) := by
          rintro f ⟨h1, h2, h3⟩
          refine ⟨fun x hx => ?_, h2, h3⟩
          rw [hE x fun e => hnf f h3 (e ▸ hx)]
          exact h1 x hx
        obtain ⟨D', hD, hc, hrun⟩ := ih E s
          ⟨fun x hx => by rw [hE x fun e => hr (e ▸ hx)]; exact hs.vars x hx, fun f h => hf f (hs.facs f h),
            fun it h => hf _ (hs.placed it h)⟩
          (fun env' c' h => by
            have := hav env' c' (List.mem_cons_of_mem _ h)
            exact ⟨fun x hx => by rw [hE x fun e => hnn env' c' h (e ▸ hx)]; exact this.1 x hx,
              fun f e => hf f (this.2 f e)⟩)
          (by
            intro pre r' post hp
            have := hsafe (.drop r :: pre) r' post (by rw [hp]; rfl)
            simp only [run, ea] at this
            exact this)
        refine ⟨D', fun x h => ?_, hc, ?_⟩
        · rcases hD x h with h | h
          · by_cases hx : x = r
            · subst hx; exact .inr (List.mem_cons_self ..)
            · exact .inl (by rw [← hE x hx]; exact h)
          · exact .inr (List.mem_cons_of_mem _ h)
        · simp only [run, ea, hrun, withoutDrops, List.nil_append]

end
end Factorama.Life
