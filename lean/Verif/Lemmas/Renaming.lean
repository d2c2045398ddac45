import Verif.Spec.Renaming
import Verif.Lemmas.History

/-!
# Two runs that differ in identifiers only
-/

set_option linter.unusedSectionVars false

namespace Factorama.Ids
open Spec Graph Opt
variable {F V Fact : Type} [Zero F] [VarLike F V]

/-- Started in related states, both computations have the same outcome and end in related states. -/
def Keeps {S α : Type} (R : S → S → Prop) (m m' : SE S α) : Prop :=
  ∀ s s', R s s' → (m' s').2 = (m s).2 ∧ R (m s).1 (m' s').1

section
variable {S α β : Type} {R : S → S → Prop}

theorem Keeps.ret (a : α) : Keeps R (SE.ret a) (SE.ret a) := fun _ _ h => ⟨rfl, h⟩
theorem Keeps.throw : Keeps R (SE.throw : SE S α) SE.throw := fun _ _ h => ⟨rfl, h⟩
theorem Keeps.undefined : Keeps R (SE.undefined : SE S α) SE.undefined := fun _ _ h => ⟨rfl, h⟩
theorem Keeps.lift (r : Res α) : Keeps R (SE.lift r) (SE.lift r) := fun _ _ h => ⟨rfl, h⟩

theorem Keeps.bind {m m' : SE S α} {k k' : α → SE S β} (hm : Keeps R m m') (hk : ∀ a, Keeps R (k a) (k' a)) :
    Keeps R (SE.bind m k) (SE.bind m' k') := by
  intro s s' hs
  obtain ⟨e, h1⟩ := hm s s' hs
  unfold SE.bind
  rcases h : m s with ⟨t, r⟩
  rcases h' : m' s' with ⟨t', r'⟩
  rw [h, h'] at e h1
  dsimp only at e h1
  subst e
  cases r' with
  | ok a => exact hk a t t' h1
  | threw => exact ⟨rfl, h1⟩
  | ub => exact ⟨rfl, h1⟩

theorem Keeps.get {k k' : S → SE S β} (h : ∀ s s', R s s' → Keeps R (k s) (k' s')) :
    Keeps R (SE.bind SE.get k) (SE.bind SE.get k') := fun s s' hs => h s s' hs s s' hs

theorem Keeps.modify {f f' : S → S} (h : ∀ s s', R s s' → R (f s) (f' s')) : Keeps R (SE.modify f) (SE.modify f') :=
  fun s s' hs => ⟨rfl, h s s' hs⟩

theorem Keeps.forEach {l : List β} {body body' : β → SE S Unit} (h : ∀ b ∈ l, Keeps R (body b) (body' b)) :
    Keeps R (SE.forEach l body) (SE.forEach l body') := by
  induction l with
  | nil => exact .ret ()
  | cons b l ih => exact (h b (List.mem_cons_self ..)).bind fun _ => ih fun c hc => h c (List.mem_cons_of_mem _ hc)

/-- A loop over renamed items. -/
theorem forEach_map {γ : Type} {l : List β} {f : β → γ} {body : β → SE S Unit} {body' : γ → SE S Unit}
    (h : ∀ b ∈ l, body' (f b) = body b) : SE.forEach (l.map f) body' = SE.forEach l body := by
  induction l with
  | nil => rfl
  | cons x l ih =>
    rw [List.map_cons]
    unfold SE.forEach
    rw [h x (List.mem_cons_self ..), ih fun y hy => h y (List.mem_cons_of_mem _ hy)]
end

/-- The ids of the objects in the two runs. -/
structure Names (n n' : VRef → Int) : Prop where
  same : ∀ r r', n' r = n' r' ↔ n r = n r'

/-- Two heaps that differ in ids only. -/
def HRel (E : V → V → Prop) (n n' : VRef → Int) (h h' : Heap V) : Prop :=
  ∀ r, E (h r) (h' r) ∧ VarLike.id (h r) = n r ∧ VarLike.id (h' r) = n' r

/-- An item of `factor_placement_` with its factor renamed. -/
def ren (τ : Int → Int) (it : Nat × FacPlacement F V) : Nat × FacPlacement F V := (it.1, renamedPlace τ it.2)

/-- The graph with other maps and renamed factors. -/
def regraph (τ : Int → Int) (g : Graph F V) (vm : Int → Option VRef) (fm : Int → Option (Factor F V))
    (pl : Int → Option VarPlacement) : Graph F V :=
  { g with varsMap := vm, facsMap := fm, varPl := pl, facs := g.facs.map (renamed τ), facPl := g.facPl.map (ren τ) }

/-- Two graphs that differ in ids only. -/
structure GRel (E : V → V → Prop) (τ : Int → Int) (n n' : VRef → Int) (g g' : Graph F V) : Prop where
  eq : g' = regraph τ g g'.varsMap g'.facsMap g'.varPl
  varsMap : ∀ r, g'.varsMap (n' r) = g.varsMap (n r)
  facsMap : ∀ i, (g'.facsMap (τ i)).isSome = (g.facsMap i).isSome
  varPl : ∀ r, g'.varPl (n' r) = g.varPl (n r)
  facs : ∀ f ∈ g.facs, IgnoresIds E f
  placed : ∀ it ∈ g.facPl, IgnoresIds E it.2.factor

/-- Two whole states that differ in ids only. -/
structure WRel (E : V → V → Prop) (τ : Int → Int) (n n' : VRef → Int) (s s' : OptWorld F V Fact) : Prop where
  heap : HRel E n n' s.heap s'.heap
  graph : GRel E τ n n' s.graph s'.graph
  opt : s'.opt = s.opt

/-- The undetermined choices of the second run follow those of the first. -/
def EnvRel (τ : Int → Int) (env env' : Env F V) : Prop :=
  (∀ l, env'.order (l.map (ren τ)) = (env.order l).map (ren τ)) ∧ env'.junk = env.junk

variable {E : V → V → Prop} {τ : Int → Int} {n n' : VRef → Int}

/-! ### Variables -/

section
variable (hE : DifferInId (F := F) E) {h h' : Heap V} (hh : HRel E n n' h h')
include hE hh

theorem isConst_eq (r : VRef) : VarLike.isConst (h' r) = VarLike.isConst (h r) := hE.isConst _ _ (hh r).1
theorem size_eq (r : VRef) : VarLike.size (h' r) = VarLike.size (h r) := hE.size _ _ (hh r).1
theorem value_eq (r : VRef) : VarLike.value (h' r) = VarLike.value (h r) := hE.value _ _ (hh r).1

theorem placedDim_eq (r : VRef) : placedDim (h' r) = placedDim (h r) := by
  simp only [placedDim, isConst_eq hE hh, size_eq hE hh]
end

/-- A change of an object that keeps its id and ends the same way on related objects. -/
def Fine (E : V → V → Prop) (f : V → Res V) : Prop :=
  (∀ v v', E v v' → SameOutcome E (f v) (f v')) ∧ ∀ v w, f v = .ok w → VarLike.id w = VarLike.id v

theorem mutate_keeps {f : V → Res V} (hf : Fine E f) (r : VRef) : Keeps (HRel E n n') (mutate r f) (mutate r f) := by
  intro h h' hh
  have h1 := hf.1 _ _ (hh r).1
  have h2 := hf.2 (h r)
  have h3 := hf.2 (h' r)
  unfold mutate
  cases e : f (h r) with
  | ok w =>
    cases e' : f (h' r) with
    | ok w' =>
      rw [e, e'] at h1
      refine ⟨rfl, fun x => ?_⟩
      show E (h.set r w x) (h'.set r w' x) ∧ VarLike.id (h.set r w x) = _ ∧ VarLike.id (h'.set r w' x) = _
      by_cases hx : x = r
      · subst hx
        simp only [Heap.set, if_pos]
        exact ⟨h1, by rw [h2 w e]; exact (hh x).2.1, by rw [h3 w' e']; exact (hh x).2.2⟩
      · simp only [Heap.set, if_neg hx]
        exact hh x
    | threw => rw [e, e'] at h1; exact h1.elim
    | ub => rw [e, e'] at h1; exact h1.elim
  | threw =>
    cases e' : f (h' r) with
    | ok w' => rw [e, e'] at h1; exact h1.elim
    | threw => exact ⟨rfl, hh⟩
    | ub => rw [e, e'] at h1; exact h1.elim
  | ub =>
    cases e' : f (h' r) with
    | ok w' => rw [e, e'] at h1; exact h1.elim
    | threw => rw [e, e'] at h1; exact h1.elim
    | ub => exact ⟨rfl, hh⟩

section
variable [LawfulVar F V] (hE : DifferInId (F := F) E)
include hE

theorem fine_setConst (b : Bool) : Fine (V := V) E fun v => .ok (VarLike.setConst v b) :=
  ⟨fun v v' h => hE.setConst v v' b h, fun v w e => by injection e with e; rw [← e]; exact LawfulVar.id_setConst v b⟩

theorem fine_setValue (x : List F) : Fine (V := V) E fun v => VarLike.setValue v x :=
  ⟨fun v v' h => hE.setValue v v' x h, fun v w e => LawfulVar.id_setValue v w x e⟩

theorem fine_applyIncr (x : List F) : Fine (V := V) E fun v => VarLike.applyIncr v x :=
  ⟨fun v v' h => hE.applyIncr v v' x h, fun v w e => LawfulVar.id_applyIncr v w x e⟩

theorem setVectorLoop_keeps (x : List F) (rs : List VRef) : ∀ off,
    Keeps (HRel E n n') (setVectorLoop x rs off : SE (Heap V) Unit) (setVectorLoop x rs off) := by
  induction rs with
  | nil => intro _; exact .ret ()
  | cons r rs ih =>
    intro off
    refine .get fun h h' hh => ?_
    rw [isConst_eq hE hh, size_eq hE hh]
    split
    · exact ih _
    · refine (Keeps.lift _).bind fun seg => (mutate_keeps (fine_setValue hE seg) r).bind fun _ => ?_
      refine .get fun h h' hh => ?_
      rw [size_eq hE hh]
      exact ih _

theorem applyIncrementOne_keeps {g g' : Graph F V} (hg : GRel E τ n n' g g') (dx : List F) (r : VRef) :
    Keeps (HRel E n n') (applyIncrementOne g dx r) (applyIncrementOne g' dx r) := by
  refine .get fun h h' hh => ?_
  have e : g'.variablePlacement (VarLike.id (h' r)) = g.variablePlacement (VarLike.id (h r)) := by
    rw [(hh r).2.1, (hh r).2.2]; exact hg.varPl r
  rw [isConst_eq hE hh, e]
  split
  · exact .ret ()
  · split
    · exact .ret ()
    · split
      · exact .throw
      · exact (Keeps.lift _).bind fun _ => mutate_keeps (fine_applyIncr hE _) r

theorem stepVariable_keeps {g g' : Graph F V} (hg : GRel E τ n n' g g') (dx : List F) (r : VRef) :
    Keeps (HRel E n n') (stepVariable g dx r) (stepVariable g' dx r) := by
  refine .get fun h h' hh => ?_
  have e : g'.variablePlacement (VarLike.id (h' r)) = g.variablePlacement (VarLike.id (h r)) := by
    rw [(hh r).2.1, (hh r).2.2]; exact hg.varPl r
  rw [isConst_eq hE hh, e]
  split
  · exact .ret ()
  · split
    · exact .ret ()
    · exact (Keeps.lift _).bind fun _ => mutate_keeps (fine_applyIncr hE _) r
end

theorem GRel.varsVec {g g' : Graph F V} (hg : GRel E τ n n' g g') : g'.varsVec = g.varsVec := by rw [hg.eq]; rfl
theorem GRel.numValues {g g' : Graph F V} (hg : GRel E τ n n' g g') : g'.numValues = g.numValues := by rw [hg.eq]; rfl
theorem GRel.numResiduals {g g' : Graph F V} (hg : GRel E τ n n' g g') : g'.numResiduals = g.numResiduals := by rw [hg.eq]; rfl
theorem GRel.finalized {g g' : Graph F V} (hg : GRel E τ n n' g g') : g'.finalized = g.finalized := by rw [hg.eq]; rfl
theorem GRel.facPl {g g' : Graph F V} (hg : GRel E τ n n' g g') : g'.facPl = g.facPl.map (ren τ) := by rw [hg.eq]; rfl
theorem GRel.facs_eq {g g' : Graph F V} (hg : GRel E τ n n' g g') : g'.facs = g.facs.map (renamed τ) := by rw [hg.eq]; rfl

/-- Change related graphs in the same way, leaving alone what ids are used for. -/
theorem GRel.change {g g' : Graph F V} (hg : GRel E τ n n' g g') {c c' : Graph F V}
    (h : c = { c with varsMap := g.varsMap, facsMap := g.facsMap, varPl := g.varPl, facs := g.facs, facPl := g.facPl })
    (h' : c' = regraph τ c g'.varsMap g'.facsMap g'.varPl) : GRel E τ n n' c c' := by
  obtain ⟨h1, h2, h3, h4, h5, h6⟩ := hg
  have e1 : c.varsMap = g.varsMap := by rw [h]
  have e2 : c.facsMap = g.facsMap := by rw [h]
  have e3 : c.varPl = g.varPl := by rw [h]
  have e4 : c.facs = g.facs := by rw [h]
  have e5 : c.facPl = g.facPl := by rw [h]
  have f1 : c'.varsMap = g'.varsMap := by rw [h']; rfl
  have f2 : c'.facsMap = g'.facsMap := by rw [h']; rfl
  have f3 : c'.varPl = g'.varPl := by rw [h']; rfl
  refine ⟨?_, ?_, ?_, ?_, ?_, ?_⟩
  · rw [f1, f2, f3]; exact h'
  · rw [f1, e1]; exact h2
  · rw [f2, e2]; exact h3
  · rw [f3, e3]; exact h4
  · rw [e4]; exact h5
  · rw [e5]; exact h6

/-! ### Evaluation -/

theorem residualOne_ren {h h' : Heap V} (hh : ∀ r, E (h r) (h' r)) {it : Nat × FacPlacement F V}
    (hit : IgnoresIds E it.2.factor) : residualOne h' (ren τ it) = residualOne h it := by
  funext buf
  have e : (ren τ it).2.factor.computeResidual h' = it.2.factor.computeResidual h := (hit h h' hh).1
  simp only [residualOne, e]
  rfl

theorem resizeTo_eq {env env' : Env F V} (he : EnvRel τ env env') (k : Nat) : resizeTo env' k = resizeTo env k := by
  funext b
  simp only [resizeTo, he.2]

theorem computeResidualInto_eq {env env' : Env F V} (he : EnvRel τ env env') {g g' : Graph F V} (hg : GRel E τ n n' g g')
    {h h' : Heap V} (hh : HRel E n n' h h') : computeResidualInto env' g' h' = computeResidualInto env g h := by
  unfold computeResidualInto
  rw [hg.finalized, hg.numResiduals, hg.facPl, he.1, resizeTo_eq he,
    forEach_map fun it hit => residualOne_ren (fun r => (hh r).1) (hg.placed it ((env.order_perm _).mem_iff.1 hit))]

theorem computeResidual_keeps {env env' : Env F V} (he : EnvRel τ env env') {h h' : Heap V} (hh : HRel E n n' h h') :
    Keeps (GRel E τ n n') (computeResidual env h) (computeResidual env' h') := by
  intro g g' hg
  have e := computeResidualInto_eq he hg hh
  have e1 : g'.resValid = g.resValid := by rw [hg.eq]; rfl
  have e2 : g'.cachedRes = g.cachedRes := by rw [hg.eq]; rfl
  unfold computeResidual
  rw [hg.finalized, e, e1, e2, hg.numResiduals]
  split
  · exact ⟨rfl, hg⟩
  · dsimp only
    generalize computeResidualInto env g h (if g.resValid = true then g.cachedRes else List.replicate g.numResiduals 0) = p
    obtain ⟨buf, r⟩ := p
    cases r <;> exact ⟨rfl, hg.change rfl (by rw [hg.eq]; rfl)⟩

theorem placement_eq {g g' : Graph F V} (hg : GRel E τ n n' g g') {h h' : Heap V} (hh : HRel E n n' h h') (r : VRef) :
    g'.variablePlacement (VarLike.id (h' r)) = g.variablePlacement (VarLike.id (h r)) := by
  rw [(hh r).2.1, (hh r).2.2]; exact hg.varPl r

section
variable (hE : DifferInId (F := F) E)
include hE

theorem denseVars_eq {g g' : Graph F V} (hg : GRel E τ n n' g g') {h h' : Heap V} (hh : HRel E n n' h h')
    (fp : FacPlacement F V) (vs : List (Option VRef)) : ∀ js, denseVars g' h' (renamedPlace τ fp) vs js = denseVars g h fp vs js := by
  induction vs with
  | nil => intro js; rfl
  | cons v vs ih =>
    intro js
    cases js with
    | nil => cases v <;> rfl
    | cons J js =>
      cases v with
      | none => rfl
      | some r => simp only [denseVars, ih, isConst_eq hE hh, placement_eq hg hh]; rfl

theorem denseOne_eq {g g' : Graph F V} (hg : GRel E τ n n' g g') {h h' : Heap V} (hh : HRel E n n' h h')
    {it : Nat × FacPlacement F V} (hit : IgnoresIds E it.2.factor) : denseOne g' h' (ren τ it) = denseOne g h it := by
  have e : (ren τ it).2.factor.computeJacobians h' [] = it.2.factor.computeJacobians h [] := (hit h h' fun r => (hh r).1).2 []
  unfold denseOne
  rw [e]
  congr 1
  funext js
  exact denseVars_eq hE hg hh it.2 it.2.factor.variables js

theorem computeDense_keeps {env env' : Env F V} (he : EnvRel τ env env') {h h' : Heap V} (hh : HRel E n n' h h') :
    Keeps (GRel E τ n n') (computeDense env h) (computeDense env' h') := by
  intro g g' hg
  have e1 : g'.jacValid = g.jacValid := by rw [hg.eq]; rfl
  have e2 : g'.cachedJac = g.cachedJac := by rw [hg.eq]; rfl
  have e : SE.forEach (env'.order g'.facPl) (denseOne g' h') = SE.forEach (env.order g.facPl) (denseOne g h) := by
    rw [hg.facPl, he.1]
    exact forEach_map fun it hit => denseOne_eq hE hg hh (hg.placed it ((env.order_perm _).mem_iff.1 hit))
  unfold computeDense
  rw [hg.finalized, e, e1, e2, hg.numResiduals, hg.numValues]
  split
  · exact ⟨rfl, hg⟩
  · dsimp only
    generalize SE.forEach (env.order g.facPl) (denseOne g h) _ = p
    obtain ⟨J, r⟩ := p
    cases r <;> exact ⟨rfl, hg.change rfl (by rw [hg.eq]; rfl)⟩

theorem computeDenseAndResidual_keeps {env env' : Env F V} (he : EnvRel τ env env') {h h' : Heap V} (hh : HRel E n n' h h') :
    Keeps (GRel E τ n n') (computeDenseAndResidual env h) (computeDenseAndResidual env' h') := by
  intro g g' hg
  unfold computeDenseAndResidual
  rw [hg.finalized]
  split
  · exact ⟨rfl, hg⟩
  · exact ((computeDense_keeps hE he hh).bind fun _ => (computeResidual_keeps he hh).bind fun _ => .ret ()) g g' hg

/-! ### finalize_structure -/

theorem placeVariables_rel (hn : Names n n') {h h' : Heap V} (hh : HRel E n n' h h') (rs : List VRef) : ∀ off m m',
    (∀ r, m' (n' r) = m (n r)) →
    (placeVariables h' rs off m').2 = (placeVariables h rs off m).2 ∧
      ∀ r, (placeVariables h' rs off m').1 (n' r) = (placeVariables h rs off m).1 (n r) := by
  induction rs with
  | nil => intro off m m' hm; exact ⟨rfl, hm⟩
  | cons x rs ih =>
    intro off m m' hm
    simp only [placeVariables, placedDim_eq hE hh]
    refine ih _ _ _ fun r => ?_
    rw [(hh x).2.1, (hh x).2.2]
    unfold mapSet
    by_cases e : n r = n x
    · rw [if_pos e, if_pos ((hn.same r x).2 e)]
    · rw [if_neg e, if_neg fun c => e ((hn.same r x).1 c)]
      exact hm r

theorem factorColumns_eq {h h' : Heap V} (hh : HRel E n n' h h') {pl pl' : Int → Option VarPlacement}
    (hp : ∀ r, pl' (n' r) = pl (n r)) (vs : List (Option VRef)) : factorColumns h' pl' vs = factorColumns h pl vs := by
  induction vs with
  | nil => rfl
  | cons v vs ih =>
    cases v with
    | none => rfl
    | some r =>
      have e : pl' (VarLike.id (h' r)) = pl (VarLike.id (h r)) := by rw [(hh r).2.1, (hh r).2.2]; exact hp r
      simp only [factorColumns, e, ih, isConst_eq hE hh]

theorem placeFactors_eq {h h' : Heap V} (hh : HRel E n n' h h') {pl pl' : Int → Option VarPlacement}
    (hp : ∀ r, pl' (n' r) = pl (n r)) (fs : List (Factor F V)) : ∀ i off (m : List (Nat × FacPlacement F V)),
    placeFactors h' pl' (fs.map (renamed τ)) i off (m.map (ren τ)) =
      ((placeFactors h pl fs i off m).1.map (ren τ), (placeFactors h pl fs i off m).2) := by
  induction fs with
  | nil => intro i off m; rfl
  | cons f fs ih =>
    intro i off m
    have e : factorColumns h' pl' (renamed τ f).variables = factorColumns h pl f.variables := factorColumns_eq hE hh hp _
    rw [List.map_cons]
    unfold placeFactors SE.bind SE.lift SE.modify
    rw [e]
    cases factorColumns h pl f.variables with
    | threw => rfl
    | ub => rfl
    | ok cd =>
      dsimp only
      rw [← ih, List.map_append]
      rfl

theorem countVars_eq {h h' : Heap V} (hh : HRel E n n' h h') {pl pl' : Int → Option VarPlacement}
    (hp : ∀ r, pl' (n' r) = pl (n r)) (k : Nat) (vs : List (Option VRef)) : ∀ counts,
    countVars h' pl' k vs counts = countVars h pl k vs counts := by
  induction vs with
  | nil => intro _; rfl
  | cons v vs ih =>
    intro counts
    cases v with
    | none => rfl
    | some r =>
      have e : pl' (VarLike.id (h' r)) = pl (VarLike.id (h r)) := by rw [(hh r).2.1, (hh r).2.2]; exact hp r
      simp only [countVars, e, ih, isConst_eq hE hh]

theorem countRows_eq {h h' : Heap V} (hh : HRel E n n' h h') {pl pl' : Int → Option VarPlacement}
    (hp : ∀ r, pl' (n' r) = pl (n r)) (fps : List (Nat × FacPlacement F V)) : ∀ counts,
    countRows h' pl' (fps.map (ren τ)) counts = countRows h pl fps counts := by
  induction fps with
  | nil => intro _; rfl
  | cons it fps ih =>
    intro counts
    obtain ⟨i, fp⟩ := it
    have e : countVars h' pl' (ren τ (i, fp)).2.residualDim (ren τ (i, fp)).2.factor.variables counts =
      countVars h pl fp.residualDim fp.factor.variables counts := countVars_eq hE hh hp _ _ _
    rw [List.map_cons]
    show countRows h' pl' ((i, (ren τ (i, fp)).2) :: _) counts = _
    simp only [countRows, e, ih]

omit hE in
theorem rowWrites_eq (fps : List (Nat × FacPlacement F V)) :
    ((fps.map (ren τ)).flatMap fun it => rowIndexWrites it.2) = fps.flatMap fun it => rowIndexWrites it.2 := by
  induction fps with
  | nil => rfl
  | cons it fps ih => rw [List.map_cons, List.flatMap_cons, List.flatMap_cons, ih]; rfl

omit hE in
theorem placeFactors_from {h : Heap V} {pl : Int → Option VarPlacement} {P : Factor F V → Prop} {fs : List (Factor F V)}
    (hf : ∀ f ∈ fs, P f) : ∀ i off m, (∀ it ∈ m, P it.2.factor) → ∀ it ∈ (placeFactors h pl fs i off m).1, P it.2.factor := by
  induction fs with
  | nil => intro _ _ m hm; exact hm
  | cons f fs ih =>
    intro i off m hm
    have ih := ih fun f' h' => hf f' (List.mem_cons_of_mem _ h')
    unfold placeFactors SE.bind SE.lift SE.modify
    cases factorColumns h pl f.variables with
    | threw => exact hm
    | ub => exact hm
    | ok cd =>
      refine ih _ _ _ fun it hit => ?_
      rcases List.mem_append.1 hit with h | h
      · exact hm it h
      · obtain rfl := List.mem_singleton.1 h
        exact hf f (List.mem_cons_self ..)

omit hE in
/-- The graph after new placements. -/
theorem GRel.replaced {g g' : Graph F V} (hg : GRel E τ n n' g g') {c c' : Graph F V}
    (h1 : c.varsMap = g.varsMap) (h2 : c.facsMap = g.facsMap) (h3 : c.facs = g.facs)
    (h4 : ∀ r, c'.varPl (n' r) = c.varPl (n r)) (h5 : ∀ it ∈ c.facPl, IgnoresIds E it.2.factor)
    (h6 : c' = regraph τ c g'.varsMap g'.facsMap c'.varPl) : GRel E τ n n' c c' := by
  have f1 : c'.varsMap = g'.varsMap := by rw [h6]; rfl
  have f2 : c'.facsMap = g'.facsMap := by rw [h6]; rfl
  refine ⟨?_, ?_, ?_, h4, ?_, h5⟩
  · rw [f1, f2]; exact h6
  · rw [f1, h1]; exact hg.varsMap
  · rw [f2, h2]; exact hg.facsMap
  · rw [h3]; exact hg.facs

theorem finalizeStructure_keeps (hn : Names n n') {h h' : Heap V} (hh : HRel E n n' h h') :
    Keeps (GRel E τ n n') (finalizeStructure h) (finalizeStructure h') := by
  intro g g' hg
  obtain ⟨e1, e2⟩ := placeVariables_rel hE hn hh g.varsVec 0 (fun _ => none) (fun _ => none) fun _ => rfl
  have hp := placeFactors_from (h := h) (pl := (placeVariables h g.varsVec 0 fun _ => none).1) hg.facs 0 0 [] (by simp)
  have e3 := placeFactors_eq (τ := τ) hE hh e2 g.facs 0 0 []
  have e4 := fun fps counts => countRows_eq (τ := τ) (F := F) hE hh e2 fps counts
  have e5 : g'.sparse = g.sparse := by rw [hg.eq]; rfl
  unfold finalizeStructure
  rw [hg.varsVec, hg.facs_eq, e5, List.length_map]
  generalize placeVariables h g.varsVec 0 (fun _ => none) = p at e1 e2 e3 e4 hp ⊢
  generalize placeVariables h' g.varsVec 0 (fun _ => none) = p' at e1 e2 e3 e4 ⊢
  obtain ⟨pl, k⟩ := p
  obtain ⟨pl', k'⟩ := p'
  dsimp only at e1 e2 e3 e4 hp ⊢
  subst e1
  rw [List.map_nil] at e3
  rw [e3]
  generalize placeFactors h pl g.facs 0 0 [] = q at hp ⊢
  obtain ⟨fpl, r⟩ := q
  dsimp only at hp ⊢
  have base : ∀ c c' : Graph F V, c.varsMap = g.varsMap → c.facsMap = g.facsMap → c.facs = g.facs → c.varPl = pl →
      c'.varPl = pl' → c.facPl = fpl → c' = regraph τ c g'.varsMap g'.facsMap c'.varPl → GRel E τ n n' c c' := by
    intro c c' h1 h2 h3 h4 h5 h6 h7
    exact hg.replaced h1 h2 h3 (by rw [h4, h5]; exact e2) (by rw [h6]; exact hp) h7
  cases r with
  | threw => exact ⟨rfl, base _ _ rfl rfl rfl rfl rfl rfl (by rw [hg.eq]; rfl)⟩
  | ub => exact ⟨rfl, base _ _ rfl rfl rfl rfl rfl rfl (by rw [hg.eq]; rfl)⟩
  | ok numRes =>
    dsimp only
    split
    · exact ⟨rfl, base _ _ rfl rfl rfl rfl rfl rfl (by rw [hg.eq]; rfl)⟩
    · rw [e4]
      cases countRows h pl fpl (List.replicate k' 0) with
      | threw => exact ⟨rfl, base _ _ rfl rfl rfl rfl rfl rfl (by rw [hg.eq]; rfl)⟩
      | ub => exact ⟨rfl, base _ _ rfl rfl rfl rfl rfl rfl (by rw [hg.eq]; rfl)⟩
      | ok counts =>
        dsimp only
        rw [rowWrites_eq]
        generalize SE.forEach (fpl.flatMap fun it => rowIndexWrites it.2) (scatterOne .ub) _ = u
        obtain ⟨st, r⟩ := u
        cases r <;> exact ⟨rfl, base _ _ rfl rfl rfl rfl rfl rfl (by rw [hg.eq]; rfl)⟩

/-! ### Sparse Jacobian -/

omit hE in
theorem lookup_ren (l : List (Nat × FacPlacement F V)) (i : Nat) :
    (l.map (ren τ)).lookup i = (l.lookup i).map (renamedPlace τ) := by
  induction l with
  | nil => rfl
  | cons x l ih =>
    obtain ⟨j, fp⟩ := x
    simp only [List.map_cons, ren, List.lookup_cons]
    cases i == j with
    | true => rfl
    | false => exact ih

/-- Related working states of the evaluation of the sparse Jacobian. -/
def SRel (E : V → V → Prop) (τ : Int → Int) (n n' : VRef → Int) (s s' : SparseWork F V) : Prop :=
  GRel E τ n n' s.g s'.g ∧ s'.cur = s.cur

omit hE in
theorem scatterData_keeps (ws : List (Nat × F)) :
    Keeps (SRel E τ n n') (scatterData ws : SE (SparseWork F V) Unit) (scatterData ws) := by
  rintro ⟨g, c⟩ ⟨g', c'⟩ ⟨hg, e⟩
  dsimp only at hg e
  subst e
  have e1 : g'.sparseData = g.sparseData := by rw [hg.eq]; rfl
  unfold scatterData
  dsimp only
  rw [e1]
  exact ⟨rfl, hg.change rfl (by rw [hg.eq]; rfl), rfl⟩

omit hE in
theorem sparseVars_keeps {h h' : Heap V} (hh : HRel E n n' h h') (vs : List (Option VRef)) : ∀ js,
    Keeps (SRel E τ n n') (sparseVars h vs js : SE (SparseWork F V) Unit) (sparseVars h' vs js) := by
  induction vs with
  | nil => intro js; cases js <;> exact .ret ()
  | cons v vs ih =>
    intro js
    cases js with
    | nil => cases v <;> exact .undefined
    | cons J js =>
      cases v with
      | none => exact .undefined
      | some r =>
        refine .get fun s s' hs => ?_
        rw [placement_eq hs.1 hh]
        split
        · exact ih _
        · exact (scatterData_keeps _).bind fun _ => ih _

omit hE in
theorem mem_of_lookup {β : Type} {l : List (Nat × β)} {i : Nat} {b : β} (h : l.lookup i = some b) : (i, b) ∈ l := by
  induction l with
  | nil => simp at h
  | cons x l ih =>
    rw [List.lookup_cons] at h
    split at h
    · rename_i e
      injection h with h
      have : i = x.1 := by simpa using e
      rw [this, ← h]
      exact List.mem_cons_self ..
    · exact List.mem_cons_of_mem _ (ih h)

omit hE in
theorem sparseOne_keeps {h h' : Heap V} (hh : HRel E n n' h h') (i : Nat) :
    Keeps (SRel E τ n n') (sparseOne h i : SE (SparseWork F V) Unit) (sparseOne h' i) := by
  refine .get fun s s' hs => ?_
  have e1 : s'.g.sparseComps = s.g.sparseComps := by rw [hs.1.eq]; rfl
  rw [hs.1.facPl, lookup_ren, e1]
  cases hl : s.g.facPl.lookup i with
  | none => exact .undefined
  | some fp =>
    cases hb : s.g.sparseComps[i]? with
    | none => exact .undefined
    | some buf =>
      have e : (renamedPlace τ fp).factor.computeJacobians h' buf = fp.factor.computeJacobians h buf :=
        (hs.1.placed (i, fp) (mem_of_lookup hl) h h' fun r => (hh r).1).2 buf
      dsimp only [Option.map]
      rw [e]
      cases fp.factor.computeJacobians h buf with
      | threw => exact .throw
      | ub => exact .undefined
      | ok js =>
        refine Keeps.bind (.modify ?_) fun _ => sparseVars_keeps hh _ _
        rintro ⟨g, c⟩ ⟨g', c'⟩ ⟨hg, ec⟩
        dsimp only at hg ec
        subst ec
        have e2 : g'.sparseComps = g.sparseComps := by rw [hg.eq]; rfl
        refine ⟨hg.change rfl ?_, rfl⟩
        dsimp only
        rw [e2]
        exact (by rw [hg.eq]; rfl)

omit hE in
theorem computeSparse_keeps {h h' : Heap V} (hh : HRel E n n' h h') :
    Keeps (GRel E τ n n') (computeSparse h : SE (Graph F V) (SpMat F)) (computeSparse h') := by
  intro g g' hg
  have e1 : g'.sparseInit = g.sparseInit := by rw [hg.eq]; rfl
  have h1 := Keeps.forEach (l := List.range g.facs.length) (fun i _ => sparseOne_keeps (τ := τ) (F := F) hh i)
    ⟨g, List.replicate g.numValues 0⟩ ⟨g', List.replicate g.numValues 0⟩ ⟨hg, rfl⟩
  unfold computeSparse
  rw [hg.finalized, e1, hg.numValues, hg.facs_eq, List.length_map]
  split
  · exact ⟨rfl, hg⟩
  split
  · exact ⟨rfl, hg⟩
  generalize SE.forEach (List.range g.facs.length) (sparseOne h) _ = p at h1 ⊢
  generalize SE.forEach (List.range g.facs.length) (sparseOne h') _ = p' at h1 ⊢
  obtain ⟨⟨g1, c⟩, r⟩ := p
  obtain ⟨⟨g1', c'⟩, r'⟩ := p'
  obtain ⟨er, hg1, ec⟩ := h1
  dsimp only at er hg1 ec
  subst er ec
  cases r' with
  | threw => exact ⟨rfl, hg1⟩
  | ub => exact ⟨rfl, hg1⟩
  | ok _ =>
    have a1 : g1'.sparseValid = g1.sparseValid := by rw [hg1.eq]; rfl
    have a2 : g1'.sparseRows = g1.sparseRows := by rw [hg1.eq]; rfl
    have a3 : g1'.sparseData = g1.sparseData := by rw [hg1.eq]; rfl
    have a4 : g1'.sparse = g1.sparse := by rw [hg1.eq]; rfl
    dsimp only
    rw [a1, a2, a3, a4, hg1.numValues]
    generalize (if g1.sparseValid = true then copySparse g1.sparseRows g1.sparseData g1.numValues
      else populate g1.sparseRows g1.sparseData g1.numValues) g1.sparse = q
    obtain ⟨m, r⟩ := q
    cases r <;> exact ⟨rfl, hg1.change rfl (by rw [hg1.eq]; rfl)⟩
end

end Factorama.Ids
