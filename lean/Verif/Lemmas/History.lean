import Verif.Lemmas.Stacked

/-! Helper lemmas: invariants of arbitrary call histories. -/

set_option linter.unusedSectionVars false

namespace Factorama
open Spec
namespace Graph
open SpMat
variable {F V : Type} [Zero F] [VarLike F V]

/-! ### Histories before finalization -/

/-- Invariant of every history: ids are unique and the maps agree with the lists. -/
structure Registered (h : Heap V) (g : Graph F V) : Prop where
  ids : (g.varsVec.map fun r => VarLike.id (h r)).Nodup
  vars : ∀ i r, g.varsMap i = some r ↔ r ∈ g.varsVec ∧ VarLike.id (h r) = i
  fids : (g.facs.map fun f => f.id).Nodup
  facs : ∀ i f, g.facsMap i = some f ↔ f ∈ g.facs ∧ f.id = i

/-- Two heaps whose variables have the same ids. -/
def SameIds (h h' : Heap V) : Prop := ∀ r, VarLike.id (h' r) = VarLike.id (h r)

theorem Registered.ids_congr {h h' : Heap V} {g g' : Graph F V} (hs : SameIds h h') (hr : Registered h g)
    (e1 : g'.varsVec = g.varsVec) (e2 : g'.varsMap = g.varsMap) (e3 : g'.facs = g.facs)
    (e4 : g'.facsMap = g.facsMap) : Registered h' g' where
  ids := by rw [e1]; simpa [hs _] using hr.ids
  vars := by rw [e1, e2]; intro i r; rw [hs r]; exact hr.vars i r
  fids := by rw [e3]; exact hr.fids
  facs := by rw [e3, e4]; exact hr.facs


/-- `g'` has the same variables, factors and finalization flag; the cache flags are unchanged while the graph
is not finalized. -/
structure Kept (g g' : Graph F V) : Prop where
  varsVec : g'.varsVec = g.varsVec
  varsMap : g'.varsMap = g.varsMap
  facs : g'.facs = g.facs
  facsMap : g'.facsMap = g.facsMap
  finalized : g'.finalized = g.finalized
  varPl : g'.varPl = g.varPl
  facPl : g'.facPl = g.facPl
  numResiduals : g'.numResiduals = g.numResiduals
  numValues : g'.numValues = g.numValues
  flags : g.finalized = false → g'.jacValid = g.jacValid ∧ g'.resValid = g.resValid ∧ g'.sparseValid = g.sparseValid

theorem Kept.refl (g : Graph F V) : Kept g g := ⟨rfl, rfl, rfl, rfl, rfl, rfl, rfl, rfl, rfl, fun _ => ⟨rfl, rfl, rfl⟩⟩

/-- Copying keeps everything but the layout of the sparse matrix. -/
theorem copy_kept (g : Graph F V) : Kept g (copy g) :=
  ⟨rfl, rfl, rfl, rfl, rfl, rfl, rfl, rfl, rfl, fun _ => ⟨rfl, rfl, rfl⟩⟩

theorem computeResidual_kept (env : Env F V) (h : Heap V) (g : Graph F V) : Kept g (computeResidual env h g).1 := by
  unfold computeResidual
  split
  · exact Kept.refl g
  · rename_i hf
    simp only
    split <;> exact ⟨rfl, rfl, rfl, rfl, rfl, rfl, rfl, rfl, rfl, fun h' => by simp [h'] at hf⟩

theorem computeDense_kept (env : Env F V) (h : Heap V) (g : Graph F V) : Kept g (computeDense env h g).1 := by
  unfold computeDense
  split
  · exact Kept.refl g
  · rename_i hf
    simp only
    split <;> exact ⟨rfl, rfl, rfl, rfl, rfl, rfl, rfl, rfl, rfl, fun h' => by simp [h'] at hf⟩

theorem Kept.trans {g g' g'' : Graph F V} (h1 : Kept g g') (h2 : Kept g' g'') : Kept g g'' :=
  ⟨h2.1.trans h1.1, h2.2.trans h1.2, h2.3.trans h1.3, h2.4.trans h1.4, h2.5.trans h1.5,
    h2.6.trans h1.6, h2.7.trans h1.7, h2.8.trans h1.8, h2.9.trans h1.9,
    fun hf =>
      have a := h1.flags hf
      have b := h2.flags (h1.finalized.trans hf)
      ⟨b.1.trans a.1, b.2.1.trans a.2.1, b.2.2.trans a.2.2⟩⟩

theorem computeDenseAndResidual_kept (env : Env F V) (h : Heap V) (g : Graph F V) :
    Kept g (computeDenseAndResidual env h g).1 := by
  unfold computeDenseAndResidual
  split
  · exact Kept.refl g
  · have h1 := computeDense_kept env h g
    unfold SE.bind
    split
    · rename_i s' a hs
      rw [hs] at h1
      have h2 := computeResidual_kept env h s'
      dsimp only
      split
      all_goals (rename_i hs2; rw [hs2] at h2; exact h1.trans h2)
    · rename_i s' hs; rw [hs] at h1; exact h1
    · rename_i s' hs; rw [hs] at h1; exact h1

theorem sparseOne_scratch (h : Heap V) (i : Nat) (s : SparseWork F V) :
    ∃ c d, (sparseOne h i s).1.g = { s.g with sparseComps := c, sparseData := d } := by
  simp only [sparseOne, SE.bind_get]
  cases hl : s.g.facPl.lookup i with
  | none => exact ⟨_, _, rfl⟩
  | some fp =>
    cases hb : s.g.sparseComps[i]? with
    | none => exact ⟨_, _, rfl⟩
    | some buf =>
      simp only
      cases hj : fp.factor.computeJacobians h buf with
      | threw => exact ⟨_, _, rfl⟩
      | ub => exact ⟨_, _, rfl⟩
      | ok js =>
        simp only [SE.bind_modify]
        have := (sparseVars_frame (fun _ _ => True) h fp.factor.variables js
            { s with g := { s.g with sparseComps := s.g.sparseComps.set i js } }).eq
        exact ⟨_, _, this⟩

theorem sparseLoop_scratch (h : Heap V) (is : List Nat) (s : SparseWork F V) :
    ∃ c d, (SE.forEach is (sparseOne h) s).1.g = { s.g with sparseComps := c, sparseData := d } := by
  induction is generalizing s with
  | nil => exact ⟨_, _, rfl⟩
  | cons i is ih =>
    rw [SE.forEach_cons]
    obtain ⟨c, d, h1⟩ := sparseOne_scratch h i s
    unfold SE.bind
    split
    · rename_i s' a hs
      rw [hs] at h1
      obtain ⟨c', d', h2⟩ := ih s'
      refine ⟨c', d', ?_⟩
      rw [h2, h1]
    · rename_i s' hs; rw [hs] at h1; exact ⟨c, d, h1⟩
    · rename_i s' hs; rw [hs] at h1; exact ⟨c, d, h1⟩

theorem computeSparse_kept (h : Heap V) (g : Graph F V) : Kept g (computeSparse h g).1 := by
  unfold computeSparse
  split
  · exact Kept.refl g
  · rename_i hf
    have hf' : ∀ {P : Prop}, g.finalized = false → P := fun h' => by simp [h'] at hf
    split
    · exact Kept.refl g
    · obtain ⟨c, d, h1⟩ := sparseLoop_scratch h (List.range g.facs.length) ⟨g, List.replicate g.numValues 0⟩
      split
      · rename_i s hs; rw [hs] at h1; simp only at h1; rw [h1]; exact ⟨rfl, rfl, rfl, rfl, rfl, rfl, rfl, rfl, rfl, hf'⟩
      · rename_i s hs; rw [hs] at h1; simp only at h1; rw [h1]; exact ⟨rfl, rfl, rfl, rfl, rfl, rfl, rfl, rfl, rfl, hf'⟩
      · rename_i s hs
        rw [hs] at h1
        simp only at h1 ⊢
        split <;> simp only [h1] <;> exact ⟨rfl, rfl, rfl, rfl, rfl, rfl, rfl, rfl, rfl, hf'⟩

/-- No cache is valid. -/
structure NoCache (g : Graph F V) : Prop where
  jac : g.jacValid = false
  res : g.resValid = false
  sp : g.sparseValid = false

/-- Invariant of every history from a fresh graph. -/
structure Hist (h : Heap V) (g : Graph F V) : Prop where
  reg : Registered h g
  fresh : g.finalized = false → NoCache g

theorem Hist.init (h : Heap V) : Hist h (Graph.init : Graph F V) where
  reg := ⟨by simp [Graph.init], by simp [Graph.init], by simp [Graph.init], by simp [Graph.init]⟩
  fresh := fun _ => ⟨rfl, rfl, rfl⟩

theorem Hist.kept {h : Heap V} {g g' : Graph F V} (hh : Hist h g) (hk : Kept g g') : Hist h g' where
  reg := hh.reg.ids_congr (fun _ => rfl) hk.varsVec hk.varsMap hk.facs hk.facsMap
  fresh := fun hf => by
    have hf' : g.finalized = false := hk.finalized.symm.trans hf
    have a := hk.flags hf'
    have b := hh.fresh hf'
    exact ⟨a.1.trans b.jac, a.2.1.trans b.res, a.2.2.trans b.sp⟩

theorem Hist.heap {h h' : Heap V} {g : Graph F V} (hh : Hist h g) (hs : SameIds h h') : Hist h' g where
  reg := hh.reg.ids_congr hs rfl rfl rfl rfl
  fresh := hh.fresh

theorem addVariable_reg {h : Heap V} {g : Graph F V} {r : VRef} (hr : Registered h g)
    (hn : g.varsMap (VarLike.id (h r)) = none) :
    Registered h { g with varsMap := mapSet g.varsMap (VarLike.id (h r)) r, varsVec := g.varsVec ++ [r] } where
  ids := by
    simp only [List.map_append, List.map_cons, List.map_nil]
    rw [List.nodup_append]
    refine ⟨hr.ids, by simp, ?_⟩
    intro a ha b hb
    simp at hb; subst hb
    obtain ⟨r', hr', rfl⟩ := List.mem_map.mp ha
    intro e
    have := (hr.vars _ r').mpr ⟨hr', e⟩
    rw [hn] at this; simp at this
  vars := by
    intro i r'
    simp only [mapSet, List.mem_append, List.mem_singleton]
    by_cases hi : i = VarLike.id (h r)
    · subst hi
      simp only [if_true, Option.some.injEq]
      constructor
      · rintro rfl; exact ⟨Or.inr rfl, rfl⟩
      · rintro ⟨h1 | h1, h2⟩
        · have := (hr.vars _ r').mpr ⟨h1, h2⟩
          rw [hn] at this; simp at this
        · exact h1.symm
    · rw [if_neg hi, hr.vars]
      constructor
      · rintro ⟨h1, h2⟩; exact ⟨Or.inl h1, h2⟩
      · rintro ⟨h1 | h1, h2⟩
        · exact ⟨h1, h2⟩
        · subst h1; exact absurd h2.symm hi
  fids := hr.fids
  facs := hr.facs

theorem addFactor_reg {h : Heap V} {g : Graph F V} {f : Factor F V} (hr : Registered h g)
    (hn : g.facsMap f.id = none) :
    Registered h { g with facsMap := mapSet g.facsMap f.id f, facs := g.facs ++ [f] } where
  ids := hr.ids
  vars := hr.vars
  fids := by
    simp only [List.map_append, List.map_cons, List.map_nil]
    rw [List.nodup_append]
    refine ⟨hr.fids, by simp, ?_⟩
    intro a ha b hb
    simp at hb; subst hb
    obtain ⟨f', hf', rfl⟩ := List.mem_map.mp ha
    intro e
    have := (hr.facs _ f').mpr ⟨hf', e⟩
    rw [hn] at this; simp at this
  facs := by
    intro i f'
    simp only [mapSet, List.mem_append, List.mem_singleton]
    by_cases hi : i = f.id
    · subst hi
      simp only [if_true, Option.some.injEq]
      constructor
      · rintro rfl; exact ⟨Or.inr rfl, rfl⟩
      · rintro ⟨h1 | h1, h2⟩
        · have := (hr.facs _ f').mpr ⟨h1, h2⟩
          rw [hn] at this; simp at this
        · exact h1.symm
    · rw [if_neg hi, hr.facs]
      constructor
      · rintro ⟨h1, h2⟩; exact ⟨Or.inl h1, h2⟩
      · rintro ⟨h1 | h1, h2⟩
        · exact ⟨h1, h2⟩
        · subst h1; exact absurd h2.symm hi

theorem SameShape.sameIds {h h' : Heap V} (hs : SameShape h h') : SameIds h h' := fun r => (hs r).1

variable [LawfulVar F V]

theorem hist_step {env : Env F V} {op : Op F V} {w : World F V} (hh : Hist w.heap w.graph) :
    Hist (World.step env op w).1.heap (World.step env op w).1.graph := by
  cases op with
  | addVariable p =>
    cases p with
    | none => exact hh
    | some r =>
      simp only [World.step, World.onGraph, addVariable]
      split
      · exact hh
      · rename_i hn
        exact ⟨addVariable_reg hh.reg (by simpa using hn), fun hf => ⟨(hh.fresh hf).1, (hh.fresh hf).2, (hh.fresh hf).3⟩⟩
  | addFactor p =>
    cases p with
    | none => exact hh
    | some f =>
      simp only [World.step, World.onGraph, addFactor]
      split
      · exact hh
      · rename_i hn
        exact ⟨addFactor_reg hh.reg (by simpa using hn), fun hf => ⟨(hh.fresh hf).1, (hh.fresh hf).2, (hh.fresh hf).3⟩⟩
  | finalize =>
    by_cases hw : WellPosed w.heap w.graph.varsVec w.graph.facs
    · obtain ⟨g', e, hl, h1, h2, h3, h4, _⟩ := finalize_ok hw
      simp only [World.step, World.onGraph, e]
      exact ⟨hh.reg.ids_congr (fun _ => rfl) h2 h1 h4 h3, fun hf => by simp [hl.fin] at hf⟩
    · obtain ⟨g', e, hl, h1, h2, h3, h4, h5, h6, h7, h8, h9, _⟩ := finalize_threw hw
      simp only [World.step, World.onGraph, e]
      refine ⟨hh.reg.ids_congr (fun _ => rfl) h2 h1 h4 h3, fun hf => ?_⟩
      have := hh.fresh (hl.symm.trans hf)
      exact ⟨h6.trans this.1, h8.trans this.2, h9.trans this.3⟩
  | setConstant r b =>
    refine hh.heap ?_
    intro r'
    simp only [World.step, World.onHeap, mutate, Heap.set]
    split
    · rename_i e; subst e; exact LawfulVar.id_setConst _ _
    · rfl
  | setValue r x => exact hh.heap (SameShape.sameIds (mutate_setValue_shape r x w.heap))
  | incrOne r x => exact hh.heap (SameShape.sameIds (mutate_applyIncr_shape r x w.heap))
  | setVector x => exact hh.heap (SameShape.sameIds (setVectorLoop_shape x _ 0 w.heap))
  | applyIncrement dx => exact hh.heap (SameShape.sameIds (applyIncrement_shape w.graph dx w.heap))
  | residual => exact hh.kept (computeResidual_kept env w.heap w.graph)
  | residualInto buf => exact hh
  | dense => exact hh.kept (computeDense_kept env w.heap w.graph)
  | denseAndResidual => exact hh.kept (computeDenseAndResidual_kept env w.heap w.graph)
  | sparse => exact hh.kept (computeSparse_kept w.heap w.graph)
  | copy => exact hh.kept (copy_kept w.graph)

theorem hist_runs {evs : List (Op F V × Res Unit)} {w w' : World F V} (hrun : World.Runs w evs w')
    (hh : Hist w.heap w.graph) : Hist w'.heap w'.graph := by
  induction hrun with
  | nil w => exact hh
  | @cons w w1 w2 op evs r env hs _ _ ih =>
    have h1 := hist_step (env := env) (op := op) hh
    rw [hs] at h1
    exact ih h1

theorem runs_append {evs evs' : List (Op F V × Res Unit)} {w w' : World F V}
    (hrun : World.Runs w (evs ++ evs') w') : ∃ w1, World.Runs w evs w1 ∧ World.Runs w1 evs' w' := by
  induction evs generalizing w with
  | nil => exact ⟨w, .nil w, hrun⟩
  | cons ev evs ih =>
    cases hrun with
    | cons env hs hne hr =>
      obtain ⟨w1, a, b⟩ := ih hr
      exact ⟨w1, .cons env hs hne a, b⟩

theorem runs_snoc {evs : List (Op F V × Res Unit)} {w w1 w2 : World F V} {op : Op F V} {r : Res Unit} {env : Env F V}
    (hrun : World.Runs w evs w1) (hs : World.step env op w1 = (w2, r)) (hne : r ≠ .ub) :
    World.Runs w (evs ++ [(op, r)]) w2 := by
  induction hrun with
  | nil w => exact .cons env hs hne (.nil _)
  | cons env' hs' hne' _ ih => exact .cons env' hs' hne' (ih hs)

/-- What value operations keep of any graph. -/
theorem kept_step {env : Env F V} {op : Op F V} {w : World F V} (hop : op.isValueOp) :
    Kept w.graph (World.step env op w).1.graph ∧ SameShape w.heap (World.step env op w).1.heap := by
  cases op with
  | addVariable _ => exact absurd hop (by simp [Op.isValueOp])
  | addFactor _ => exact absurd hop (by simp [Op.isValueOp])
  | finalize => exact absurd hop (by simp [Op.isValueOp])
  | setConstant _ _ => exact absurd hop (by simp [Op.isValueOp])
  | setValue r x => exact ⟨Kept.refl _, mutate_setValue_shape r x w.heap⟩
  | incrOne r x => exact ⟨Kept.refl _, mutate_applyIncr_shape r x w.heap⟩
  | setVector x => exact ⟨Kept.refl _, setVectorLoop_shape x _ 0 w.heap⟩
  | applyIncrement dx => exact ⟨Kept.refl _, applyIncrement_shape w.graph dx w.heap⟩
  | residual => exact ⟨computeResidual_kept env w.heap w.graph, SameShape.refl _⟩
  | residualInto buf => exact ⟨Kept.refl _, SameShape.refl _⟩
  | dense => exact ⟨computeDense_kept env w.heap w.graph, SameShape.refl _⟩
  | denseAndResidual => exact ⟨computeDenseAndResidual_kept env w.heap w.graph, SameShape.refl _⟩
  | sparse => exact ⟨computeSparse_kept w.heap w.graph, SameShape.refl _⟩
  | copy => exact ⟨copy_kept w.graph, SameShape.refl _⟩

theorem kept_runs {evs : List (Op F V × Res Unit)} {w w' : World F V} (hrun : World.Runs w evs w')
    (hops : ∀ ev ∈ evs, ev.1.isValueOp) : Kept w.graph w'.graph ∧ SameShape w.heap w'.heap := by
  induction hrun with
  | nil w => exact ⟨Kept.refl _, SameShape.refl _⟩
  | @cons w w1 w2 op evs r env hs _ _ ih =>
    have h1 := kept_step (env := env) (w := w) (hops (op, r) (by simp))
    rw [hs] at h1
    obtain ⟨i1, i2⟩ := ih (fun ev h' => hops ev (by simp [h']))
    exact ⟨h1.1.trans i1, h1.2.trans i2⟩

/-- The part of the layout that residuals and increments rely on. -/
structure Layout (h : Heap V) (g : Graph F V) : Prop where
  fin : g.finalized = true
  pl : g.varPl = plOf h g.varsVec
  nv : g.numValues = freeTotal h g.varsVec
  fpl : g.facPl = placedList h (plOf h g.varsVec) g.facs 0 0
  nr : g.numResiduals = rowTotal g.facs
  ids : (g.varsVec.map fun r => VarLike.id (h r)).Nodup
  wp : WellPosed h g.varsVec g.facs

theorem WellPosed.shape {h h' : Heap V} (hs : SameShape h h') {vars : List VRef} {facs : List (Factor F V)}
    (hw : WellPosed h vars facs) : WellPosed h' vars facs := by
  refine ⟨fun f hf p hp => ?_, by rw [hs.freeTotal_eq]; exact hw.2⟩
  obtain ⟨r, hr, h2⟩ := hw.1 f hf p hp
  refine ⟨r, hr, fun hc => ?_⟩
  rw [(hs r).2.1] at hc
  obtain ⟨r', m, e⟩ := h2 hc
  exact ⟨r', m, by rw [(hs r).1, (hs r').1]; exact e⟩

theorem Layout.kept {h h' : Heap V} {g g' : Graph F V} (hl : Layout h g) (hk : Kept g g') (hs : SameShape h h') :
    Layout h' g' where
  fin := hk.finalized.trans hl.fin
  pl := by rw [hk.varPl, hk.varsVec, plOf_shape hs]; exact hl.pl
  nv := by rw [hk.numValues, hk.varsVec, hs.freeTotal_eq]; exact hl.nv
  fpl := by rw [hk.facPl, hk.varsVec, hk.facs, plOf_shape hs, placedList_shape hs]; exact hl.fpl
  nr := by rw [hk.numResiduals, hk.facs]; exact hl.nr
  ids := by rw [hk.varsVec, hs.ids_eq]; exact hl.ids
  wp := by rw [hk.varsVec, hk.facs]; exact WellPosed.shape hs hl.wp

theorem layout_of_finalize {h : Heap V} {g g' : Graph F V} (hh : Hist h g)
    (hfin : finalizeStructure h g = (g', .ok ())) : Layout h g' := by
  by_cases hw : WellPosed h g.varsVec g.facs
  · obtain ⟨g2, e, hl, h1, h2, h3, h4, _⟩ := finalize_ok hw
    rw [hfin] at e
    obtain rfl : g' = g2 := by simpa using congrArg Prod.fst e
    exact ⟨hl.fin, hl.pl, hl.nv, hl.fpl, hl.nr, by rw [h2]; exact hh.reg.ids, by rw [h2, h4]; exact hw⟩
  · obtain ⟨g2, e, _⟩ := finalize_threw hw
    rw [hfin] at e
    simp at e

theorem runs_single {w w' : World F V} {op : Op F V} {r : Res Unit} {evs : List (Op F V × Res Unit)}
    (hrun : World.Runs w ((op, r) :: evs) w') : ∃ env w1, World.step env op w = (w1, r) ∧ World.Runs w1 evs w' := by
  cases hrun with
  | cons env hs hne hr => exact ⟨env, _, hs, hr⟩

theorem step_finalize_ok {env : Env F V} {w w1 : World F V} (hs : World.step env .finalize w = (w1, .ok ())) :
    w1.heap = w.heap ∧ finalizeStructure w.heap w.graph = (w1.graph, .ok ()) := by
  simp only [World.step, World.onGraph, Prod.mk.injEq] at hs
  obtain ⟨h1, h2⟩ := hs
  subst h1
  refine ⟨rfl, Prod.ext rfl ?_⟩
  cases h : (finalizeStructure w.heap w.graph).2 with
  | ok a => rfl
  | threw => rw [h] at h2; simp [Res.void] at h2
  | ub => rw [h] at h2; simp [Res.void] at h2

theorem finalizedAfter_layout {h0 : Heap V} {pre post : List (Op F V × Res Unit)} {w : World F V}
    (hw : FinalizedAfter h0 pre post w) : Layout w.heap w.graph := by
  obtain ⟨hrun, hpost⟩ := hw
  obtain ⟨w0, hr0, hrest⟩ := runs_append hrun
  obtain ⟨env, w1, hs, hr1⟩ := runs_single hrest
  obtain ⟨hh, hf⟩ := step_finalize_ok hs
  have hist := hist_runs hr0 (Hist.init h0)
  have hl := layout_of_finalize hist hf
  obtain ⟨k1, k2⟩ := kept_runs hr1 hpost
  rw [hh] at k2
  exact hl.kept k1 k2

/-! ### Which events make the caches valid -/

theorem computeResidual_flags (env : Env F V) (h : Heap V) (g : Graph F V) :
    (computeResidual env h g).1.jacValid = g.jacValid ∧ (computeResidual env h g).1.sparseValid = g.sparseValid ∧
    ((computeResidual env h g).2.void ≠ .ok () → (computeResidual env h g).1.resValid = g.resValid) := by
  unfold computeResidual
  split
  · exact ⟨rfl, rfl, fun _ => rfl⟩
  · simp only
    split
    · exact ⟨rfl, rfl, fun hne => absurd rfl hne⟩
    · exact ⟨rfl, rfl, fun _ => rfl⟩
    · exact ⟨rfl, rfl, fun _ => rfl⟩

theorem computeDense_flags (env : Env F V) (h : Heap V) (g : Graph F V) :
    (computeDense env h g).1.resValid = g.resValid ∧ (computeDense env h g).1.sparseValid = g.sparseValid ∧
    ((computeDense env h g).2.void ≠ .ok () → (computeDense env h g).1.jacValid = g.jacValid) := by
  unfold computeDense
  split
  · exact ⟨rfl, rfl, fun _ => rfl⟩
  · simp only
    split
    · exact ⟨rfl, rfl, fun hne => absurd rfl hne⟩
    · exact ⟨rfl, rfl, fun _ => rfl⟩
    · exact ⟨rfl, rfl, fun _ => rfl⟩

theorem denseAndResidual_flags (env : Env F V) (h : Heap V) (g : Graph F V) :
    (computeDenseAndResidual env h g).1.sparseValid = g.sparseValid ∧
    ((computeDenseAndResidual env h g).2.void ≠ .ok () →
      (computeDenseAndResidual env h g).1.resValid = g.resValid) := by
  have hd := computeDense_flags env h g
  unfold computeDenseAndResidual
  split
  · exact ⟨rfl, fun _ => rfl⟩
  · unfold SE.bind
    split
    · rename_i s' a hs
      rw [hs] at hd
      have h2 := computeResidual_flags env h s'
      dsimp only
      split
      · rename_i hs2; rw [hs2] at h2; exact ⟨h2.2.1.trans hd.2.1, fun hne => absurd rfl hne⟩
      · rename_i hs2; rw [hs2] at h2; exact ⟨h2.2.1.trans hd.2.1, fun hne => (h2.2.2 hne).trans hd.1⟩
      · rename_i hs2; rw [hs2] at h2; exact ⟨h2.2.1.trans hd.2.1, fun hne => (h2.2.2 hne).trans hd.1⟩
    · rename_i s' hs; rw [hs] at hd; exact ⟨hd.2.1, fun _ => hd.1⟩
    · rename_i s' hs; rw [hs] at hd; exact ⟨hd.2.1, fun _ => hd.1⟩

theorem computeSparse_flags (h : Heap V) (g : Graph F V) :
    (computeSparse h g).1.jacValid = g.jacValid ∧ (computeSparse h g).1.resValid = g.resValid ∧
    ((computeSparse h g).2.void ≠ .ok () → (computeSparse h g).1.sparseValid = g.sparseValid) := by
  unfold computeSparse
  split
  · exact ⟨rfl, rfl, fun _ => rfl⟩
  · split
    · exact ⟨rfl, rfl, fun _ => rfl⟩
    · obtain ⟨c, d, h1⟩ := sparseLoop_scratch h (List.range g.facs.length) ⟨g, List.replicate g.numValues 0⟩
      split
      · rename_i s hs; rw [hs] at h1; simp only at h1; rw [h1]; exact ⟨rfl, rfl, fun _ => rfl⟩
      · rename_i s hs; rw [hs] at h1; simp only at h1; rw [h1]; exact ⟨rfl, rfl, fun _ => rfl⟩
      · rename_i s hs
        rw [hs] at h1
        have j1 : s.g.jacValid = g.jacValid := by simp only at h1; rw [h1]
        have j2 : s.g.resValid = g.resValid := by simp only at h1; rw [h1]
        have j3 : s.g.sparseValid = g.sparseValid := by simp only at h1; rw [h1]
        dsimp only
        split
        · exact ⟨j1, j2, fun _ => j3⟩
        · exact ⟨j1, j2, fun _ => j3⟩
        · exact ⟨j1, j2, fun hne => absurd rfl hne⟩

theorem finalize_flags (h : Heap V) (g : Graph F V) :
    (finalizeStructure h g).1.jacValid = g.jacValid ∧ (finalizeStructure h g).1.resValid = g.resValid ∧
    (finalizeStructure h g).1.sparseValid = g.sparseValid ∧
    ((finalizeStructure h g).2 ≠ .ok () → (finalizeStructure h g).1.finalized = g.finalized) ∧
    ((finalizeStructure h g).2 ≠ .ub) := by
  by_cases hw : WellPosed h g.varsVec g.facs
  · obtain ⟨g2, e, hl, h1, h2, h3, h4, h5, h6, h7, h8, h9, _⟩ := finalize_ok hw
    rw [e]; exact ⟨h6, h8, h9, fun hne => absurd rfl hne, by simp⟩
  · obtain ⟨g2, e, hl, h1, h2, h3, h4, h5, h6, h7, h8, h9, _⟩ := finalize_threw hw
    rw [e]; exact ⟨h6, h8, h9, fun _ => hl, by simp⟩

theorem flags_step {env : Env F V} {op : Op F V} {w w' : World F V} {r : Res Unit}
    (hs : World.step env op w = (w', r)) :
    (w'.graph.jacValid = true → w.graph.jacValid = true ∨ (op, r) = (.dense, .ok ()) ∨ op = .denseAndResidual) ∧
    (w'.graph.sparseValid = true → w.graph.sparseValid = true ∨ (op, r) = (.sparse, .ok ())) ∧
    (w'.graph.resValid = true → w.graph.resValid = true ∨ (op, r) = (.residual, .ok ()) ∨
      (op, r) = (.denseAndResidual, .ok ())) ∧
    (w'.graph.finalized = true → w.graph.finalized = true ∨ (op, r) = (.finalize, .ok ())) := by
  obtain ⟨e1, e2⟩ := Prod.mk.injEq .. ▸ hs
  subst e1 e2
  have same : ∀ {P Q R S : Prop}, (World.step env op w).1.graph = w.graph →
      ((World.step env op w).1.graph.jacValid = true → w.graph.jacValid = true ∨ P) ∧
      ((World.step env op w).1.graph.sparseValid = true → w.graph.sparseValid = true ∨ Q) ∧
      ((World.step env op w).1.graph.resValid = true → w.graph.resValid = true ∨ R) ∧
      ((World.step env op w).1.graph.finalized = true → w.graph.finalized = true ∨ S) := by
    intro P Q R S e
    rw [e]; exact ⟨Or.inl, Or.inl, Or.inl, Or.inl⟩
  cases op with
  | addVariable p =>
    cases p with
    | none => exact same rfl
    | some r =>
      simp only [World.step, World.onGraph, addVariable]
      split <;> exact ⟨Or.inl, Or.inl, Or.inl, Or.inl⟩
  | addFactor p =>
    cases p with
    | none => exact same rfl
    | some r =>
      simp only [World.step, World.onGraph, addFactor]
      split <;> exact ⟨Or.inl, Or.inl, Or.inl, Or.inl⟩
  | finalize =>
    simp only [World.step, World.onGraph]
    obtain ⟨f1, f2, f3, f4, f5⟩ := finalize_flags w.heap w.graph
    rw [f1, f2, f3]
    refine ⟨Or.inl, Or.inl, Or.inl, fun hf => ?_⟩
    cases hr : (finalizeStructure w.heap w.graph).2 with
    | ok a => exact Or.inr rfl
    | threw => rw [f4 (by rw [hr]; simp)] at hf; exact Or.inl hf
    | ub => exact absurd hr f5
  | setConstant r b => exact same rfl
  | setValue r x => exact same rfl
  | incrOne r x => exact same rfl
  | setVector x => exact same rfl
  | applyIncrement dx => exact same rfl
  | residualInto buf => exact same rfl
  | residual =>
    simp only [World.step, World.onGraph]
    obtain ⟨f1, f2, f3⟩ := computeResidual_flags env w.heap w.graph
    rw [f1, f2, (computeResidual_kept env w.heap w.graph).finalized]
    refine ⟨Or.inl, Or.inl, fun hf => ?_, Or.inl⟩
    by_cases hr : (computeResidual env w.heap w.graph).2.void = .ok ()
    · rw [hr]; exact Or.inr (Or.inl rfl)
    · rw [f3 hr] at hf; exact Or.inl hf
  | dense =>
    simp only [World.step, World.onGraph]
    obtain ⟨f1, f2, f3⟩ := computeDense_flags env w.heap w.graph
    rw [f1, f2, (computeDense_kept env w.heap w.graph).finalized]
    refine ⟨fun hf => ?_, Or.inl, Or.inl, Or.inl⟩
    by_cases hr : (computeDense env w.heap w.graph).2.void = .ok ()
    · rw [hr]; exact Or.inr (Or.inl rfl)
    · rw [f3 hr] at hf; exact Or.inl hf
  | denseAndResidual =>
    simp only [World.step, World.onGraph]
    obtain ⟨f2, f3⟩ := denseAndResidual_flags env w.heap w.graph
    rw [f2, (computeDenseAndResidual_kept env w.heap w.graph).finalized]
    refine ⟨fun hf => Or.inr (Or.inr trivial), Or.inl, fun hf => ?_, Or.inl⟩
    by_cases hr : (computeDenseAndResidual env w.heap w.graph).2.void = .ok ()
    · rw [hr]; exact Or.inr (Or.inr rfl)
    · rw [f3 hr] at hf; exact Or.inl hf
  | sparse =>
    simp only [World.step, World.onGraph]
    obtain ⟨f1, f2, f3⟩ := computeSparse_flags w.heap w.graph
    rw [f1, f2, (computeSparse_kept w.heap w.graph).finalized]
    refine ⟨Or.inl, fun hf => ?_, Or.inl, Or.inl⟩
    by_cases hr : (computeSparse w.heap w.graph).2.void = .ok ()
    · rw [hr]; exact Or.inr rfl
    · rw [f3 hr] at hf; exact Or.inl hf
  | copy => exact ⟨Or.inl, Or.inl, Or.inl, Or.inl⟩

/-- A flag that only certain events can raise. -/
theorem flag_runs {evs : List (Op F V × Res Unit)} {w w' : World F V} (hrun : World.Runs w evs w')
    (flag : World F V → Bool) (P : Op F V × Res Unit → Prop)
    (hstep : ∀ (env : Env F V) op r w w', World.step env op w = (w', r) → r ≠ .ub → flag w' = true → flag w = true ∨ P (op, r))
    (h0 : flag w = false) (hno : ∀ ev ∈ evs, ¬ P ev) : flag w' = false := by
  induction hrun with
  | nil w => exact h0
  | @cons w w1 w2 op evs r env hs hne _ ih =>
    apply ih
    · cases hf : flag w1 with
      | false => rfl
      | true =>
        rcases hstep env op r w w1 hs hne hf with h | h
        · rw [h0] at h; simp at h
        · exact absurd h (hno (op, r) (by simp))
    · exact fun ev hev => hno ev (by simp [hev])

theorem not_finalized {h0 : Heap V} {evs : List (Op F V × Res Unit)} {w : World F V}
    (hrun : World.Runs (World.init h0) evs w) (hno : (.finalize, .ok ()) ∉ evs) : w.graph.finalized = false :=
  flag_runs hrun (fun w => w.graph.finalized) (fun ev => ev = (.finalize, .ok ()))
    (fun _ _ _ _ _ hs _ => (flags_step hs).2.2.2) rfl (fun ev hev he => hno (he ▸ hev))

theorem no_jacobian {h0 : Heap V} {evs : List (Op F V × Res Unit)} {w : World F V}
    (hrun : World.Runs (World.init h0) evs w) (hno : NoJacobianYet evs) :
    w.graph.jacValid = false ∧ w.graph.sparseValid = false := by
  obtain ⟨n1, n2, n3, n4⟩ := hno
  constructor
  · apply flag_runs hrun (fun w => w.graph.jacValid)
      (fun ev => ev = (.dense, .ok ()) ∨ ev = (.denseAndResidual, .ok ()) ∨ ev = (.denseAndResidual, .threw))
    · intro env op r w w' hs hne hf
      rcases (flags_step hs).1 hf with h | h | h
      · exact Or.inl h
      · exact Or.inr (Or.inl h)
      · subst h
        cases r with
        | ok _ => exact Or.inr (Or.inr (Or.inl rfl))
        | threw => exact Or.inr (Or.inr (Or.inr rfl))
        | ub => exact absurd rfl hne
    · rfl
    · rintro ev hev (h | h | h) <;> subst h <;> contradiction
  · exact flag_runs hrun (fun w => w.graph.sparseValid) (fun ev => ev = (.sparse, .ok ()))
      (fun _ _ _ _ _ hs _ => (flags_step hs).2.1) rfl (fun ev hev he => n4 (he ▸ hev))

theorem mem_le_sum {l : List Nat} {x : Nat} (hx : x ∈ l) : x ≤ l.sum := by
  induction l with
  | nil => simp at hx
  | cons a l ih =>
    rw [List.sum_cons]
    rcases List.mem_cons.mp hx with rfl | hx
    · omega
    · have := ih hx
      omega

/-- A successful finalization, before which no Jacobian was computed, establishes the evaluation invariant. -/
theorem ready_of_finalize {good : Nat → List (Mat F) → Prop} {h : Heap V} {g g' : Graph F V} (hh : Hist h g)
    (hj : g.jacValid = false) (hsv : g.sparseValid = false)
    (hfin : finalizeStructure h g = (g', .ok ())) (hid : IdsIdentify h g'.varsVec g'.facs)
    (hnr : NoRepeats g'.facs) (hnil : ∀ k, good k [])
    (hout : ∀ (k : Nat) f, g'.facs[k]? = some f → ∀ h buf js, good k buf → f.computeJacobians h buf = .ok js → good k js) :
    Ready good h g' := by
  by_cases hw : WellPosed h g.varsVec g.facs
  · obtain ⟨g2, e, hl, h1, h2, h3, h4, h5, h6, h7, h8, h9, h10, h11, h12⟩ := finalize_ok hw
    rw [hfin] at e
    obtain rfl : g' = g2 := by simpa using congrArg Prod.fst e
    exact {
      laid := hl
      ids := by rw [h2]; exact hh.reg.ids
      ident := hid
      norep := hnr
      safe := fun k f hf => ⟨hnil k, hout k f hf⟩
      comps := fun k b hb => by
        rw [h10] at hb
        have := List.mem_of_getElem? hb
        rw [List.mem_replicate] at this
        rw [this.2]; exact hnil k
      jac := fun hv => by rw [h6, hj] at hv; simp at hv
      spNew := fun _ => h11
      spFull := fun hv => by rw [h9, hsv] at hv; simp at hv
      alloc := by
        intro c hc hne
        have hmem : (colVals c (rowLog g'.facPl)).length ∈ (List.range (freeTotal h g.varsVec)).map
            fun c => (colVals c (rowLog g'.facPl)).length :=
          List.mem_map.mpr ⟨c, List.mem_range.mpr (by rw [← h2, ← hl.nv]; exact hc), rfl⟩
        have hle : (colVals c (rowLog g'.facPl)).length ≤ ((List.range (freeTotal h g.varsVec)).map
            fun c => (colVals c (rowLog g'.facPl)).length).sum := mem_le_sum hmem
        have hpos : 0 < (colVals c (rowLog g'.facPl)).length := List.length_pos_iff.mpr hne
        rw [h12]
        simp only [reserveFresh]
        omega }
  · obtain ⟨g2, e, _⟩ := finalize_threw hw
    rw [hfin] at e
    simp at e

theorem finalizedAfter_ready {good : Nat → List (Mat F) → Prop} {h0 : Heap V} {pre post : List (Op F V × Res Unit)}
    {w : World F V} (hw : FinalizedAfter h0 pre post w) (hpre : NoJacobianYet pre)
    (hid : IdsIdentify w.heap w.graph.varsVec w.graph.facs) (hnr : NoRepeats w.graph.facs) (hnil : ∀ k, good k [])
    (hout : ∀ (k : Nat) f, w.graph.facs[k]? = some f → ∀ h buf js, good k buf → f.computeJacobians h buf = .ok js → good k js) :
    Ready good w.heap w.graph := by
  obtain ⟨hrun, hpost⟩ := hw
  obtain ⟨w0, hr0, hrest⟩ := runs_append hrun
  obtain ⟨env, w1, hs, hr1⟩ := runs_single hrest
  obtain ⟨hh, hf⟩ := step_finalize_ok hs
  have hist := hist_runs hr0 (Hist.init h0)
  obtain ⟨nj, ns⟩ := no_jacobian hr0 hpre
  obtain ⟨k1, k2⟩ := kept_runs hr1 hpost
  have hready : Ready good w1.heap w1.graph := by
    rw [hh] at k2 ⊢
    apply ready_of_finalize hist nj ns hf
    · rw [← k1.varsVec, ← k1.facs]; exact IdsIdentify.shape k2.symm hid
    · rw [← k1.facs]; exact hnr
    · exact hnil
    · rw [← k1.facs]; exact hout
  exact (ready_runs hr1 hpost hready).1

end Graph
end Factorama
