import Verif.Lemmas.Lists

/-! Helper lemmas: re-finalization after a sparse evaluation, additions after finalization, failed finalization,
and where the dense evaluation can write. -/

set_option linter.unusedSectionVars false

namespace Factorama
open Spec
namespace Graph
open SpMat
variable {F V : Type} [Zero F] [VarLike F V]

/-! ### Re-finalization after a sparse evaluation -/

/-- The copy loop on a matrix without entries succeeds only if there is nothing to copy. -/
theorem copyLoop_zero (rowsIdx : List (List Nat)) (data : List (List F)) (cs : List Nat) (running : Nat) (m : SpMat F) :
    (copyLoop rowsIdx data 0 cs running m).1 = m ∧
    ((copyLoop rowsIdx data 0 cs running m).2 = .ok () → ∀ c ∈ cs, rowsIdx[c]? = some []) := by
  induction cs generalizing running with
  | nil => simp [copyLoop, SE.ret]
  | cons c cs ih =>
    unfold copyLoop
    cases hr : rowsIdx[c]? with
    | none => simp [SE.undefined]
    | some rs =>
      cases hd : data[c]? with
      | none => simp [SE.undefined]
      | some d =>
        simp only
        by_cases h1 : d.length ≠ rs.length
        · simp [h1, SE.throw]
        · rw [if_neg h1]
          by_cases h2 : d.isEmpty = true
          · rw [if_pos h2]
            refine ⟨(ih running).1, fun ho c' hc' => ?_⟩
            simp only [List.mem_cons] at hc'
            rcases hc' with rfl | hc'
            · have h3 : d = [] := by simpa using h2
              subst h3
              have : rs = [] := by
                have h4 : 0 = rs.length := by simpa using h1
                exact List.length_eq_zero_iff.mp h4.symm
              rw [hr, this]
            · exact (ih running).2 ho c' hc'
          · rw [if_neg h2, if_pos (Nat.zero_le _)]
            simp [SE.throw]

/-- State in which sparse evaluation can never succeed: the matrix is marked as computed, has no entries, and there
is something to store. -/
structure Dead (g : Graph F V) : Prop where
  valid : g.sparseValid = true
  none : g.sparse.nonZeros = 0
  some : ∃ c rs, c < g.numValues ∧ g.sparseRows[c]? = some rs ∧ rs ≠ []

theorem computeSparse_dead {h : Heap V} {g : Graph F V} (hd : Dead g) :
    Dead (computeSparse h g).1 ∧ ∀ m, (computeSparse h g).2 ≠ .ok m := by
  unfold computeSparse
  split
  · exact ⟨hd, by simp⟩
  · split
    · exact ⟨hd, by simp⟩
    · obtain ⟨c, d, h1⟩ := sparseLoop_scratch h (List.range g.facs.length) ⟨g, List.replicate g.numValues 0⟩
      have keep : Dead ({ g with sparseComps := c, sparseData := d } : Graph F V) := ⟨hd.valid, hd.none, hd.some⟩
      split
      · rename_i s hs; rw [hs] at h1; simp only at h1; rw [h1]; exact ⟨keep, by simp⟩
      · rename_i s hs; rw [hs] at h1; simp only at h1; rw [h1]; exact ⟨keep, by simp⟩
      · rename_i s hs
        rw [hs] at h1
        simp only at h1
        have hz : ∀ m', copySparse s.g.sparseRows s.g.sparseData s.g.numValues s.g.sparse = m' →
            m'.1 = g.sparse ∧ m'.2 ≠ .ok () := by
          rintro m' rfl
          have e1 : s.g.sparse = g.sparse := by rw [h1]
          have e2 : s.g.sparseRows = g.sparseRows := by rw [h1]
          have e3 : s.g.numValues = g.numValues := by rw [h1]
          rw [e1, e2, e3]
          simp only [copySparse, SE.bind_get]
          split
          · simp [SE.throw]
          · rw [hd.none]
            obtain ⟨z1, z2⟩ := copyLoop_zero g.sparseRows s.g.sparseData (List.range g.numValues) 0 g.sparse
            refine ⟨z1, fun ho => ?_⟩
            obtain ⟨c, rs, hc, hrs, hne⟩ := hd.some
            have := z2 ho c (by simpa using hc)
            rw [hrs] at this
            exact hne (by simpa using this)
        have hv : s.g.sparseValid = true := by rw [h1]; exact hd.valid
        dsimp only
        rw [if_pos hv]
        obtain ⟨z1, z2⟩ := hz _ rfl
        have dead : ∀ m, m = g.sparse → Dead ({ s.g with sparse := m } : Graph F V) := by
          rintro m rfl
          rw [h1]; exact ⟨hd.valid, hd.none, hd.some⟩
        split
        · rename_i m hm; rw [hm] at z1; exact ⟨dead m z1, by simp⟩
        · rename_i m hm; rw [hm] at z1; exact ⟨dead m z1, by simp⟩
        · rename_i m hm; rw [hm] at z2; exact absurd rfl z2

theorem computeResidual_dead {env : Env F V} {h : Heap V} {g : Graph F V} (hd : Dead g) :
    Dead (computeResidual env h g).1 := by
  unfold computeResidual
  split
  · exact hd
  · simp only
    split <;> exact ⟨hd.valid, hd.none, hd.some⟩

theorem computeDense_dead {env : Env F V} {h : Heap V} {g : Graph F V} (hd : Dead g) :
    Dead (computeDense env h g).1 := by
  unfold computeDense
  split
  · exact hd
  · simp only
    split <;> exact ⟨hd.valid, hd.none, hd.some⟩

theorem dead_step {env : Env F V} {op : Op F V} {w : World F V} (hop : op.isValueOp) (hd : Dead w.graph) :
    Dead (World.step env op w).1.graph := by
  cases op with
  | addVariable p => exact hop.elim
  | addFactor p => exact hop.elim
  | finalize => exact hop.elim
  | setConstant r b => exact hop.elim
  | setValue r x => exact hd
  | incrOne r x => exact hd
  | setVector x => exact hd
  | applyIncrement dx => exact hd
  | residualInto buf => exact hd
  | residual => exact computeResidual_dead hd
  | dense => exact computeDense_dead hd
  | sparse => exact (computeSparse_dead hd).1
  | copy =>
    refine ⟨hd.valid, ?_, hd.some⟩
    have : w.graph.sparse.copied.nonZeros = w.graph.sparse.nonZeros := by
      simp [SpMat.copied, SpMat.nonZeros, Function.comp_def]
    exact this.trans hd.none
  | denseAndResidual =>
    simp only [World.step, World.onGraph, computeDenseAndResidual]
    split
    · exact hd
    · have h1 := computeDense_dead (env := env) (h := w.heap) hd
      unfold SE.bind
      split
      · rename_i s' a hs
        rw [hs] at h1
        have h2 := computeResidual_dead (env := env) (h := w.heap) h1
        dsimp only
        split
        all_goals (rename_i hs2; rw [hs2] at h2; exact h2)
      · rename_i s' hs; rw [hs] at h1; exact h1
      · rename_i s' hs; rw [hs] at h1; exact h1

theorem dead_runs {evs : List (Op F V × Res Unit)} {w w' : World F V} (hrun : World.Runs w evs w')
    (hops : ∀ ev ∈ evs, ev.1.isValueOp) (hd : Dead w.graph) : Dead w'.graph := by
  induction hrun with
  | nil w => exact hd
  | @cons w w1 w2 op evs r env hs hne _ ih =>
    apply ih (fun ev hev => hops ev (by simp [hev]))
    have := dead_step (env := env) (hops (op, r) (by simp)) hd
    rw [hs] at this
    exact this

/-- A laid-out graph in which a factor uses one of the graph's free variables has something to store. -/
theorem laid_entry {h : Heap V} {g : Graph F V} (hl : Laid h g)
    (hids : (g.varsVec.map fun r => VarLike.id (h r)).Nodup)
    (hex : ∃ f ∈ g.facs, 0 < f.residualSize ∧ ∃ r ∈ g.varsVec, some r ∈ f.variables ∧
      VarLike.isConst (h r) = false ∧ 0 < VarLike.size (h r)) :
    ∃ c rs, c < g.numValues ∧ g.sparseRows[c]? = some rs ∧ rs ≠ [] := by
  obtain ⟨f, hf, hpos, r, hr, hv, hc, hsz⟩ := hex
  obtain ⟨k, hk⟩ := List.mem_iff_getElem?.mp hf
  have hp := plOf_mem hids hr
  have hb := plOf_bound hp
  have hfs : freeSize (h r) = VarLike.size (h r) := by simp [freeSize, hc]
  simp only [hfs] at hb hp
  have hlt : colStart h g.varsVec r < g.numValues := by rw [hl.nv]; omega
  refine ⟨colStart h g.varsVec r, _, hlt, hl.rows _ hlt, fun he => ?_⟩
  have hmem : rowStart g.facs k ∈ colVals (colStart h g.varsVec r) (rowLog g.facPl) := by
    have hel := getElem?_placedList h (plOf h g.varsVec) g.facs 0 0 k
    rw [hk, ← hl.fpl] at hel
    simp only [Option.map_some, Nat.zero_add] at hel
    simp only [rowLog, colVals_flatMap, List.mem_flatMap]
    refine ⟨_, List.mem_of_getElem? hel, ?_⟩
    simp only [rowIndexWrites, zip_map_fst_snd, colVals_flatMap, List.mem_flatMap]
    refine ⟨(colStart h g.varsVec r, VarLike.size (h r)), ?_, ?_⟩
    · simp only [colsOf, List.mem_filterMap]
      exact ⟨some r, hv, by simp [hc, hp]⟩
    · rw [mem_colVals, mem_block]
      exact ⟨0, 0, hpos, hsz, by simp⟩
  rw [he] at hmem
  simp at hmem

variable [LawfulVar F V]

/-- `sparse_jacobian_valid_` is never reset. -/
theorem sparseValid_step {env : Env F V} {op : Op F V} {w : World F V} (hv : w.graph.sparseValid = true) :
    (World.step env op w).1.graph.sparseValid = true := by
  cases op with
  | addVariable p =>
    cases p with
    | none => exact hv
    | some r => simp only [World.step, World.onGraph, addVariable]; split <;> exact hv
  | addFactor p =>
    cases p with
    | none => exact hv
    | some r => simp only [World.step, World.onGraph, addFactor]; split <;> exact hv
  | finalize => simp only [World.step, World.onGraph]; rw [(finalize_flags w.heap w.graph).2.2.1]; exact hv
  | setConstant r b => exact hv
  | setValue r x => exact hv
  | incrOne r x => exact hv
  | setVector x => exact hv
  | applyIncrement dx => exact hv
  | residualInto buf => exact hv
  | residual => simp only [World.step, World.onGraph]; rw [(computeResidual_flags env w.heap w.graph).2.1]; exact hv
  | dense => simp only [World.step, World.onGraph]; rw [(computeDense_flags env w.heap w.graph).2.1]; exact hv
  | copy => exact hv
  | denseAndResidual =>
    simp only [World.step, World.onGraph]; rw [(denseAndResidual_flags env w.heap w.graph).1]; exact hv
  | sparse =>
    simp only [World.step, World.onGraph]
    obtain ⟨f1, f2, f3⟩ := computeSparse_flags w.heap w.graph
    unfold computeSparse
    split
    · exact hv
    · split
      · exact hv
      · obtain ⟨c, d, h1⟩ := sparseLoop_scratch w.heap (List.range w.graph.facs.length)
          ⟨w.graph, List.replicate w.graph.numValues 0⟩
        split
        · rename_i s hs; rw [hs] at h1; simp only at h1; rw [h1]; exact hv
        · rename_i s hs; rw [hs] at h1; simp only at h1; rw [h1]; exact hv
        · rename_i s hs
          rw [hs] at h1
          simp only at h1
          have hv' : s.g.sparseValid = true := by rw [h1]; exact hv
          simp only
          split
          · exact hv'
          · exact hv'
          · rfl

theorem sparseValid_of_event {evs : List (Op F V × Res Unit)} {w w' : World F V} (hrun : World.Runs w evs w')
    (hev : w.graph.sparseValid = true ∨ (.sparse, .ok ()) ∈ evs) : w'.graph.sparseValid = true := by
  induction hrun with
  | nil w => simpa using hev
  | @cons w w1 w2 op evs r env hs hne _ ih =>
    apply ih
    rcases hev with h | h
    · left
      have := sparseValid_step (env := env) (op := op) h
      rw [hs] at this
      exact this
    · simp only [List.mem_cons] at h
      rcases h with h | h
      · left
        obtain ⟨e1, e2⟩ := Prod.mk.injEq .. ▸ h
        subst e1 e2
        simp only [World.step, World.onGraph, computeSparse] at hs
        split at hs
        · simp [Res.void] at hs
        · split at hs
          · simp [Res.void] at hs
          · split at hs
            · simp [Res.void] at hs
            · simp [Res.void] at hs
            · split at hs
              · simp [Res.void] at hs
              · simp [Res.void] at hs
              · simp only [Res.void, Prod.mk.injEq, and_true] at hs
                rw [← hs]
      · exact Or.inr h

theorem dead_of_refinalize {h0 : Heap V} {pre post : List (Op F V × Res Unit)} {w : World F V}
    (hw : FinalizedAfter h0 pre post w) (hsp : (.sparse, .ok ()) ∈ pre)
    (hex : ∃ f ∈ w.graph.facs, 0 < f.residualSize ∧ ∃ r ∈ w.graph.varsVec, some r ∈ f.variables ∧
      VarLike.isConst (w.heap r) = false ∧ 0 < VarLike.size (w.heap r)) : Dead w.graph := by
  obtain ⟨hrun, hpost⟩ := hw
  obtain ⟨w0, hr0, hrest⟩ := runs_append hrun
  obtain ⟨env, w1, hs, hr1⟩ := runs_single hrest
  obtain ⟨hh, hf⟩ := step_finalize_ok hs
  have hist := hist_runs hr0 (Hist.init h0)
  obtain ⟨k1, k2⟩ := kept_runs hr1 hpost
  refine dead_runs hr1 hpost ?_
  have hwp : WellPosed w0.heap w0.graph.varsVec w0.graph.facs := by
    refine Classical.byContradiction fun hn => ?_
    obtain ⟨g2, e, _⟩ := finalize_threw hn
    rw [hf] at e
    simp at e
  obtain ⟨g2, e, hl, h1, h2, h3, h4, h5, h6, h7, h8, h9, h10, h11, h12⟩ := finalize_ok hwp
  rw [hf] at e
  obtain rfl : w1.graph = g2 := by simpa using congrArg Prod.fst e
  refine ⟨?_, ?_, ?_⟩
  · rw [h9]; exact sparseValid_of_event hr0 (Or.inr hsp)
  · rw [h12]
    generalize rowTotal w0.graph.facs = n
    generalize ((List.range (freeTotal w0.heap w0.graph.varsVec)).map fun c =>
      (colVals c (rowLog w1.graph.facPl)).length) = l
    simp only [SpMat.nonZeros, reserveFresh, List.map_map]
    clear h12
    induction l with
    | nil => rfl
    | cons a l ih => simpa using ih
  · apply laid_entry hl
    · rw [h2]; exact hist.reg.ids
    · obtain ⟨f, m1, m2, r, m3, m4, m5, m6⟩ := hex
      rw [k1.facs] at m1
      rw [k1.varsVec] at m3
      rw [(k2 r).2.1, hh] at m5
      rw [(k2 r).2.2, hh] at m6
      exact ⟨f, m1, m2, r, m3, m4, m5, m6⟩

/-! ### Additions after finalization -/

theorem sparseOne_comps (h : Heap V) (i : Nat) (s : SparseWork F V) :
    (sparseOne h i s).1.g.sparseComps.length = s.g.sparseComps.length ∧
    ((sparseOne h i s).2 = .ok () → i < s.g.sparseComps.length) := by
  simp only [sparseOne, SE.bind_get]
  cases hl : s.g.facPl.lookup i with
  | none => simp [SE.undefined]
  | some fp =>
    cases hb : s.g.sparseComps[i]? with
    | none => simp [SE.undefined]
    | some buf =>
      simp only
      have hi := (List.getElem?_eq_some_iff.mp hb).1
      cases hj : fp.factor.computeJacobians h buf with
      | threw => simp [SE.throw]
      | ub => simp [SE.undefined]
      | ok js =>
        simp only [SE.bind_modify]
        have := (sparseVars_frame (fun _ _ => True) h fp.factor.variables js
            { s with g := { s.g with sparseComps := s.g.sparseComps.set i js } })
        refine ⟨?_, fun _ => hi⟩
        rw [this.comps]; simp

theorem sparseLoop_comps (h : Heap V) (is : List Nat) (s : SparseWork F V)
    (hok : (SE.forEach is (sparseOne h) s).2 = .ok ()) : ∀ i ∈ is, i < s.g.sparseComps.length := by
  induction is generalizing s with
  | nil => simp
  | cons i is ih =>
    rw [SE.forEach_cons] at hok
    obtain ⟨c1, c2⟩ := sparseOne_comps h i s
    unfold SE.bind at hok
    split at hok
    · rename_i s' a hs
      rw [hs] at c1 c2
      intro j hj
      simp only [List.mem_cons] at hj
      rcases hj with rfl | hj
      · exact c2 rfl
      · have := ih s' hok j hj
        simp only at c1
        omega
    · simp at hok
    · simp at hok

theorem sparseLoop_compsLen (h : Heap V) (is : List Nat) (s : SparseWork F V) :
    (SE.forEach is (sparseOne h) s).1.g.sparseComps.length = s.g.sparseComps.length := by
  induction is generalizing s with
  | nil => simp
  | cons i is ih =>
    rw [SE.forEach_cons]
    have c1 := (sparseOne_comps h i s).1
    unfold SE.bind
    split
    · rename_i s' a hs; rw [hs] at c1; rw [ih]; exact c1
    · rename_i s' hs; rw [hs] at c1; exact c1
    · rename_i s' hs; rw [hs] at c1; exact c1

theorem computeSparse_compsLen (h : Heap V) (g : Graph F V) :
    (computeSparse h g).1.sparseComps.length = g.sparseComps.length := by
  unfold computeSparse
  split
  · rfl
  · split
    · rfl
    · have h1 := sparseLoop_compsLen h (List.range g.facs.length) ⟨g, List.replicate g.numValues 0⟩
      split
      · rename_i s hs; rw [hs] at h1; exact h1
      · rename_i s hs; rw [hs] at h1; exact h1
      · rename_i s hs
        rw [hs] at h1
        dsimp only
        split <;> exact h1

theorem computeResidual_comps (env : Env F V) (h : Heap V) (g : Graph F V) :
    (computeResidual env h g).1.sparseComps = g.sparseComps := by
  unfold computeResidual
  split
  · rfl
  · dsimp only; split <;> rfl

theorem computeDense_comps (env : Env F V) (h : Heap V) (g : Graph F V) :
    (computeDense env h g).1.sparseComps = g.sparseComps := by
  unfold computeDense
  split
  · rfl
  · dsimp only; split <;> rfl

theorem compsLen_step {env : Env F V} {op : Op F V} {w : World F V} (hop : op.isValueOp) :
    (World.step env op w).1.graph.sparseComps.length = w.graph.sparseComps.length := by
  cases op with
  | addVariable p => exact hop.elim
  | addFactor p => exact hop.elim
  | finalize => exact hop.elim
  | setConstant r b => exact hop.elim
  | setValue r x => rfl
  | incrOne r x => rfl
  | setVector x => rfl
  | applyIncrement dx => rfl
  | residualInto buf => rfl
  | residual => exact congrArg List.length (computeResidual_comps env w.heap w.graph)
  | dense => exact congrArg List.length (computeDense_comps env w.heap w.graph)
  | sparse => exact computeSparse_compsLen w.heap w.graph
  | copy => rfl
  | denseAndResidual =>
    simp only [World.step, World.onGraph, computeDenseAndResidual]
    split
    · rfl
    · have h1 := computeDense_comps env w.heap w.graph
      unfold SE.bind
      split
      · rename_i s' a hs
        rw [hs] at h1
        have h2 := computeResidual_comps env w.heap s'
        dsimp only
        split
        all_goals (rename_i hs2; rw [hs2] at h2; exact congrArg List.length (h2.trans h1))
      · rename_i s' hs; rw [hs] at h1; exact congrArg List.length h1
      · rename_i s' hs; rw [hs] at h1; exact congrArg List.length h1

theorem compsLen_runs {evs : List (Op F V × Res Unit)} {w w' : World F V} (hrun : World.Runs w evs w')
    (hops : ∀ ev ∈ evs, ev.1.isValueOp) : w'.graph.sparseComps.length = w.graph.sparseComps.length := by
  induction hrun with
  | nil w => rfl
  | @cons w w1 w2 op evs r env hs hne _ ih =>
    rw [ih (fun ev hev => hops ev (by simp [hev]))]
    have := compsLen_step (env := env) (w := w) (hops (op, r) (by simp))
    rw [hs] at this
    exact this

theorem compsLen_finalizedAfter {h0 : Heap V} {pre post : List (Op F V × Res Unit)} {w : World F V}
    (hw : FinalizedAfter h0 pre post w) : w.graph.sparseComps.length = w.graph.facs.length := by
  obtain ⟨hrun, hpost⟩ := hw
  obtain ⟨w0, hr0, hrest⟩ := runs_append hrun
  obtain ⟨env, w1, hs, hr1⟩ := runs_single hrest
  obtain ⟨hh, hf⟩ := step_finalize_ok hs
  obtain ⟨k1, k2⟩ := kept_runs hr1 hpost
  have hwp : WellPosed w0.heap w0.graph.varsVec w0.graph.facs := by
    refine Classical.byContradiction fun hn => ?_
    obtain ⟨g2, e, _⟩ := finalize_threw hn
    rw [hf] at e
    simp at e
  obtain ⟨g2, e, hl, _⟩ := finalize_ok hwp
  rw [hf] at e
  obtain rfl : w1.graph = g2 := by simpa using congrArg Prod.fst e
  rw [compsLen_runs hr1 hpost, k1.facs]
  exact hl.comps

/-- More factors than at finalization: sparse evaluation cannot succeed. -/
theorem computeSparse_more {h : Heap V} {g : Graph F V} (hm : g.sparseComps.length < g.facs.length) :
    ∀ m, (computeSparse h g).2 ≠ .ok m := by
  unfold computeSparse
  split
  · simp
  · split
    · simp
    · split
      · simp
      · simp
      · rename_i s hs
        have := sparseLoop_comps h (List.range g.facs.length) ⟨g, List.replicate g.numValues 0⟩ (by rw [hs])
          g.sparseComps.length (by simpa using hm)
        simp at this

/-- Same as far as residuals and dense Jacobians are concerned. -/
structure SameEval (g g' : Graph F V) : Prop where
  fin : g'.finalized = g.finalized
  varPl : g'.varPl = g.varPl
  facPl : g'.facPl = g.facPl
  nr : g'.numResiduals = g.numResiduals
  nv : g'.numValues = g.numValues
  cj : g'.cachedJac = g.cachedJac
  jv : g'.jacValid = g.jacValid
  cr : g'.cachedRes = g.cachedRes
  rv : g'.resValid = g.resValid

theorem SameEval.refl (g : Graph F V) : SameEval g g := ⟨rfl, rfl, rfl, rfl, rfl, rfl, rfl, rfl, rfl⟩
theorem SameEval.trans {g g' g'' : Graph F V} (a : SameEval g g') (b : SameEval g' g'') : SameEval g g'' :=
  ⟨b.1.trans a.1, b.2.trans a.2, b.3.trans a.3, b.4.trans a.4, b.5.trans a.5, b.6.trans a.6, b.7.trans a.7,
    b.8.trans a.8, b.9.trans a.9⟩

theorem SameEval.residualInto {g g' : Graph F V} (hs : SameEval g g') (env : Env F V) (h : Heap V) (buf : List F) :
    computeResidualInto env g' h buf = computeResidualInto env g h buf := by
  simp only [computeResidualInto, hs.fin, hs.facPl, hs.nr]

theorem SameEval.residual {g g' : Graph F V} (hs : SameEval g g') (env : Env F V) (h : Heap V) :
    (computeResidual env h g').2 = (computeResidual env h g).2 := by
  unfold computeResidual
  rw [hs.fin, hs.rv, hs.cr, hs.nr]
  split
  · rfl
  · simp only [hs.residualInto env h]
    split <;> rfl

theorem denseVars_congr {g g' : Graph F V} (hp : g'.varPl = g.varPl) (h : Heap V) (fp : FacPlacement F V)
    (vs : List (Option VRef)) (js : List (Mat F)) : denseVars g' h fp vs js = denseVars g h fp vs js := by
  induction vs generalizing js with
  | nil => rfl
  | cons v vs ih =>
    cases js with
    | nil => cases v <;> rfl
    | cons J js =>
      cases v with
      | none => rfl
      | some r => simp only [denseVars, variablePlacement, hp, ih]

theorem SameEval.dense {g g' : Graph F V} (hs : SameEval g g') (env : Env F V) (h : Heap V) :
    (computeDense env h g').2 = (computeDense env h g).2 := by
  have hd : (denseOne g' h : _ → SE (Mat F) Unit) = denseOne g h := by
    funext it
    simp only [denseOne, denseVars_congr hs.varPl]
  unfold computeDense
  rw [hs.fin, hs.jv, hs.cj, hs.nr, hs.nv, hs.facPl, hd]
  split
  · rfl
  · dsimp only
    split <;> rfl

/-! ### Failed finalization -/

/-- Two graphs that differ only in what `finalize_structure` recomputes. -/
structure SameInputs (g g' : Graph F V) : Prop where
  varsMap : g'.varsMap = g.varsMap
  varsVec : g'.varsVec = g.varsVec
  facsMap : g'.facsMap = g.facsMap
  facs : g'.facs = g.facs
  fin : g.finalized = false
  fin' : g'.finalized = false
  cj : g'.cachedJac = g.cachedJac
  jv : g'.jacValid = g.jacValid
  cr : g'.cachedRes = g.cachedRes
  rv : g'.resValid = g.resValid
  sp : g'.sparse = g.sparse
  sv : g'.sparseValid = g.sparseValid
  si : g'.sparseInit = g.sparseInit
  sc : g'.sparseComps = g.sparseComps

/-- Equal, or unfinalized and differing only in what `finalize_structure` recomputes. -/
def Alike (g g' : Graph F V) : Prop := g' = g ∨ SameInputs g g'

theorem SameInputs.finalize {g g' : Graph F V} (hs : SameInputs g g') (h : Heap V) :
    (finalizeStructure h g').2 = (finalizeStructure h g).2 ∧
    Alike (finalizeStructure h g).1 (finalizeStructure h g').1 := by
  have hs' := hs
  obtain ⟨e1, e2, e3, e4, e5, e6, e7, e8, e9, e10, e11, e12, e13, e14⟩ := hs'
  unfold finalizeStructure
  dsimp only
  rw [e2, e4, e11]
  split
  · exact ⟨rfl, Or.inr ⟨e1, rfl, e3, rfl, e5, e6, e7, e8, e9, e10, rfl, e12, e13, e14⟩⟩
  · exact ⟨rfl, Or.inr ⟨e1, rfl, e3, rfl, e5, e6, e7, e8, e9, e10, rfl, e12, e13, e14⟩⟩
  · split
    · exact ⟨rfl, Or.inr ⟨e1, rfl, e3, rfl, e5, e6, e7, e8, e9, e10, rfl, e12, e13, e14⟩⟩
    · split
      · exact ⟨rfl, Or.inr ⟨e1, rfl, e3, rfl, e5, e6, e7, e8, e9, e10, rfl, e12, e13, e14⟩⟩
      · exact ⟨rfl, Or.inr ⟨e1, rfl, e3, rfl, e5, e6, e7, e8, e9, e10, rfl, e12, e13, e14⟩⟩
      · split
        · exact ⟨rfl, Or.inr ⟨e1, rfl, e3, rfl, e5, e6, e7, e8, e9, e10, rfl, e12, e13, e14⟩⟩
        · exact ⟨rfl, Or.inr ⟨e1, rfl, e3, rfl, e5, e6, e7, e8, e9, e10, rfl, e12, e13, e14⟩⟩
        · exact ⟨rfl, Or.inl (by rw [e1, e3, e7, e8, e9, e10, e12])⟩

/-- A failed finalization changes only what finalization recomputes. -/
theorem finalize_threw_same {h : Heap V} {g g' : Graph F V} (hf : g.finalized = false)
    (hfin : finalizeStructure h g = (g', .threw)) : SameInputs g g' := by
  have hw : ¬ WellPosed h g.varsVec g.facs := fun hw => by
    obtain ⟨g2, e, _⟩ := finalize_ok hw
    rw [hfin] at e; simp at e
  obtain ⟨g2, e, h1, h2, h3, h4, h5, h6, h7, h8, h9, h10, h11, h12, h13⟩ := finalize_threw hw
  rw [hfin] at e
  obtain rfl : g' = g2 := by simpa using congrArg Prod.fst e
  exact ⟨h2, h3, h4, h5, hf, h1.trans hf, h6, h7, h8, h9, h12, h10, h13, h11⟩

theorem setVectorLoop_alike {g g' : Graph F V} (hv : g'.varsVec = g.varsVec) (x : List F) :
    setVariableValuesFromVector g' x = setVariableValuesFromVector (V := V) g x := by
  unfold setVariableValuesFromVector; rw [hv]

/-- The same call on alike graphs has the same outcome and leads to alike graphs. -/
theorem alike_step {env : Env F V} {op : Op F V} {w w' : World F V} (hh : w'.heap = w.heap)
    (ha : Alike w.graph w'.graph) :
    (World.step env op w').2 = (World.step env op w).2 ∧ (World.step env op w').1.heap = (World.step env op w).1.heap ∧
    Alike (World.step env op w).1.graph (World.step env op w').1.graph := by
  obtain ⟨h, g⟩ := w
  obtain ⟨h', g'⟩ := w'
  simp only at hh ha
  subst hh
  rcases ha with rfl | hs
  · exact ⟨rfl, rfl, Or.inl rfl⟩
  have hs' := hs
  obtain ⟨e1, e2, e3, e4, e5, e6, e7, e8, e9, e10, e11, e12, e13, e14⟩ := hs'
  cases op with
  | addVariable p =>
    cases p with
    | none => exact ⟨rfl, rfl, Or.inr hs⟩
    | some r =>
      dsimp only [World.step, World.onGraph, addVariable]
      rw [e1]
      split
      · exact ⟨rfl, rfl, Or.inr hs⟩
      · refine ⟨rfl, rfl, Or.inr ⟨?_, ?_, e3, e4, e5, e6, e7, e8, e9, e10, e11, e12, e13, e14⟩⟩ <;> simp only [e1, e2]
  | addFactor p =>
    cases p with
    | none => exact ⟨rfl, rfl, Or.inr hs⟩
    | some f =>
      dsimp only [World.step, World.onGraph, addFactor]
      rw [e3]
      split
      · exact ⟨rfl, rfl, Or.inr hs⟩
      · refine ⟨rfl, rfl, Or.inr ⟨e1, e2, ?_, ?_, e5, e6, e7, e8, e9, e10, e11, e12, e13, e14⟩⟩ <;> simp only [e3, e4]
  | finalize =>
    obtain ⟨f1, f2⟩ := hs.finalize h'
    dsimp only [World.step, World.onGraph]
    exact ⟨by rw [f1], rfl, f2⟩
  | setConstant r b => exact ⟨rfl, rfl, Or.inr hs⟩
  | copy => exact ⟨rfl, rfl, Or.inr ⟨e1, e2, e3, e4, e5, e6, e7, e8, e9, e10, congrArg SpMat.copied e11, e12, e13, e14⟩⟩
  | setValue r x => exact ⟨rfl, rfl, Or.inr hs⟩
  | incrOne r x => exact ⟨rfl, rfl, Or.inr hs⟩
  | setVector x =>
    dsimp only [World.step, World.onHeap]
    rw [setVectorLoop_alike e2]
    exact ⟨rfl, rfl, Or.inr hs⟩
  | applyIncrement dx =>
    have t : ∀ g : Graph F V, g.finalized = false → World.step env (.applyIncrement dx) ⟨h', g⟩ = (⟨h', g⟩, .threw) := by
      intro g hf; simp [World.step, World.onHeap, applyIncrement, SE.throw, Res.void, hf]
    rw [t g e5, t g' e6]
    exact ⟨rfl, rfl, Or.inr hs⟩
  | residualInto buf =>
    have t : ∀ g : Graph F V, g.finalized = false → World.step env (.residualInto buf) ⟨h', g⟩ = (⟨h', g⟩, .threw) := by
      intro g hf; simp [World.step, computeResidualInto, SE.throw, Res.void, hf]
    rw [t g e5, t g' e6]
    exact ⟨rfl, rfl, Or.inr hs⟩
  | residual =>
    have t : ∀ g : Graph F V, g.finalized = false → World.step env (.residual) ⟨h', g⟩ = (⟨h', g⟩, .threw) := by
      intro g hf; simp [World.step, World.onGraph, computeResidual, Res.void, hf]
    rw [t g e5, t g' e6]
    exact ⟨rfl, rfl, Or.inr hs⟩
  | dense =>
    have t : ∀ g : Graph F V, g.finalized = false → World.step env (.dense) ⟨h', g⟩ = (⟨h', g⟩, .threw) := by
      intro g hf; simp [World.step, World.onGraph, computeDense, Res.void, hf]
    rw [t g e5, t g' e6]
    exact ⟨rfl, rfl, Or.inr hs⟩
  | denseAndResidual =>
    have t : ∀ g : Graph F V, g.finalized = false → World.step env (.denseAndResidual) ⟨h', g⟩ = (⟨h', g⟩, .threw) := by
      intro g hf; simp [World.step, World.onGraph, computeDenseAndResidual, Res.void, hf]
    rw [t g e5, t g' e6]
    exact ⟨rfl, rfl, Or.inr hs⟩
  | sparse =>
    have t : ∀ g : Graph F V, g.finalized = false → World.step env (.sparse) ⟨h', g⟩ = (⟨h', g⟩, .threw) := by
      intro g hf; simp [World.step, World.onGraph, computeSparse, Res.void, hf]
    rw [t g e5, t g' e6]
    exact ⟨rfl, rfl, Or.inr hs⟩

theorem alike_runs {evs : List (Op F V × Res Unit)} {w w1 : World F V} (hrun : World.Runs w evs w1) {w' : World F V}
    (hh : w'.heap = w.heap) (ha : Alike w.graph w'.graph) :
    ∃ w1', World.Runs w' evs w1' ∧ w1'.heap = w1.heap ∧ Alike w1.graph w1'.graph := by
  induction hrun generalizing w' with
  | nil w => exact ⟨w', .nil w', hh, ha⟩
  | @cons w wm w2 op evs r env hs hne _ ih =>
    obtain ⟨h1, h2, h3⟩ := alike_step (env := env) (op := op) hh ha
    rw [hs] at h1 h2 h3
    obtain ⟨w1', r1, r2, r3⟩ := ih h2 h3
    exact ⟨w1', .cons env (Prod.ext rfl h1) hne r1, r2, r3⟩

/-! ### Where the dense evaluation writes -/

/-- Entry `(i, j)` lies in the rows of a placed factor and the columns of a placed variable of that factor. -/
def InBlock (g : Graph F V) (h : Heap V) (its : List (Nat × FacPlacement F V)) (i j : Nat) : Prop :=
  ∃ it ∈ its, ∃ r, some r ∈ it.2.factor.variables ∧ ∃ p, g.varPl (VarLike.id (h r)) = some p ∧
    it.2.residualIndex ≤ i ∧ i < it.2.residualIndex + it.2.residualDim ∧ p.index ≤ j ∧ j < p.index + p.dim

theorem denseVars_writes (g : Graph F V) (h : Heap V) (it : Nat × FacPlacement F V) (vs : List (Option VRef))
    (js : List (Mat F)) (hvs : ∀ v ∈ vs, v ∈ it.2.factor.variables) (J : Mat F) :
    (denseVars g h it.2 vs js J).1.rows = J.rows ∧ (denseVars g h it.2 vs js J).1.cols = J.cols ∧
    ∀ i j, ¬ InBlock g h [it] i j → (denseVars g h it.2 vs js J).1.entry i j = J.entry i j := by
  induction vs generalizing js J with
  | nil => simp [denseVars, SE.ret]
  | cons v vs ih =>
    have hvs' : ∀ v ∈ vs, v ∈ it.2.factor.variables := fun v hv => hvs v (by simp [hv])
    cases js with
    | nil => cases v <;> simp [denseVars, SE.undefined]
    | cons Ji js =>
      cases v with
      | none => simp [denseVars, SE.undefined]
      | some r =>
        simp only [denseVars]
        split
        · split
          · exact ih js hvs' J
          · simp [SE.throw]
        · cases hp : variablePlacement g (VarLike.id (h r)) with
          | none => exact ih js hvs' J
          | some p =>
            simp only [SE.bind_get]
            split
            · simp [SE.throw]
            · split
              · simp [SE.throw]
              · split
                · simp [SE.throw]
                · rename_i h1 h2 h3
                  simp only [SE.bind_put]
                  obtain ⟨i1, i2, i3⟩ := ih js hvs' (J.setBlock it.2.residualIndex p.index Ji)
                  refine ⟨i1, i2, fun i j hn => ?_⟩
                  rw [i3 i j hn]
                  simp only [Mat.setBlock]
                  rw [if_neg]
                  rintro ⟨a, b, c, d⟩
                  simp only [Decidable.not_not] at h2 h3
                  exact hn ⟨it, by simp, r, hvs _ (by simp), p, hp, a, by omega, c, by omega⟩

theorem denseLoop_writes (g : Graph F V) (h : Heap V) (its : List (Nat × FacPlacement F V)) (J : Mat F) :
    (SE.forEach its (denseOne g h) J).1.rows = J.rows ∧ (SE.forEach its (denseOne g h) J).1.cols = J.cols ∧
    ∀ i j, ¬ InBlock g h its i j → (SE.forEach its (denseOne g h) J).1.entry i j = J.entry i j := by
  induction its generalizing J with
  | nil => simp
  | cons it its ih =>
    rw [SE.forEach_cons]
    have hone : (denseOne g h it J).1.rows = J.rows ∧ (denseOne g h it J).1.cols = J.cols ∧
        ∀ i j, ¬ InBlock g h [it] i j → (denseOne g h it J).1.entry i j = J.entry i j := by
      unfold denseOne
      cases it.2.factor.computeJacobians h [] with
      | ok js => simpa using denseVars_writes g h it it.2.factor.variables js (fun _ hv => hv) J
      | threw => simp
      | ub => simp
    have hsub : ∀ i j, ¬ InBlock g h (it :: its) i j → ¬ InBlock g h [it] i j ∧ ¬ InBlock g h its i j := by
      intro i j hn
      constructor
      · rintro ⟨it', hm, rest⟩
        simp at hm
        exact hn ⟨it', by simp [hm], rest⟩
      · rintro ⟨it', hm, rest⟩
        exact hn ⟨it', by simp [hm], rest⟩
    unfold SE.bind
    split
    · rename_i s' a hs
      rw [hs] at hone
      obtain ⟨i1, i2, i3⟩ := ih s'
      refine ⟨i1.trans hone.1, i2.trans hone.2.1, fun i j hn => ?_⟩
      rw [i3 i j (hsub i j hn).2]
      exact hone.2.2 i j (hsub i j hn).1
    · rename_i s' hs
      rw [hs] at hone
      exact ⟨hone.1, hone.2.1, fun i j hn => hone.2.2 i j (hsub i j hn).1⟩
    · rename_i s' hs
      rw [hs] at hone
      exact ⟨hone.1, hone.2.1, fun i j hn => hone.2.2 i j (hsub i j hn).1⟩

end Graph
end Factorama
