import Verif.Lemmas.Sparse

/-! Helper lemmas: the invariant of a finalized graph under evaluations and value changes. -/

set_option linter.unusedSectionVars false

namespace Factorama
open Spec
namespace Graph
open SpMat
variable {F V : Type} [Zero F] [VarLike F V]

/-- Invariant of a finalized graph between evaluations. -/
structure Ready (good : Nat → List (Mat F) → Prop) (h : Heap V) (g : Graph F V) : Prop where
  laid : Laid h g
  ids : (g.varsVec.map fun r => VarLike.id (h r)).Nodup
  ident : IdsIdentify h g.varsVec g.facs
  norep : NoRepeats g.facs
  safe : ∀ (k : Nat) f, g.facs[k]? = some f → BufferSafe f (good k)
  comps : ∀ (k : Nat) b, g.sparseComps[k]? = some b → good k b
  jac : g.jacValid = true → g.cachedJac.rows = g.numResiduals ∧ g.cachedJac.cols = g.numValues ∧
    ZeroOff h g.varsVec g.facs g.cachedJac
  spNew : g.sparseValid = false → ∀ (c : Nat) col, g.sparse.columns[c]? = some col → col.entries = []
  spFull : g.sparseValid = true → ∀ (c : Nat) col, g.sparse.columns[c]? = some col →
    col.cap = (colVals c (rowLog g.facPl)).length ∧ col.entries.map (·.1) = colVals c (rowLog g.facPl)
  alloc : ∀ c, c < g.numValues → colVals c (rowLog g.facPl) ≠ [] → g.sparse.alloc ≠ 0

theorem IdsIdentify.shape {h h' : Heap V} (hs : SameShape h h') {vars : List VRef} {facs : List (Factor F V)}
    (hi : IdsIdentify h vars facs) : IdsIdentify h' vars facs := by
  intro f hf v hv r hr e
  rw [(hs r).1, (hs v).1] at e
  exact hi f hf v hv r hr e

theorem ZeroOff.shape {h h' : Heap V} (hs : SameShape h h') {vars : List VRef} {facs : List (Factor F V)} {J : Mat F}
    (hz : ZeroOff h vars facs J) : ZeroOff h' vars facs J := by
  intro k f hf i hi r hr hc hnot j hj
  rw [hs.colStart_eq]
  rw [(hs r).2.1] at hc
  rw [(hs r).2.2] at hj
  exact hz k f hf i hi r hr hc hnot j hj

theorem Ready.shape {good : Nat → List (Mat F) → Prop} {h h' : Heap V} (hs : SameShape h h') {g : Graph F V}
    (hr : Ready good h g) : Ready good h' g where
  laid := hr.laid.shape hs
  ids := by rw [hs.ids_eq]; exact hr.ids
  ident := IdsIdentify.shape hs hr.ident
  norep := hr.norep
  safe := hr.safe
  comps := hr.comps
  jac := fun hv => ⟨(hr.jac hv).1, (hr.jac hv).2.1, (hr.jac hv).2.2.shape hs⟩
  spNew := hr.spNew
  spFull := hr.spFull
  alloc := hr.alloc

/-- Same structure (variables, factors and placements). -/
structure SameStructure (g g' : Graph F V) : Prop where
  varsVec : g'.varsVec = g.varsVec
  varsMap : g'.varsMap = g.varsMap
  facs : g'.facs = g.facs
  facsMap : g'.facsMap = g.facsMap
  varPl : g'.varPl = g.varPl
  facPl : g'.facPl = g.facPl
  finalized : g'.finalized = g.finalized
  numResiduals : g'.numResiduals = g.numResiduals
  numValues : g'.numValues = g.numValues

theorem SameStructure.refl (g : Graph F V) : SameStructure g g := ⟨rfl, rfl, rfl, rfl, rfl, rfl, rfl, rfl, rfl⟩
theorem SameStructure.trans {g g' g'' : Graph F V} (h1 : SameStructure g g') (h2 : SameStructure g' g'') :
    SameStructure g g'' :=
  ⟨h2.1.trans h1.1, h2.2.trans h1.2, h2.3.trans h1.3, h2.4.trans h1.4, h2.5.trans h1.5, h2.6.trans h1.6,
    h2.7.trans h1.7, h2.8.trans h1.8, h2.9.trans h1.9⟩

/-! ### Residual -/

theorem resizeTo_length (env : Env F V) (n : Nat) (buf : List F) : (resizeTo env n buf).length = n := by
  unfold resizeTo
  split
  · assumption
  · simp

theorem computeResidual_frame {good : Nat → List (Mat F) → Prop} {env : Env F V} {h : Heap V} {g : Graph F V}
    (hr : Ready good h g) : Ready good h (computeResidual env h g).1 ∧
      SameStructure g (computeResidual env h g).1 := by
  have hbuf : (computeResidualInto env g h (if g.resValid then g.cachedRes else List.replicate g.numResiduals 0)).1.length
      = g.numResiduals := by
    unfold computeResidualInto
    simp only [hr.laid.fin, Bool.not_true, Bool.false_eq_true, if_false, SE.bind_modify]
    rw [residualLoop_length]
    exact resizeTo_length env _ _
  unfold computeResidual
  rw [if_neg (by simp [hr.laid.fin])]
  simp only
  split
  all_goals
    rename_i buf heq
    rw [heq] at hbuf
    refine ⟨?_, ?_⟩
    · exact { laid := by
                have := hr.laid
                exact ⟨this.1, this.2, this.3, this.4, this.5, this.6, this.7, this.8, this.9, this.10, this.11,
                  this.12, this.13, this.14, this.15, this.16⟩
              ids := hr.ids, ident := hr.ident, norep := hr.norep, safe := hr.safe, comps := hr.comps
              jac := hr.jac, spNew := hr.spNew, spFull := hr.spFull, alloc := hr.alloc }
    · exact ⟨rfl, rfl, rfl, rfl, rfl, rfl, by simp [hr.laid.fin], rfl, rfl⟩

theorem computeResidualInto_ok {env : Env F V} {h : Heap V} {g : Graph F V} (hl : Laid h g)
    (segs : List (List F)) (hlen : segs.length = g.facs.length)
    (hseg : ∀ (k : Nat) f, g.facs[k]? = some f → ∃ s, segs[k]? = some s ∧ f.computeResidual h = .ok s ∧
      s.length = f.residualSize) (buf : List F) :
    computeResidualInto env g h buf = (segs.flatten, .ok ()) := by
  unfold computeResidualInto
  simp only [hl.fin, Bool.not_true, Bool.false_eq_true, if_false, SE.bind_modify]
  apply residualLoop_flatten (pl := plOf h g.varsVec) _ _ segs hlen hseg
  · rw [resizeTo_length, hl.nr]
  · rw [← hl.fpl]; exact env.order_perm g.facPl

theorem computeResidual_ok {env : Env F V} {h : Heap V} {g : Graph F V} (hl : Laid h g)
    (segs : List (List F)) (hlen : segs.length = g.facs.length)
    (hseg : ∀ (k : Nat) f, g.facs[k]? = some f → ∃ s, segs[k]? = some s ∧ f.computeResidual h = .ok s ∧
      s.length = f.residualSize) :
    computeResidual env h g = ({ g with cachedRes := segs.flatten, resValid := true }, .ok segs.flatten) := by
  unfold computeResidual
  rw [if_neg (by simp [hl.fin])]
  simp only
  rw [computeResidualInto_ok hl segs hlen hseg]

/-! ### Dense -/

theorem denseStart {good : Nat → List (Mat F) → Prop} {h : Heap V} {g : Graph F V} (hr : Ready good h g)
    (J : Mat F) (hJ : J = if g.jacValid then g.cachedJac else ⟨g.numResiduals, g.numValues, fun _ _ => 0⟩) :
    J.rows = g.numResiduals ∧ J.cols = g.numValues ∧ ZeroOff h g.varsVec g.facs J := by
  subst hJ
  by_cases hv : g.jacValid
  · simp only [hv, if_true]; exact hr.jac hv
  · simp only [hv, Bool.false_eq_true, if_false]
    exact ⟨trivial, trivial, fun _ _ _ _ _ _ _ _ _ _ _ => rfl⟩

theorem Ready.setDense {good : Nat → List (Mat F) → Prop} {h : Heap V} {g : Graph F V} (hr : Ready good h g)
    {J : Mat F} {b : Bool} (hJ : J.rows = g.numResiduals ∧ J.cols = g.numValues ∧ ZeroOff h g.varsVec g.facs J) :
    Ready good h { g with cachedJac := J, jacValid := b } where
  laid := by
    have := hr.laid
    exact ⟨this.1, this.2, this.3, this.4, this.5, this.6, this.7, this.8, this.9, this.10, this.11,
      this.12, this.13, this.14, this.15, this.16⟩
  ids := hr.ids
  ident := hr.ident
  norep := hr.norep
  safe := hr.safe
  comps := hr.comps
  jac := fun _ => hJ
  spNew := hr.spNew
  spFull := hr.spFull
  alloc := hr.alloc

theorem computeDense_frame {good : Nat → List (Mat F) → Prop} {env : Env F V} {h : Heap V} {g : Graph F V}
    (hr : Ready good h g) : Ready good h (computeDense env h g).1 ∧
      SameStructure g (computeDense env h g).1 := by
  obtain ⟨s1, s2, s3⟩ := denseStart hr _ rfl
  obtain ⟨f1, f2, f3⟩ := denseLoop_frame hr.laid hr.ids hr.ident (env.order g.facPl)
    (fun it hit => (env.order_perm g.facPl).mem_iff.mp hit)
    (if g.jacValid then g.cachedJac else ⟨g.numResiduals, g.numValues, fun _ _ => 0⟩)
  unfold computeDense
  rw [if_neg (by simp [hr.laid.fin])]
  simp only
  split
  all_goals
    rename_i J heq
    rw [heq] at f1 f2 f3
    exact ⟨hr.setDense ⟨f1.trans s1, f2.trans s2, f3 s3⟩, ⟨rfl, rfl, rfl, rfl, rfl, rfl, by simp [hr.laid.fin], rfl, rfl⟩⟩

theorem computeDense_ok {good : Nat → List (Mat F) → Prop} {env : Env F V} {h : Heap V} {g : Graph F V}
    (hr : Ready good h g) (blocks : Nat → List (Mat F))
    (hblocks : ∀ (k : Nat) f, g.facs[k]? = some f → f.computeJacobians h [] = .ok (blocks k) ∧
      ProperBlocks h f (blocks k)) :
    ∃ J, computeDense env h g = ({ g with cachedJac := J, jacValid := true }, .ok J) ∧
      J.rows = g.numResiduals ∧ J.cols = g.numValues ∧
      IsStackedJacobian h g.varsVec g.facs blocks J.entry := by
  obtain ⟨s1, s2, s3⟩ := denseStart hr _ rfl
  obtain ⟨J, e1, e2, e3, e4, _⟩ := denseLoop_ok hr.laid hr.ids hr.ident hr.norep blocks hblocks
    (env.order g.facPl) (env.order_perm g.facPl) _ s1 s2 s3
  refine ⟨J, ?_, e2, e3, e4⟩
  unfold computeDense
  rw [if_neg (by simp [hr.laid.fin])]
  simp only [e1]

/-! ### Sparse -/

theorem data_lengths {g : Graph F V} {h : Heap V} (hl : Laid h g) {d : List (List F)}
    (hd : d.map List.length = g.sparseData.map List.length) :
    d.length = g.numValues ∧ ∀ (c : Nat) x, d[c]? = some x → x.length = (colVals c (rowLog g.facPl)).length := by
  have hlen : d.length = g.sparseData.length := by
    have := congrArg List.length hd
    simpa using this
  refine ⟨hlen.trans hl.dataLen, ?_⟩
  intro c x hx
  have h1 : (d.map List.length)[c]? = some x.length := by simp [hx]
  rw [hd, List.getElem?_map, Option.map_eq_some_iff] at h1
  obtain ⟨y, hy, hxy⟩ := h1
  rw [← hxy]; exact hl.data c y hy

/-- The graph after the factor loop of a sparse evaluation is ready again. -/
theorem Ready.scratch {good : Nat → List (Mat F) → Prop} {h : Heap V} {g g' : Graph F V} (hr : Ready good h g)
    (hso : ScratchOnly good g g') : Ready good h g' ∧ SameStructure g g' := by
  have hdl := data_lengths hr.laid hso.data
  have hcomps := hso.good hr.comps
  have hcl := hso.comps
  rw [hso.eq]
  refine ⟨?_, ⟨rfl, rfl, rfl, rfl, rfl, rfl, rfl, rfl, rfl⟩⟩
  have hL := hr.laid
  exact { laid := ⟨hL.1, hL.2, hL.3, hL.4, hL.5, hL.6, hL.7, hL.8, hL.9, hL.10, hdl.1, hdl.2,
            hcl.trans hL.13, hL.14, hL.15, hL.16⟩
          ids := hr.ids, ident := hr.ident, norep := hr.norep, safe := hr.safe, comps := hcomps
          jac := hr.jac, spNew := hr.spNew, spFull := hr.spFull, alloc := hr.alloc }

theorem rows_eq_some {g : Graph F V} {h : Heap V} (hl : Laid h g) {c : Nat} {rs : List Nat}
    (hrs : g.sparseRows[c]? = some rs) : c < g.numValues ∧ rs = colVals c (rowLog g.facPl) := by
  have hlt := (List.getElem?_eq_some_iff.mp hrs).1
  rw [hl.rowsLen] at hlt
  have := hl.rows c hlt
  rw [hrs] at this
  exact ⟨hlt, by simpa using this⟩

/-- Filling the Eigen matrix of a ready graph: succeeds, except that a later evaluation of a graph without
any entry throws. -/
theorem fill_ok {good : Nat → List (Mat F) → Prop} {h : Heap V} {g : Graph F V} (hr : Ready good h g) :
    ((g.sparseValid = true ∧ g.sparse.alloc = 0) ∧
      copySparse g.sparseRows g.sparseData g.numValues g.sparse = (g.sparse, .threw)) ∨
    (¬ (g.sparseValid = true ∧ g.sparse.alloc = 0) ∧ ∃ m',
      (if g.sparseValid then copySparse g.sparseRows g.sparseData g.numValues
        else populate g.sparseRows g.sparseData g.numValues) g.sparse = (m', .ok ()) ∧
      m'.rows = g.sparse.rows ∧ m'.alloc = g.sparse.alloc ∧ m'.columns.length = g.numValues ∧
      ∀ (c : Nat), c < g.numValues →
        m'.columns[c]? = some ⟨(colVals c (rowLog g.facPl)).length, zipCol g.sparseRows g.sparseData c⟩) := by
  have hL := hr.laid
  have hlen : ∀ (c : Nat) (rs : List Nat) (d : List F), g.sparseRows[c]? = some rs → g.sparseData[c]? = some d →
      d.length = rs.length := by
    intro c rs d h1 h2
    rw [(rows_eq_some hL h1).2, hL.data c d h2]
  by_cases hv : g.sparseValid
  · by_cases ha : g.sparse.alloc = 0
    · left
      refine ⟨⟨hv, ha⟩, ?_⟩
      unfold copySparse
      simp [ha]
    · right
      refine ⟨fun hc => ha hc.2, ?_⟩
      obtain ⟨m', e1, e2, e3, e4, e5⟩ := copySparse_ok g.sparseRows g.sparseData g.numValues g.sparse
        hL.rowsLen hL.dataLen hlen hL.spLen (by
          intro c col rs hcol hrs
          rw [(rows_eq_some hL hrs).2]
          exact hr.spFull hv c col hcol) ha
      refine ⟨m', by simp [hv, e1], e2, e3, e4, ?_⟩
      intro c hc
      exact e5 c _ (hL.rows c hc)
  · right
    refine ⟨fun hc => hv hc.1, ?_⟩
    simp only [Bool.not_eq_true] at hv
    obtain ⟨m', e1, e2, e3, e4, e5⟩ := populate_ok g.sparseRows g.sparseData g.numValues g.sparse
      hL.rowsLen hL.dataLen hlen hL.spLen (by
        intro c col rs hcol hrs
        rw [(rows_eq_some hL hrs).2]
        exact hL.spCap c col hcol) (hr.spNew hv) (by
        intro c rs hrs
        rw [(rows_eq_some hL hrs).2, hL.spRows]
        exact rows_sorted hL hr.ids hr.ident hr.norep c)
    refine ⟨m', by simp [hv, e1], e2, e3, e4, ?_⟩
    intro c hc
    exact e5 c _ (hL.rows c hc)

theorem zipCol_fst {g : Graph F V} {h : Heap V} (hl : Laid h g) {c : Nat} (hc : c < g.numValues) :
    (zipCol g.sparseRows g.sparseData c).map (·.1) = colVals c (rowLog g.facPl) := by
  have h1 := hl.rows c hc
  obtain ⟨d, hd⟩ : ∃ d, g.sparseData[c]? = some d := ⟨g.sparseData[c]'(by rw [hl.dataLen]; exact hc), by simp⟩
  have := hl.data c d hd
  simp only [zipCol, h1, hd, Option.getD_some]
  rw [List.map_fst_zip (by omega)]

theorem capSum_congr {cols cols' : List (SpCol F)} (hlen : cols.length = cols'.length)
    (h : ∀ (c : Nat) a b, cols[c]? = some a → cols'[c]? = some b → a.cap = b.cap) : capSum cols = capSum cols' := by
  unfold capSum
  congr 1
  apply List.ext_getElem?
  intro i
  simp only [List.getElem?_map]
  rcases Nat.lt_or_ge i cols.length with hi | hi
  · have hi' : i < cols'.length := by omega
    rw [List.getElem?_eq_getElem hi, List.getElem?_eq_getElem hi']
    simp only [Option.map_some, Option.some.injEq]
    exact h i _ _ (List.getElem?_eq_getElem hi) (List.getElem?_eq_getElem hi')
  · rw [List.getElem?_eq_none hi, List.getElem?_eq_none (by omega)]

theorem Ready.setSparse {good : Nat → List (Mat F) → Prop} {h : Heap V} {g : Graph F V} (hr : Ready good h g)
    {m' : SpMat F} (e2 : m'.rows = g.sparse.rows) (e3 : m'.alloc = g.sparse.alloc)
    (e4 : m'.columns.length = g.numValues)
    (e5 : ∀ (c : Nat), c < g.numValues →
        m'.columns[c]? = some ⟨(colVals c (rowLog g.facPl)).length, zipCol g.sparseRows g.sparseData c⟩) :
    Ready good h { g with sparse := m', sparseValid := true } := by
  have hL := hr.laid
  have hcol : ∀ (c : Nat) col, m'.columns[c]? = some col → c < g.numValues ∧
      col = ⟨(colVals c (rowLog g.facPl)).length, zipCol g.sparseRows g.sparseData c⟩ := by
    intro c col hc
    have hlt := (List.getElem?_eq_some_iff.mp hc).1
    rw [e4] at hlt
    rw [e5 c hlt] at hc
    exact ⟨hlt, by simpa using hc.symm⟩
  exact
    { laid := ⟨hL.1, hL.2, hL.3, hL.4, hL.5, hL.6, hL.7, hL.8, hL.9, hL.10, hL.11, hL.12, hL.13,
        e2.trans hL.14, e4, fun c col hc => by rw [(hcol c col hc).2]; exact Nat.le_refl _⟩
      ids := hr.ids, ident := hr.ident, norep := hr.norep, safe := hr.safe, comps := hr.comps
      jac := hr.jac
      spNew := fun h => by simp at h
      spFull := fun _ c col hc => by
        obtain ⟨h1, h2⟩ := hcol c col hc
        rw [h2]; exact ⟨rfl, zipCol_fst hL h1⟩
      alloc := by
        simp only [e3]
        exact hr.alloc }

/-- A copy of a ready graph is ready. -/
theorem Ready.copy {good : Nat → List (Mat F) → Prop} {h : Heap V} {g : Graph F V} (hr : Ready good h g) :
    Ready good h (copy g) := by
  have hL := hr.laid
  have hcol : ∀ (c : Nat) col, g.sparse.copied.columns[c]? = some col → ∃ col', g.sparse.columns[c]? = some col' ∧
      col = ⟨col'.entries.length, col'.entries⟩ := by
    intro c col hc
    simp only [SpMat.copied, List.getElem?_map, Option.map_eq_some_iff] at hc
    obtain ⟨col', h1, h2⟩ := hc
    exact ⟨col', h1, h2.symm⟩
  have hlen : ∀ (c : Nat) col, g.sparse.copied.columns[c]? = some col →
      col.cap ≤ (colVals c (rowLog g.facPl)).length := by
    intro c col hc
    obtain ⟨col', h1, rfl⟩ := hcol c col hc
    cases hv : g.sparseValid with
    | true => rw [← (hr.spFull hv c col' h1).2]; simp
    | false => rw [hr.spNew hv c col' h1]; simp
  exact
    { laid := ⟨hL.1, hL.2, hL.3, hL.4, hL.5, hL.6, hL.7, hL.8, hL.9, hL.10, hL.11, hL.12, hL.13, hL.14,
        by simpa [Graph.copy, SpMat.copied] using hL.spLen, hlen⟩
      ids := hr.ids, ident := hr.ident, norep := hr.norep, safe := hr.safe, comps := hr.comps, jac := hr.jac
      spNew := fun hv c col hc => by
        obtain ⟨col', h1, rfl⟩ := hcol c col hc
        exact hr.spNew hv c col' h1
      spFull := fun hv c col hc => by
        obtain ⟨col', h1, rfl⟩ := hcol c col hc
        have := (hr.spFull hv c col' h1).2
        exact ⟨(List.length_map (·.1)).symm.trans (congrArg List.length this), this⟩
      alloc := fun c hc hne => by
        have hc' : c < g.numValues := hc
        obtain ⟨r, hm⟩ := List.exists_mem_of_ne_nil _ hne
        have hrow := (rows_sorted hL hr.ids hr.ident hr.norep c).2 r hm
        have h1 : 0 < g.sparse.rows := by rw [hL.spRows]; omega
        have h2 : 0 < g.sparse.columns.length := by rw [hL.spLen]; omega
        have h3 : 0 < g.sparse.rows * g.sparse.columns.length := Nat.mul_pos h1 h2
        show max g.sparse.nonZeros (min (g.sparse.rows * g.sparse.columns.length)
          (2 * max g.sparse.rows g.sparse.columns.length)) ≠ 0
        omega }

theorem computeSparse_frame {good : Nat → List (Mat F) → Prop} {h : Heap V} {g : Graph F V}
    (hr : Ready good h g) : Ready good h (computeSparse h g).1 ∧ SameStructure g (computeSparse h g).1 := by
  have hfr := sparseLoop_frame good h (List.range g.facs.length) ⟨g, List.replicate g.numValues 0⟩ (by
    intro i fp hfp
    simp only at hfp
    rw [lookup_facPl hr.laid, Option.map_eq_some_iff] at hfp
    obtain ⟨f, hf, rfl⟩ := hfp
    exact hr.safe i f hf) hr.comps
  unfold computeSparse
  rw [if_neg (by simp [hr.laid.fin]), if_neg (by simp [hr.laid.sinit])]
  split
  · rename_i s heq; rw [heq] at hfr; exact hr.scratch hfr
  · rename_i s heq; rw [heq] at hfr; exact hr.scratch hfr
  · rename_i s heq
    rw [heq] at hfr
    obtain ⟨hr', hst⟩ := hr.scratch hfr
    simp only at hr' hst ⊢
    rcases fill_ok hr' with ⟨⟨hv, _⟩, hthrow⟩ | ⟨_, m', e1, e2, e3, e4, e5⟩
    · rw [if_pos hv, hthrow]
      exact ⟨hr', hst⟩
    · simp only [e1]
      exact ⟨hr'.setSparse e2 e3 e4 e5, hst.trans ⟨rfl, rfl, rfl, rfl, rfl, rfl, rfl, rfl, rfl⟩⟩

theorem zip_map_eq {α β : Type} (l : List (α × β)) : (l.map (·.1)).zip (l.map (·.2)) = l := zip_map_fst_snd l

theorem computeSparse_ok {good : Nat → List (Mat F) → Prop} {h : Heap V} {g : Graph F V}
    (hr : Ready good h g) (blocks : Nat → List (Mat F))
    (hblocks : ∀ (k : Nat) f, g.facs[k]? = some f → f.computeJacobians h [] = .ok (blocks k) ∧
      ProperBlocks h f (blocks k))
    (hsame : ∀ (k : Nat) f, g.facs[k]? = some f → ∀ h buf, good k buf → f.computeJacobians h buf = f.computeJacobians h [])
    (halloc : ¬ (g.sparseValid = true ∧ g.sparse.alloc = 0)) :
    ∃ g' m, computeSparse h g = (g', .ok m) ∧ m = g'.sparse ∧ m.rows = g.numResiduals ∧
      m.columns.length = g.numValues ∧
      (∀ c, c < g.numValues → ∃ cap, m.columns[c]? = some ⟨cap, colVals c (elog g h blocks)⟩) := by
  obtain ⟨s, e1, hso, hdata⟩ := sparseLoop_ok hr.laid hr.ids hr.ident good hr.safe hsame hr.comps blocks hblocks
  obtain ⟨hr', hst⟩ := hr.scratch hso
  have hnv := hst.numValues
  have hsv : s.g.sparseValid = g.sparseValid := by rw [hso.eq]
  have hsp : s.g.sparse = g.sparse := by rw [hso.eq]
  rcases fill_ok hr' with ⟨hc, _⟩ | ⟨_, m', f1, f2, f3, f4, f5⟩
  · rw [hsv, hsp] at hc; exact absurd hc halloc
  · refine ⟨{ s.g with sparse := m', sparseValid := true }, m', ?_, rfl, ?_, ?_, ?_⟩
    · unfold computeSparse
      rw [if_neg (by simp [hr.laid.fin]), if_neg (by simp [hr.laid.sinit])]
      simp only [e1, f1]
    · rw [f2, hr'.laid.spRows, hst.numResiduals]
    · rw [f4, hnv]
    · intro c hc
      refine ⟨(colVals c (rowLog s.g.facPl)).length, (f5 c (by rw [hnv]; exact hc)).trans ?_⟩
      congr 2
      have hrow := hr'.laid.rows c (by rw [hnv]; exact hc)
      simp only [zipCol, hrow, hdata c hc, Option.getD_some, hst.facPl]
      rw [rowLog_eq hr.laid hr.ids hr.ident blocks (fun k f hf => (hblocks k f hf).2)]
      simp only [rowsOf, dataOf]
      rw [colVals_map c (elog g h blocks) (·.1), colVals_map c (elog g h blocks) (·.2), zip_map_eq]

end Graph
end Factorama
