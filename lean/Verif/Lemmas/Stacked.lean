import Verif.Lemmas.Ready

/-! Helper lemmas: the sparse matrix holds the stacked Jacobian; one-step preservation of the invariant. -/

set_option linter.unusedSectionVars false

namespace Factorama
open Spec
namespace Graph
open SpMat
variable {F V : Type} [Zero F] [VarLike F V]

theorem mem_colVals {α : Type} {c : Nat} {x : α} {log : List (Nat × α)} : x ∈ colVals c log ↔ (c, x) ∈ log := by
  simp only [colVals, List.mem_filterMap]
  constructor
  · rintro ⟨w, hw, h⟩
    split at h
    · rename_i hc; simp at h; subst h; subst hc; exact hw
    · simp at h
  · intro h
    exact ⟨(c, x), h, by simp⟩

theorem mem_block {α : Type} {base R C : Nat} {x : Nat → Nat → α} {w : Nat × α} :
    w ∈ blockWrites base R C x ↔ ∃ i j, i < R ∧ j < C ∧ w = (base + j, x i j) := by
  simp only [blockWrites, List.mem_flatMap, List.mem_map, List.mem_range]
  constructor
  · rintro ⟨i, hi, j, hj, rfl⟩; exact ⟨i, j, hi, hj, rfl⟩
  · rintro ⟨i, j, hi, hj, rfl⟩; exact ⟨i, hi, j, hj, rfl⟩

theorem mem_elogVars {pl : Int → Option VarPlacement} {h : Heap V} {base : Nat} {vs : List (Option VRef)}
    {js : List (Mat F)} {w : Nat × (Nat × F)} :
    w ∈ elogVars pl h base vs js ↔ ∃ (q : Nat) (r : VRef) (J : Mat F) (p : VarPlacement) (i j : Nat),
      vs[q]? = some (some r) ∧ js[q]? = some J ∧ pl (VarLike.id (h r)) = some p ∧ i < J.rows ∧ j < J.cols ∧
      w = (p.index + j, (base + i, J.entry i j)) := by
  induction vs generalizing js with
  | nil => simp [elogVars]
  | cons o vs ih =>
    cases js with
    | nil => cases o <;> simp [elogVars]
    | cons Ji js =>
      have hshift : ∀ (P : Prop), (P ↔ ∃ (q : Nat) (r : VRef) (J : Mat F) (p : VarPlacement) (i j : Nat),
          vs[q]? = some (some r) ∧ js[q]? = some J ∧ pl (VarLike.id (h r)) = some p ∧ i < J.rows ∧ j < J.cols ∧
          w = (p.index + j, (base + i, J.entry i j))) → (P ↔ ∃ (q : Nat) (r : VRef) (J : Mat F) (p : VarPlacement) (i j : Nat),
          (o :: vs)[q + 1]? = some (some r) ∧ (Ji :: js)[q + 1]? = some J ∧ pl (VarLike.id (h r)) = some p ∧
          i < J.rows ∧ j < J.cols ∧ w = (p.index + j, (base + i, J.entry i j))) := by
        intro P hP; simpa using hP
      have ih' := hshift _ (ih (js := js))
      cases o with
      | none =>
        rw [elogVars, ih']
        constructor
        · rintro ⟨q, rest⟩; exact ⟨q + 1, rest⟩
        · rintro ⟨q, r, J, p, i, j, h1, rest⟩
          cases q with
          | zero => simp at h1
          | succ q => exact ⟨q, r, J, p, i, j, h1, rest⟩
      | some r0 =>
        rw [elogVars, List.mem_append, ih']
        constructor
        · rintro (hw | ⟨q, rest⟩)
          · cases hp : pl (VarLike.id (h r0)) with
            | none => simp [hp] at hw
            | some p =>
              simp only [hp] at hw
              obtain ⟨i, j, hi, hj, rfl⟩ := mem_block.mp hw
              exact ⟨0, r0, Ji, p, i, j, rfl, rfl, hp, hi, hj, rfl⟩
          · exact ⟨q + 1, rest⟩
        · rintro ⟨q, r, J, p, i, j, h1, h2, h3, hi, hj, rfl⟩
          cases q with
          | zero =>
            simp at h1 h2
            subst h1 h2
            left
            simp only [h3]
            exact mem_block.mpr ⟨i, j, hi, hj, rfl⟩
          | succ q => exact Or.inr ⟨q, r, J, p, i, j, h1, h2, h3, hi, hj, rfl⟩

theorem mem_elog {g : Graph F V} {h : Heap V} {blocks : Nat → List (Mat F)} {w : Nat × (Nat × F)} :
    w ∈ elog g h blocks ↔ ∃ (k : Nat) (f : Factor F V) (q : Nat) (r : VRef) (J : Mat F) (p : VarPlacement) (i j : Nat), g.facs[k]? = some f ∧ f.variables[q]? = some (some r) ∧
      (blocks k)[q]? = some J ∧ g.varPl (VarLike.id (h r)) = some p ∧ i < J.rows ∧ j < J.cols ∧
      w = (p.index + j, (rowStart g.facs k + i, J.entry i j)) := by
  simp only [elog, List.mem_flatMap, List.mem_range]
  constructor
  · rintro ⟨k, hk, hw⟩
    have hf : g.facs[k]? = some g.facs[k] := List.getElem?_eq_getElem hk
    simp only [elogAt, hf] at hw
    obtain ⟨q, r, J, p, i, j, h1, h2, h3, h4, h5, h6⟩ := mem_elogVars.mp hw
    exact ⟨k, _, q, r, J, p, i, j, hf, h1, h2, h3, h4, h5, h6⟩
  · rintro ⟨k, f, q, r, J, p, i, j, hf, h1, h2, h3, h4, h5, h6⟩
    refine ⟨k, (List.getElem?_eq_some_iff.mp hf).1, ?_⟩
    simp only [elogAt, hf]
    exact mem_elogVars.mpr ⟨q, r, J, p, i, j, h1, h2, h3, h4, h5, h6⟩

theorem lookup_mem {l : List (Nat × F)} (hs : (l.map (·.1)).Pairwise (· < ·)) {a : Nat} {v : F}
    (hm : (a, v) ∈ l) : l.lookup a = some v := by
  induction l with
  | nil => simp at hm
  | cons e l ih =>
    obtain ⟨a', v'⟩ := e
    simp only [List.map_cons, List.pairwise_cons] at hs
    rcases List.mem_cons.mp hm with hm | hm
    · simp at hm; obtain ⟨rfl, rfl⟩ := hm
      simp
    · have hlt : a' < a := hs.1 a (List.mem_map.mpr ⟨(a, v), hm, rfl⟩)
      have : (a == a') = false := by simp; omega
      rw [List.lookup_cons, this]
      exact ih hs.2 hm

theorem lookup_not_mem {l : List (Nat × F)} {a : Nat} (hm : ∀ v, (a, v) ∉ l) : l.lookup a = none := by
  induction l with
  | nil => rfl
  | cons e l ih =>
    obtain ⟨a', v'⟩ := e
    have : (a == a') = false := by
      simp; intro e; subst e; exact hm v' (by simp)
    rw [List.lookup_cons, this]
    exact ih (fun v hv => hm v (by simp [hv]))

theorem sparse_stacked {g : Graph F V} {h : Heap V} (hl : Laid h g)
    (hn : (g.varsVec.map fun r => VarLike.id (h r)).Nodup) (hid : IdsIdentify h g.varsVec g.facs)
    (hrep : NoRepeats g.facs) (blocks : Nat → List (Mat F))
    (hblocks : ∀ (k : Nat) f, g.facs[k]? = some f → ProperBlocks h f (blocks k)) (m : SpMat F)
    (hm : ∀ c, c < g.numValues → ∃ cap, m.columns[c]? = some ⟨cap, colVals c (elog g h blocks)⟩) :
    IsStackedJacobian h g.varsVec g.facs blocks m.coeff := by
  have hsorted : ∀ c, ((colVals c (elog g h blocks)).map (·.1)).Pairwise (· < ·) := by
    intro c
    rw [← colVals_map c (elog g h blocks) (·.1)]
    have := (rows_sorted hl hn hid hrep c).1
    rwa [rowLog_eq hl hn hid blocks hblocks] at this
  intro k f hf i hi
  have hmem := List.mem_of_getElem? hf
  refine ⟨?_, ?_⟩
  · intro q r J hq hc hJ j hj
    obtain ⟨mm, hp⟩ := placed_of_nonconst hl hn hid hmem (List.mem_of_getElem? hq) hc
    obtain ⟨J', e1, _, e3⟩ := hblocks k f hf q r hq
    obtain rfl : J = J' := by simpa [hJ] using e1
    obtain ⟨_, e4, e5⟩ := e3 hc
    have hcol : colStart h g.varsVec r + j < g.numValues := by
      have := col_end_le (h := h) mm
      rw [hl.nv]
      rw [freeSize_of_nonconst hc] at this
      omega
    obtain ⟨cap, hcap⟩ := hm _ hcol
    simp only [SpMat.coeff, hcap]
    rw [lookup_mem (hsorted _) (v := J.entry i j)]
    · rfl
    · rw [mem_colVals, mem_elog]
      exact ⟨k, f, q, r, J, _, i, j, hf, hq, hJ, hp, by omega, by omega, rfl⟩
  · intro r hr hc hnot j hj
    have hcol : colStart h g.varsVec r + j < g.numValues := by
      have := col_end_le (h := h) hr
      rw [hl.nv]
      rw [freeSize_of_nonconst hc] at this
      omega
    obtain ⟨cap, hcap⟩ := hm _ hcol
    simp only [SpMat.coeff, hcap]
    rw [lookup_not_mem]
    · rfl
    · intro v hv
      rw [mem_colVals, mem_elog] at hv
      obtain ⟨k', f', q, r', J, p, i', j', hf', hq, hJ, hp, hi', hj', heq⟩ := hv
      simp only [Prod.mk.injEq] at heq
      obtain ⟨hcc, hrr, _⟩ := heq
      have hmem' := List.mem_of_getElem? hf'
      obtain ⟨m', rfl⟩ := varPl_of_mem hl hn hid hmem' (List.mem_of_getElem? hq) hp
      obtain ⟨J', e1, e2, e3⟩ := hblocks k' f' hf' q r' hq
      obtain rfl : J = J' := by simpa [hJ] using e1
      have hc' : VarLike.isConst (h r') = false := by
        by_cases hcc : VarLike.isConst (h r')
        · have := e2 hcc
          simp [Mat.isEmpty] at this
          omega
        · simpa using hcc
      obtain ⟨_, e4, e5⟩ := e3 hc'
      have hk : k = k' := row_unique hf hf' (a := rowStart g.facs k + i) ⟨by omega, by omega⟩ ⟨by omega, by omega⟩
      subst hk
      obtain rfl : f = f' := by simpa [hf] using hf'
      simp only at hcc
      have hrr' : r = r' := col_unique (h := h) hr m' (b := colStart h g.varsVec r + j)
        ⟨by omega, by rw [freeSize_of_nonconst hc]; omega⟩ ⟨by omega, by rw [freeSize_of_nonconst hc']; omega⟩
      subst hrr'
      exact hnot (List.mem_of_getElem? hq)

/-- A stacked Jacobian is unique on the range of the matrix. -/
theorem stacked_unique {h : Heap V} {vars : List VRef} {facs : List (Factor F V)} {blocks : Nat → List (Mat F)}
    {M M' : Nat → Nat → F} (hnd : vars.Nodup)
    (hblocks : ∀ (k : Nat) f, facs[k]? = some f → ProperBlocks h f (blocks k))
    (h1 : IsStackedJacobian h vars facs blocks M) (h2 : IsStackedJacobian h vars facs blocks M')
    {a b : Nat} (ha : a < rowTotal facs) (hb : b < freeTotal h vars) : M a b = M' a b := by
  obtain ⟨k, f, i, hf, hi, rfl⟩ := row_decomp facs a ha
  obtain ⟨r, hr, j, hj, rfl⟩ := col_decomp h vars hnd b hb
  have hc := nonconst_of_freeSize hj
  rw [freeSize_of_nonconst hc] at hj
  by_cases hm : some r ∈ f.variables
  · obtain ⟨q, hq⟩ := List.mem_iff_getElem?.mp hm
    obtain ⟨J, hJ, _⟩ := hblocks k f hf q r hq
    rw [(h1 k f hf i hi).1 q r J hq hc hJ j hj, (h2 k f hf i hi).1 q r J hq hc hJ j hj]
  · rw [(h1 k f hf i hi).2 r hr hc hm j hj, (h2 k f hf i hi).2 r hr hc hm j hj]

/-- A graph with at least one entry has allocated room. -/
theorem alloc_pos {good : Nat → List (Mat F) → Prop} {g : Graph F V} {h : Heap V} (hr : Ready good h g)
    (blocks : Nat → List (Mat F))
    (hblocks : ∀ (k : Nat) f, g.facs[k]? = some f → ProperBlocks h f (blocks k))
    (hex : ∃ f ∈ g.facs, ∃ r, some r ∈ f.variables ∧ VarLike.isConst (h r) = false) : g.sparse.alloc ≠ 0 := by
  obtain ⟨f, hf, r, hv, hc⟩ := hex
  obtain ⟨k, hk⟩ := List.mem_iff_getElem?.mp hf
  obtain ⟨q, hq⟩ := List.mem_iff_getElem?.mp hv
  obtain ⟨J, hJ, _, e3⟩ := hblocks k f hk q r hq
  obtain ⟨e4, e5, e6⟩ := e3 hc
  obtain ⟨m, hp⟩ := placed_of_nonconst hr.laid hr.ids hr.ident hf hv hc
  simp only [Mat.isEmpty, Bool.or_eq_false_iff, beq_eq_false_iff_ne] at e4
  have hmem : (colStart h g.varsVec r, (rowStart g.facs k, J.entry 0 0)) ∈ elog g h blocks := by
    rw [mem_elog]
    exact ⟨k, f, q, r, J, _, 0, 0, hk, hq, hJ, hp, by omega, by omega, rfl⟩
  have hlt := elog_lt hr.laid hr.ids hr.ident blocks hblocks _ hmem
  have hrow : rowStart g.facs k ∈ colVals (colStart h g.varsVec r) (rowLog g.facPl) := by
    rw [mem_colVals, rowLog_eq hr.laid hr.ids hr.ident blocks hblocks]
    exact List.mem_map.mpr ⟨_, hmem, rfl⟩
  exact hr.alloc _ hlt (List.ne_nil_of_mem hrow)

variable [LawfulVar F V]

/-- Value operations preserve the invariant. -/
theorem ready_step {good : Nat → List (Mat F) → Prop} {env : Env F V} {op : Op F V} {w : World F V}
    (hop : op.isValueOp) (hr : Ready good w.heap w.graph) :
    Ready good (World.step env op w).1.heap (World.step env op w).1.graph ∧
    SameStructure w.graph (World.step env op w).1.graph ∧
    SameShape w.heap (World.step env op w).1.heap := by
  have hheap : ∀ h', SameShape w.heap h' → Ready good h' w.graph ∧ SameStructure w.graph w.graph ∧
      SameShape w.heap h' := fun h' hs => ⟨hr.shape hs, SameStructure.refl _, hs⟩
  cases op with
  | addVariable _ => exact absurd hop (by simp [Op.isValueOp])
  | addFactor _ => exact absurd hop (by simp [Op.isValueOp])
  | finalize => exact absurd hop (by simp [Op.isValueOp])
  | setConstant _ _ => exact absurd hop (by simp [Op.isValueOp])
  | setValue r x => exact hheap _ (mutate_setValue_shape r x w.heap)
  | incrOne r x => exact hheap _ (mutate_applyIncr_shape r x w.heap)
  | setVector x => exact hheap _ (setVectorLoop_shape x _ 0 w.heap)
  | applyIncrement dx => exact hheap _ (applyIncrement_shape w.graph dx w.heap)
  | residual =>
    have := computeResidual_frame (env := env) hr
    exact ⟨this.1, this.2, SameShape.refl _⟩
  | residualInto buf => exact ⟨hr, SameStructure.refl _, SameShape.refl _⟩
  | dense =>
    have := computeDense_frame (env := env) hr
    exact ⟨this.1, this.2, SameShape.refl _⟩
  | denseAndResidual =>
    refine ⟨?_, ?_, SameShape.refl _⟩
    all_goals
      simp only [World.step, World.onGraph, computeDenseAndResidual]
      rw [if_neg (by simp [hr.laid.fin])]
      have h1 := computeDense_frame (env := env) hr
      unfold SE.bind
      split
    · rename_i s' a hs
      rw [hs] at h1
      have h2 := computeResidual_frame (env := env) h1.1
      dsimp only
      split
      all_goals (rename_i hs2; rw [hs2] at h2; exact h2.1)
    · rename_i s' hs; rw [hs] at h1; exact h1.1
    · rename_i s' hs; rw [hs] at h1; exact h1.1
    · rename_i s' a hs
      rw [hs] at h1
      have h2 := computeResidual_frame (env := env) h1.1
      dsimp only
      split
      all_goals (rename_i hs2; rw [hs2] at h2; exact h1.2.trans h2.2)
    · rename_i s' hs; rw [hs] at h1; exact h1.2
    · rename_i s' hs; rw [hs] at h1; exact h1.2
  | sparse =>
    have := computeSparse_frame hr
    exact ⟨this.1, this.2, SameShape.refl _⟩
  | copy => exact ⟨hr.copy, ⟨rfl, rfl, rfl, rfl, rfl, rfl, rfl, rfl, rfl⟩, SameShape.refl _⟩

theorem ready_runs {good : Nat → List (Mat F) → Prop} {evs : List (Op F V × Res Unit)} {w w' : World F V}
    (hrun : World.Runs w evs w') (hops : ∀ ev ∈ evs, ev.1.isValueOp) (hr : Ready good w.heap w.graph) :
    Ready good w'.heap w'.graph ∧ SameStructure w.graph w'.graph ∧ SameShape w.heap w'.heap := by
  induction hrun with
  | nil w => exact ⟨hr, SameStructure.refl _, SameShape.refl _⟩
  | @cons w w1 w2 op evs r env hs _ _ ih =>
    have h1 := ready_step (env := env) (hops (op, r) (by simp)) hr
    rw [hs] at h1
    obtain ⟨i1, i2, i3⟩ := ih (fun op' h' => hops op' (by simp [h'])) h1.1
    exact ⟨i1, h1.2.1.trans i2, h1.2.2.trans i3⟩

end Graph
end Factorama
