import Verif.Lemmas.CovarianceBlock
import Verif.Lemmas.Values
import Verif.Lemmas.History
import Verif.Props.Covariance
import Verif.Examples.TinyWorld

/-!
# Property C30: the value of a reported covariance
-/

namespace Factorama.Props
open Spec Graph Opt Matrix
variable {V Fact : Type} [VarLike ℝ V] [LawfulVar ℝ V] {L : LinAlg ℝ Fact}

/-- **C30**. When `prepare_to_estimate_covariances()` has prepared the matrix, a covariance then reported for a variable of
the graph has the size of the variable, and it is the diagonal block, at the columns of the variable, of the inverse of
`JᵀJ`, where `J` is the graph's last sparse Jacobian. It is symmetric and positive definite. -/
theorem C30_block (hL : ExactLinAlg L) {h0 : Heap V} {pre post : List (Op ℝ V × Res Unit)} {s s' : OptWorld ℝ V Fact}
    (hw : FinalizedAfter h0 pre post ⟨s.heap, s.graph⟩) (hv : s.opt.hessianValid = false)
    (hprep : prepare realArith L s = (s', .ok ())) (v : VRef) (hmem : v ∈ s.graph.getAllVariables) (P : Mat ℝ)
    (hP : estimateCovariance realArith L s' (some v) = .ok (some P)) :
    ∃ J, s.graph.sparseJacobian = .ok J ∧ IsUnit ((jacobianMatrix J)ᵀ * jacobianMatrix J) ∧
      P.rows = VarLike.size (s.heap v) ∧ P.cols = VarLike.size (s.heap v) ∧
      (∀ i j, i < VarLike.size (s.heap v) → j < VarLike.size (s.heap v) → ∃ hi hj,
        P.entry i j = ((jacobianMatrix J)ᵀ * jacobianMatrix J)⁻¹
          ⟨colStart s.heap s.graph.getAllVariables v + i, hi⟩ ⟨colStart s.heap s.graph.getAllVariables v + j, hj⟩) ∧
      (square (VarLike.size (s.heap v)) P).IsSymm ∧ (square (VarLike.size (s.heap v)) P).PosDef := by
  obtain ⟨r, p, f, X, hr, hc, hv', hpl, hle, hs, hX, h0, hPe⟩ := estimateCovariance_some hP
  obtain rfl := Option.some.inj hr
  obtain ⟨_, J, f', hJ, hH, hf, hs', hheap, hgraph⟩ := C31_partial realArith L s s' hv hprep hv'
  have hl := finalizedAfter_layout hw
  rw [hheap, hgraph, hl.placement hmem] at hpl
  obtain rfl := Option.some.inj hpl
  rw [hs'] at hs
  obtain rfl := Option.some.inj hs
  have hfs : freeSize (s.heap v) = VarLike.size (s.heap v) := by
    rw [hheap] at hc
    simp [freeSize, hc]
  simp only [hfs, hH, (hL.gram_size J).1] at hle hX h0 hPe
  have hsz := hL.gram_size J
  have hcols : (L.gram J).cols = (L.gram J).rows := hsz.2.trans hsz.1.symm
  have hsym : (square J.columns.length (L.gram J)).IsSymm := by rw [hL.gram]; exact gram_symm _
  have hu := hL.invertible _ f' hcols (by rw [hsz.1]; exact hsym) hf
  rw [hsz.1, hL.gram] at hu
  have hinv := (gram_posDef _ hu).inv
  have hentry : ∀ i j (hi : i < VarLike.size (s.heap v)) (hj : j < VarLike.size (s.heap v)),
      P.entry i j = ((jacobianMatrix J)ᵀ * jacobianMatrix J)⁻¹
        ⟨colStart s.heap s.graph.varsVec v + i, by omega⟩ ⟨colStart s.heap s.graph.varsVec v + j, by omega⟩ := by
    have hcol : ∀ j, j < VarLike.size (s.heap v) → ∃ x, X[j]? = some x ∧
        ((jacobianMatrix J)ᵀ * jacobianMatrix J) *ᵥ asVec J.columns.length x =
          asVec J.columns.length (unitVector realArith J.columns.length (colStart s.heap s.graph.varsVec v + j)) := by
      intro j hj
      obtain ⟨x, hx, hsol⟩ := solveColumns_some hX (j := j)
        (b := unitVector realArith J.columns.length (colStart s.heap s.graph.varsVec v + j)) (by simp [hj])
      obtain ⟨d, hd1, _, hd3⟩ := hL.solve (L.gram J) f'
        (unitVector realArith J.columns.length (colStart s.heap s.graph.varsVec v + j)) hcols
        (by rw [hsz.1]; exact hsym) hf (by simp [unitVector, hsz.1])
      rw [hsol] at hd1
      obtain rfl := Option.some.inj hd1
      rw [hsz.1, hL.gram] at hd3
      exact ⟨x, hx, hd3⟩
    intro i j hi hj
    rw [hPe, averageInPlace_symm, blockOf_inverse hu hle hcol hi hj]
    rw [blockOf_inverse hu hle hcol hi hj, blockOf_inverse hu hle hcol hj hi]
    have := hinv.isHermitian
    rw [IsHermitian, conjTranspose_eq_transpose_of_trivial] at this
    exact (IsSymm.apply this _ _)
  have hsub : square (VarLike.size (s.heap v)) P = (((jacobianMatrix J)ᵀ * jacobianMatrix J)⁻¹).submatrix
      (fun i : Fin (VarLike.size (s.heap v)) => ⟨colStart s.heap s.graph.varsVec v + i, by omega⟩)
      (fun i : Fin (VarLike.size (s.heap v)) => ⟨colStart s.heap s.graph.varsVec v + i, by omega⟩) := by
    ext i j
    exact hentry i j i.2 j.2
  have hpd : (square (VarLike.size (s.heap v)) P).PosDef := by
    rw [hsub]
    refine hinv.submatrix fun i j h => ?_
    simp only [Fin.mk.injEq] at h
    exact Fin.ext (by omega)
  refine ⟨J, hJ, hu, by rw [hPe]; rfl, by rw [hPe]; rfl, fun i j hi hj => ⟨_, _, hentry i j hi hj⟩, ?_, hpd⟩
  have := hpd.isHermitian
  rwa [IsHermitian, conjTranspose_eq_transpose_of_trivial] at this

/-- An optimizer that has finished on the small graph, whose Jacobian is `[[2, 0], [-3, 3], [0, 1]]`. -/
noncomputable def C30.start : OptWorld ℝ (GenVar ℝ) (Ldlt.Fact ℝ) :=
  ⟨(TinyWorld.world 5 7 1 4 1 2 3 1).heap, (TinyWorld.world 5 7 1 4 1 2 3 1).graph,
    { Optimizer.init realArith with hasGraph := true, complete := true }⟩

/-- The factorisation of its normal matrix `[[13, -9], [-9, 10]]`. -/
theorem C30.factorized : (Ldlt.linAlg : LinAlg ℝ (Ldlt.Fact ℝ)).factorize (Ldlt.linAlg.gram (TinyWorld.jac 2 3 1)) =
    some [(13, [-9 / 13]), (49 / 13, [])] := by
  simp [Ldlt.linAlg, Ldlt.gram, TinyWorld.jac, Ldlt.rowsOf, Ldlt.factorRows, Ldlt.sumTo, SpMat.coeff, Ldlt.axpy, List.range_succ,
    List.lookup]
  norm_num

attribute [irreducible] C30.start
theorem C30.prepared : prepare realArith Ldlt.linAlg C30.start = ({ C30.start with opt := { C30.start.opt with
      hessian := Ldlt.linAlg.gram (TinyWorld.jac 2 3 1), solver := some [(13, [-9 / 13]), (49 / 13, [])], hessianValid := true } },
      .ok ()) := by
  have h : C30.start.graph.sparseJacobian = .ok (TinyWorld.jac 2 3 1) := by
    unfold C30.start
    exact TinyWorld.sparse_eq 5 7 1 4 1 2 3 1
  have h1 : C30.start.opt.hessianValid = false := by unfold C30.start; rfl
  have h2 : C30.start.opt.complete = true := by unfold C30.start; rfl
  have h3 : (Ldlt.linAlg : LinAlg ℝ (Ldlt.Fact ℝ)).vectorD [(13, [-9 / 13]), (49 / 13, [])] = [13, 49 / 13] := rfl
  unfold prepare
  simp [SE.bind, SE.get, h, h1, h2, h3, SE.lift, C30.factorized, modOpt]

/-- A covariance is reported for the first variable. -/
example : ∃ s' P, prepare realArith Ldlt.linAlg C30.start = (s', .ok ()) ∧
    estimateCovariance realArith Ldlt.linAlg s' (some 0) = .ok (some P) := by
  refine ⟨_, ?_, C30.prepared, ?_⟩
  rotate_left
  · have hp : C30.start.graph.variablePlacement (VarLike.id (C30.start.heap 0)) = some ⟨0, 0, 1⟩ := by
      unfold C30.start
      exact TinyWorld.placement_eq 5 7 1 4 1 2 3 1
    have h1 : VarLike.isConst (F := ℝ) (C30.start.heap 0) = false := by
      unfold C30.start
      exact TinyWorld.isConst_eq 5 7 1 4 1 2 3 1
    have h2 : VarLike.size (F := ℝ) (C30.start.heap 0) = 1 := by
      unfold C30.start
      exact TinyWorld.size_eq 5 7 1 4 1 2 3 1
    have h3 : C30.start.opt.complete = true := by unfold C30.start; rfl
    unfold estimateCovariance
    simp [hp, h1, h2, h3, Ldlt.linAlg, Ldlt.gram, TinyWorld.jac, solveColumns, unitVector, Ldlt.solveFact, List.range_succ,
      allEntries, realArith, Ldlt.axpy, Ldlt.dot, blockOf]
    rw [if_neg (by norm_num)]

/-- The hypotheses of C30_block on the graph hold there. -/
example : ∃ pre post, FinalizedAfter (TinyWorld.heap (5 : ℝ) 7 1) pre post ⟨C30.start.heap, C30.start.graph⟩ ∧
    0 ∈ C30.start.graph.getAllVariables ∧ C30.start.opt.hessianValid = false := by
  have h : C30.start.heap = (TinyWorld.world 5 7 1 4 1 2 3 1).heap ∧ C30.start.graph = (TinyWorld.world 5 7 1 4 1 2 3 1).graph ∧
      C30.start.opt.hessianValid = false := by unfold C30.start; exact ⟨rfl, rfl, rfl⟩
  rw [h.1, h.2.1]
  exact ⟨_, _, TinyWorld.finalizedAfter 5 7 1 4 1 2 3 1, by rw [TinyWorld.vars_eq]; simp, h.2.2⟩

/-- **C30**, without an exact solver. The last line of `estimate_covariance`, `P = 0.5 * (P + P.transpose())`, is meant to make
the reported matrix symmetric whatever the solver returned. It is evaluated in place, so that the entries above the diagonal
are computed from entries already overwritten: the difference of two opposite entries is only divided by four. -/
theorem C30_asymmetry_remains (P : Mat ℝ) (i j : Nat) (hij : j < i) :
    (averageInPlace realArith P).entry i j - (averageInPlace realArith P).entry j i = (P.entry i j - P.entry j i) / 4 := by
  simp only [averageInPlace, realArith, if_pos hij.le, if_neg (Nat.not_le.2 hij)]
  push_cast
  ring

/-- So the symmetrisation does not make a matrix symmetric. -/
theorem C30_symmetrised_false :
    ¬ ∀ (P : Mat ℝ) (i j : Nat), (averageInPlace realArith P).entry i j = (averageInPlace realArith P).entry j i := by
  intro h
  have h1 := C30_asymmetry_remains ⟨2, 2, fun i j => if i = 1 ∧ j = 0 then 4 else 0⟩ 1 0 one_pos
  rw [h] at h1
  norm_num at h1

end Factorama.Props
