import Verif.Lemmas.Informative
import Verif.Examples.TinyGroups
import Verif.Props.Repeats

/-!
# Property C107: more or better measurements never make the estimates less certain
-/

namespace Factorama.Props
open Spec Graph Opt Matrix

section
variable {V Fact : Type} [VarLike ℝ V] [LawfulVar ℝ V] {L : LinAlg ℝ Fact}

omit [VarLike ℝ V] [LawfulVar ℝ V] in
/-- Adding factors to a graph, at the end. -/
theorem C107_added (facs extra : List (Factor ℝ V)) : MoreInformative facs (facs ++ extra) := by
  have hl : facs.length ≤ (facs ++ extra).length := by simp
  refine ⟨fun k => Fin.castLE hl k, fun _ => 1, fun a b h => by simpa using h, fun k => ⟨le_refl _, ?_⟩⟩
  have : (facs ++ extra)[Fin.castLE hl k] = facs[k] := by simp
  rw [this]
  exact .one _

omit [VarLike ℝ V] [LawfulVar ℝ V] in
/-- Making one measurement more precise. -/
theorem C107_sharpened (l1 l2 : List (Factor ℝ V)) {f f' : Factor ℝ V} {c : ℝ} (hc : 1 ≤ c) (h : Rescaled c f f') :
    MoreInformative (l1 ++ f :: l2) (l1 ++ f' :: l2) := by
  refine ⟨fun k => Fin.cast (by simp) k, fun k => if (k : Nat) = l1.length then c else 1, fun a b h => by simpa using h, fun k => ?_⟩
  by_cases hk : (k : Nat) = l1.length
  · simp only [hk, if_true]
    refine ⟨hc, ?_⟩
    have e1 : (l1 ++ f :: l2)[k] = f := by simp [hk]
    have e2 : (l1 ++ f' :: l2)[(Fin.cast (by simp) k : Fin (l1 ++ f' :: l2).length)] = f' := by simp [hk]
    rw [e1, e2]
    exact h
  · simp only [hk, if_false]
    refine ⟨le_refl _, ?_⟩
    have e : (l1 ++ f' :: l2)[(Fin.cast (by simp) k : Fin (l1 ++ f' :: l2).length)] = (l1 ++ f :: l2)[k] := by
      simp only [Fin.getElem_fin, Fin.val_cast, List.getElem_append, List.getElem_cons]
      split
      · rfl
      · rw [dif_neg (by omega), dif_neg (by omega)]
    rw [e]
    exact .one _

/-- **C107**. Two graphs over the same variables, where the second has all measurements of the first with the same or smaller
standard deviations, and possibly more. When both have been linearised at the same values, the variance reported for any
combination of the components of a variable is not larger for the second. -/
theorem C107 (hL : ExactLinAlg L) {s s' t t' : OptWorld ℝ V Fact} (hp : Prepared s) (hp' : Prepared s') (hheap : s'.heap = s.heap)
    (hvars : s'.graph.getAllVariables = s.graph.getAllVariables)
    (hfacs : MoreInformative s.graph.getAllFactors s'.graph.getAllFactors)
    (hv : s.opt.hessianValid = false) (hv' : s'.opt.hessianValid = false)
    {x : Heap V} {r r' : List ℝ} {J J' : SpMat ℝ} (hJ : s.graph.sparseJacobian = .ok J) (hJ' : s'.graph.sparseJacobian = .ok J')
    (hlin : Linearised x s.graph.getAllVariables s.graph.getAllFactors r J)
    (hlin' : Linearised x s'.graph.getAllVariables s'.graph.getAllFactors r' J')
    (hprep : prepare realArith L s = (t, .ok ())) (hprep' : prepare realArith L s' = (t', .ok ())) (v : VRef)
    (hmem : v ∈ s.graph.getAllVariables) (P P' : Mat ℝ) (hP : estimateCovariance realArith L t (some v) = .ok (some P))
    (hP' : estimateCovariance realArith L t' (some v) = .ok (some P')) :
    P'.rows = P.rows ∧ P'.cols = P.cols ∧ (∀ z, varianceOf P' z ≤ varianceOf P z) ∧
    ∀ i, i < P.rows → P'.entry i i ≤ P.entry i i := by
  obtain ⟨h0, pre, post, hw, _⟩ := hp.history
  obtain ⟨h0', pre', post', hw', _⟩ := hp'.history
  have hn : s.graph.getAllVariables.Nodup := List.Nodup.of_map _ (finalizedAfter_layout hw).ids
  obtain ⟨J1, e1, hu, z1, z2, hent, _⟩ := C30_block hL hw hv hprep v hmem P hP
  obtain ⟨J2, e2, hu', z1', z2', hent', _⟩ := C30_block hL hw' hv' hprep' v (by rw [hvars]; exact hmem) P' hP'
  rw [hJ] at e1
  rw [hJ'] at e2
  obtain rfl := Res.ok.inj e1
  obtain rfl := Res.ok.inj e2
  rw [hheap] at z1' z2' hent'
  rw [hvars] at hent' hlin'
  have s1 : Stacks x s.graph.getAllVariables s.graph.getAllFactors J := ⟨hlin.rows, hlin.columns, hlin.jacobian⟩
  have s2 : Stacks x s.graph.getAllVariables s'.graph.getAllFactors J' := ⟨hlin'.rows, hlin'.columns, hlin'.jacobian⟩
  have key := variance_antitone (hlin'.columns.trans hlin.columns.symm) J.coeff J'.coeff (fun y => by
      rw [s1.rows, s2.rows, hlin.columns]
      refine informative_sum hfacs _ _ (fun i => sq_nonneg _) (fun i => sq_nonneg _) fun k k' f f' c hk hk' hR i hi => ?_
      rw [← mul_pow, Finset.mul_sum]
      congr 1
      refine Finset.sum_congr rfl fun j hj => ?_
      rw [rescaled_row_coeff hn s1 s2 hk hk' hR hi (by simpa using hj), mul_assoc])
    hu hu' _ _ P.entry P'.entry hent hent'
  have hv : ∀ z, varianceOf P' z ≤ varianceOf P z := by
    intro z
    unfold varianceOf
    rw [z1, z2, z1', z2']
    exact key z
  refine ⟨z1'.trans z1.symm, z2'.trans z2.symm, hv, fun i hi => ?_⟩
  have unit : ∀ Q : Mat ℝ, i < Q.rows → i < Q.cols → varianceOf Q (fun k => if k = i then 1 else 0) = Q.entry i i := by
    intro Q h1 h2
    unfold varianceOf
    rw [Finset.sum_eq_single_of_mem i (by simpa using h1) fun k _ hk => by simp [hk],
      Finset.sum_eq_single_of_mem i (by simpa using h2) fun k _ hk => by simp [hk]]
    simp
  have := hv fun k => if k = i then 1 else 0
  rwa [unit P hi (by omega), unit P' (by omega) (by omega)] at this

end

/-- A bearing added to a range and bearing measurement, whose standard deviations are halved. -/
example : MoreInformative [Fac.rangeBearing2D 10 0 1 2 0 (1 / 2) (1 / 10)] [Fac.rangeBearing2D 10 0 1 2 0 (1 / 2) (1 / 10),
    Fac.bearing2D 11 0 1 0 (1 / 5)] ∧
    MoreInformative ([] ++ Fac.rangeBearing2D 10 0 1 2 0 (1 / 2) (1 / 10) :: [Fac.bearing2D 11 0 1 0 (1 / 5)])
      ([] ++ Fac.rangeBearing2D 10 0 1 2 0 (1 / 2 / 2) (1 / 10 / 2) :: [Fac.bearing2D 11 0 1 0 (1 / 5)]) :=
  ⟨C107_added _ [_], C107_sharpened [] _ one_le_two (C104_factor (.rangeBearing2D ..))⟩

namespace C107

/-- An optimizer on the small graph with weight `w` for the last measurement. -/
noncomputable def start (w : ℝ) : OptWorld ℝ (GenVar ℝ) (Ldlt.Fact ℝ) :=
  ⟨(TinyWorld.world 0 0 1 4 7 2 3 w).heap, (TinyWorld.world 0 0 1 4 7 2 3 w).graph,
    { Optimizer.init realArith with hasGraph := true, complete := true }⟩

theorem prepared (w : ℝ) : Prepared (start w) :=
  ⟨⟨_, _, _, TinyWorld.finalizedAfter 0 0 1 4 7 2 3 w, TinyWorld.noJacobianYet 0 0 1 4 7 2 3 w⟩,
    TinyWorld.identify 0 0 1 4 7 2 3 w, TinyWorld.noRepeats 0 0 1 4 7 2 3 w, TinyWorld.reuseSafe 0 0 1 4 7 2 3 w,
    TinyWorld.proper 0 0 1 4 7 2 3 w, rfl⟩

theorem vars (w : ℝ) : (start w).graph.getAllVariables = [0, 1, 2] := TinyWorld.vars_eq ..

theorem facs (w : ℝ) : (start w).graph.getAllFactors = TinyWorld.facs 4 7 2 3 w := TinyWorld.facs_eq ..

theorem linearised (w : ℝ) : Linearised (TinyWorld.heap 0 0 1) (start w).graph.getAllVariables (start w).graph.getAllFactors
    [2 * (0 - 4), 3 * (0 - 0 - 1), w * (0 - 7)] (TinyWorld.jac 2 3 w) := by
  rw [vars, facs]
  exact C104.linearised _ _ _

end C107

/-- The small graph with the original standard deviation of the last measurement and with half of it. -/
example (t t' : OptWorld ℝ (GenVar ℝ) (Ldlt.Fact ℝ)) (hprep : prepare realArith Ldlt.linAlg (C107.start 1) = (t, .ok ()))
    (hprep' : prepare realArith Ldlt.linAlg (C107.start 2) = (t', .ok ())) (P P' : Mat ℝ)
    (hP : estimateCovariance realArith Ldlt.linAlg t (some 0) = .ok (some P))
    (hP' : estimateCovariance realArith Ldlt.linAlg t' (some 0) = .ok (some P')) : ∀ i, i < P.rows → P'.entry i i ≤ P.entry i i := by
  refine (C107 Ldlt.exact (C107.prepared 1) (C107.prepared 2) ?_ ((C107.vars 2).trans (C107.vars 1).symm) ?_ rfl rfl
    (TinyWorld.sparse_eq ..) (TinyWorld.sparse_eq ..) (C107.linearised 1) (C107.linearised 2) hprep hprep' 0 ?_ P P' hP hP').2.2.2
  · show (TinyWorld.world 0 0 1 4 7 2 3 2).heap = (TinyWorld.world 0 0 1 4 7 2 3 1).heap
    rw [TinyWorld.heap_eq, TinyWorld.heap_eq]
  · rw [C107.facs, C107.facs]
    refine C107_sharpened [genericPrior 10 0 [4] 2, genericBetween 11 0 1 2 1 3] [] (one_le_two (α := ℝ)) ?_
    have := C104.prior 2 12 1 [7] 1
    simpa using this
  · rw [C107.vars]; simp

/-- In rational arithmetic: the variance of the first variable is 10/49 with the original measurements, 13/88 when the last
one is twice as precise, 10/59 when another prior is added. -/
example :
    let report := fun w : World Rat (GenVar Rat) => C29.report (prepare ToyOpt.rat Ldlt.linAlg (optimize ToyOpt.rat Ldlt.linAlg
      (TinyWorld.env 0) (ToyOpt.start w ToyOpt.gn)).1).1 (some 0)
    report (TinyGroups.world 0 0 1 (TinyGroups.once 4 7 2 3 1)) = .ok (some [10 / 49]) ∧
    report (TinyGroups.world 0 0 1 (TinyGroups.once 4 7 2 3 2)) = .ok (some [13 / 88]) ∧
    report (TinyGroups.world 0 0 1 (TinyGroups.twice 4 7 2 1 3 1)) = .ok (some [10 / 59]) ∧
    (13 / 88 : Rat) < 10 / 49 ∧ (10 / 59 : Rat) < 10 / 49 := by decide +kernel

end Factorama.Props
