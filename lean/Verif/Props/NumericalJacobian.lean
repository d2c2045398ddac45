import Verif.Lemmas.FactorTest
import Verif.Model.RealArith
import Verif.Props.Variables
import Verif.Props.FactorsLinear

/-!
# Numerical Jacobians: C60
-/

namespace Factorama.Spec

/-- Entry `i` of the residual of `f` after the increment with `t` in position `k` and zeros elsewhere. -/
noncomputable def residualEntry (f : Factor ℝ RVar) (h : Heap RVar) (r : VRef) (k i : Nat) (t : ℝ) : ℝ :=
  match residualAfterIncr f h r (FactorTest.unitStep (VarLike.size (h r)) k t) with
  | .ok l => l.getD i 0
  | _ => 0

/-- Along every axis of the increment of `r`, the residual of `f` is a polynomial of degree at most two. -/
def QuadraticIn (f : Factor ℝ RVar) (h : Heap RVar) (r : VRef) : Prop :=
  ∀ k < VarLike.size (h r), ∃ a b c : Fin f.residualSize → ℝ, ∀ t,
    residualAfterIncr f h r (FactorTest.unitStep (VarLike.size (h r)) k t) =
      .ok (List.ofFn fun i => a i + t * b i + t ^ 2 * c i)

end Factorama.Spec

namespace Factorama.Props
open Matrix Geo Spec FactorTest Topology Filter

/-- **C60** For every scalar arithmetic, factor class, and variable class: if the variables of the factor write back
exactly and `ComputeNumericalJacobians` returns, all variables are unchanged, and there is one block per variable: an
empty one for a constant variable, otherwise one row per residual entry and one column per entry of the variable. -/
theorem C60_restores {F V : Type} [Zero F] [Neg F] [VarLike F V] (A : Arith F) (f : Factor F V) (eps : F)
    {h h' : Heap V} (hw : AllWriteBack f h) {Js : List (Mat F)} (hok : numericalJacobians A f eps h = (h', .ok Js)) :
    h' = h ∧ List.Forall₂ (fun v J => ∃ r, v = some r ∧
      if VarLike.isConst (h r) then J = Mat.empty else J.rows = f.residualSize ∧ J.cols = VarLike.size (h r))
      f.variables Js := by
  obtain ⟨rfl, -, hf⟩ := (numericalJacobians_iff A f eps hw h' Js).1 hok
  refine ⟨rfl, ?_⟩
  have hmem : ∀ v ∈ f.variables, ∀ J, numericalBlock A f eps v h' = (h', .ok J) → ∃ r, v = some r ∧
      if VarLike.isConst (h' r) then J = Mat.empty else J.rows = f.residualSize ∧ J.cols = VarLike.size (h' r) := by
    intro v hv J hJ
    cases v with
    | none => simp [numericalBlock, SE.undefined] at hJ
    | some r =>
      refine ⟨r, rfl, ?_⟩
      have := ((numericalBlock_iff A f eps (hw r hv) h' J).1 hJ).2
      split at this
      · rename_i hc; rw [if_pos hc]; exact this
      · rename_i hc
        obtain ⟨cols, -, rfl, -⟩ := this
        rw [if_neg hc]; exact ⟨rfl, rfl⟩
  clear hok hw
  generalize f.variables = vs at hf hmem
  induction hf with
  | nil => exact .nil
  | cons hJ _ ih => exact .cons (hmem _ (by simp) _ hJ) (ih fun v hv => hmem v (List.mem_cons_of_mem _ hv))

/-- Library variables write back exactly in every reachable state, except rotation variables (C41). -/
theorem allWriteBack_of_reachable (f : Factor ℝ RVar) (h : Heap RVar) (hr : ∀ r, some r ∈ f.variables → Reachable (h r)) :
    AllWriteBack f h := fun r hm _ dx v' hi => ((C41_partial _ (hr r hm)).2 dx v' hi).2

theorem unitStep_neg (n k : Nat) (t : ℝ) : (unitStep n k t).map (- ·) = unitStep n k (-t) := by
  simp [unitStep, List.map_set]

/-- **C60** If moreover the residual is a polynomial of degree at most two along the axes of the variables that are not
constant, then for every step size except zero the call returns, and each entry is the derivative of the residual entry
with respect to the entry of the increment. -/
theorem C60_exact (f : Factor ℝ RVar) (eps : ℝ) (he : eps ≠ 0) {h : Heap RVar} (hw : AllWriteBack f h)
    (hnull : none ∉ f.variables) {r0 : List ℝ} (h0 : f.computeResidual h = .ok r0) (hl : r0.length = f.residualSize)
    (hq : ∀ r, some r ∈ f.variables → VarLike.isConst (h r) = false → QuadraticIn f h r) :
    ∃ Js, numericalJacobians realArith f eps h = (h, .ok Js) ∧
      List.Forall₂ (fun v J => ∃ r, v = some r ∧
        if VarLike.isConst (h r) then J = Mat.empty else
          J.rows = f.residualSize ∧ J.cols = VarLike.size (h r) ∧
          ∀ i < J.rows, ∀ k < J.cols, HasDerivAt (residualEntry f h r k i) (J.entry i k) 0) f.variables Js := by
  have key : ∀ v ∈ f.variables, ∃ J, numericalBlock realArith f eps v h = (h, .ok J) ∧ ∃ r, v = some r ∧
      if VarLike.isConst (h r) then J = Mat.empty else
          J.rows = f.residualSize ∧ J.cols = VarLike.size (h r) ∧
          ∀ i < J.rows, ∀ k < J.cols, HasDerivAt (residualEntry f h r k i) (J.entry i k) 0 := by
    intro v hv
    cases v with
    | none => exact absurd hv hnull
    | some r =>
      by_cases hc : VarLike.isConst (h r) = true
      · refine ⟨Mat.empty, (numericalBlock_iff _ f eps (hw r hv) h _).2 ⟨rfl, by rw [if_pos hc]⟩, r, rfl, by rw [if_pos hc]⟩
      · have hc' : VarLike.isConst (h r) = false := by simpa using hc
        choose a b c habc using hq r hv hc'
        have hcol : ∀ k (hk : k < VarLike.size (h r)), numericalColumn realArith f r (VarLike.size (h r)) eps k h =
            (h, .ok (List.ofFn (b k hk))) := by
          intro k hk
          refine (numericalColumn_iff _ f _ eps k (hw r hv hc') _).2 ⟨rfl, _,
            List.ofFn fun i => a k hk i + (-eps) * b k hk i + (-eps) ^ 2 * c k hk i, habc k hk eps, ?_, ?_⟩
          · rw [unitStep_neg]; exact habc k hk (-eps)
          · rw [centralDifference, if_pos (by simp)]
            congr 1
            apply List.ext_getElem (by simp)
            intro i h1 h2
            simp [realArith]
            field_simp
            ring
        refine ⟨blockOfColumns f.residualSize (VarLike.size (h r))
          (List.ofFn fun k : Fin (VarLike.size (h r)) => List.ofFn (b k k.2)),
          (numericalBlock_iff _ f eps (hw r hv) h _).2 ⟨rfl, ?_⟩, r, rfl, ?_⟩
        · rw [if_neg hc]
          refine ⟨_, by simp, rfl, fun k col hk => ?_⟩
          obtain ⟨hk', e⟩ := List.getElem?_eq_some_iff.1 hk
          have hk'' : k < VarLike.size (h r) := by simpa using hk'
          rw [hcol k hk'', ← e]
          simp
        · rw [if_neg hc]
          refine ⟨rfl, rfl, fun i hi k hk => ?_⟩
          have hi : i < f.residualSize := hi
          have hk : k < VarLike.size (h r) := hk
          have e1 : (blockOfColumns f.residualSize (VarLike.size (h r))
            (List.ofFn fun k : Fin (VarLike.size (h r)) => List.ofFn (b k k.2))).entry i k = b k hk ⟨i, hi⟩ := by
            simp [blockOfColumns, hi, hk, List.getD_eq_getElem?_getD]
          have e2 : residualEntry f h r k i = fun t => a k hk ⟨i, hi⟩ + t * b k hk ⟨i, hi⟩ + t ^ 2 * c k hk ⟨i, hi⟩ := by
            funext t
            simp [residualEntry, habc k hk t, hi, List.getD_eq_getElem?_getD]
          rw [e1, e2]
          have hd := (((hasDerivAt_id (0 : ℝ)).mul_const (b k hk ⟨i, hi⟩)).const_add (a k hk ⟨i, hi⟩)).add
            (((hasDerivAt_id (0 : ℝ)).pow 2).mul_const (c k hk ⟨i, hi⟩))
          refine (hd.congr_deriv (by simp))
  have : Nonempty (Mat ℝ) := ⟨Mat.empty⟩
  choose! J hJ using key
  refine ⟨f.variables.map J, (numericalJacobians_iff _ f eps hw h _).2 ⟨rfl, ⟨r0, h0, hl⟩, ?_⟩, ?_⟩
  · rw [List.forall₂_map_right_iff, List.forall₂_same]
    exact fun v hv => (hJ v hv).1
  · rw [List.forall₂_map_right_iff, List.forall₂_same]
    exact fun v hv => (hJ v hv).2

/-- A vector of two entries, and its prior. -/
def C60.heap : Heap RVar := fun _ => .generic ⟨1, false, toList ![5, 7]⟩
noncomputable def C60.factor : Factor ℝ RVar := genericPrior 1 0 (toList ![3, 4]) (1 / 0.5)

theorem C60.quadratic : QuadraticIn C60.factor C60.heap 0 := by
  intro k hk
  have hk : k < 2 := hk
  refine ⟨fun i => if (i : Nat) = 0 then 4 else 6, fun i => if (i : Nat) = k then 2 else 0, fun _ => 0, fun t => ?_⟩
  show residualAfterIncr _ _ _ (unitStep 2 k t) = .ok (List.ofFn (n := 2) fun i : Fin 2 =>
    (if (i : Nat) = 0 then 4 else 6) + t * (if (i : Nat) = k then 2 else 0) + t ^ 2 * 0)
  rw [List.ofFn_succ, List.ofFn_succ, List.ofFn_zero]
  interval_cases k <;>
    simp [residualAfterIncr, unitStep, VarLike.applyIncr, GenVar.applyIncr, Res.map, C60.factor, C60.heap, genericPrior,
      vecSub, VarLike.value, set_get, toList] <;> norm_num <;> ring

theorem C60.writeBack : AllWriteBack C60.factor C60.heap := allWriteBack_of_reachable _ _ fun _ _ => .generic _

theorem C60.residual : C60.factor.computeResidual C60.heap = .ok [4, 6] := by
  simp [C60.factor, C60.heap, genericPrior, vecSub, VarLike.value, toList]; norm_num

example : ∃ Js, numericalJacobians realArith C60.factor 1e-6 C60.heap = (C60.heap, .ok Js) := by
  obtain ⟨Js, h, -⟩ := C60_exact C60.factor 1e-6 (by norm_num) C60.writeBack (by simp [C60.factor, genericPrior])
    C60.residual rfl (fun r hr _ => by simp [C60.factor, genericPrior] at hr; subst hr; exact C60.quadratic)
  have := (C60_restores realArith C60.factor 1e-6 C60.writeBack h).1
  exact ⟨Js, h⟩

theorem rotation_column (f : Factor ℝ RVar) (v : RotationVar) (h : Heap RVar) (r : VRef) (hr : h r = .rotation v) (eps : ℝ)
    (k : Nat) (hf : ∀ v', ∃ x, f.computeResidual (h.set r (.rotation v')) = .ok x ∧ x.length = f.residualSize) :
    ∃ c, numericalColumn realArith f r 3 eps k h =
      (h.set r (.rotation { v with dcm := expSO3 v.vec }), .ok c) := by
  have hl : ∀ t : ℝ, (unitStep 3 k t).length = 3 := fun t => by simp [unitStep]
  have hvec : RVar.rotation { v with vec := read3 (toList v.vec) 0, dcm := expSO3 (read3 (toList v.vec) 0) } =
      .rotation { v with dcm := expSO3 v.vec } := by
    rw [show read3 (toList v.vec) 0 = v.vec from read3_toList _]
  obtain ⟨x, hx, hxl⟩ := hf { v with
    dcm := expSO3 (read3 (unitStep 3 k eps) 0) * v.dcm
    vec := logSO3 (expSO3 (read3 (unitStep 3 k eps) 0) * v.dcm) }
  obtain ⟨y, hy, hyl⟩ := hf { v with
    dcm := expSO3 (read3 (unitStep 3 k (-eps)) 0) * expSO3 v.vec
    vec := logSO3 (expSO3 (read3 (unitStep 3 k (-eps)) 0) * expSO3 v.vec) }
  refine ⟨List.zipWith (fun a b => realArith.div (realArith.sub a b) (realArith.mul (realArith.lit 2) eps)) x y, ?_⟩
  simp only [numericalColumn, SE.bind, SE.get, SE.lift, Graph.mutate, hr, unitStep_neg]
  simp only [VarLike.applyIncr, VarLike.setValue, VarLike.value, RotationVar.applyIncr, RotationVar.setValue, hl, ne_eq,
    not_true_eq_false, if_false, Res.map, hx, hy, set_get, set_set, length_toList, hvec, centralDifference, hxl, hyl,
    and_self, if_true]

/-- **C60** is false for rotation variables: after `ComputeNumericalJacobians` on a prior for a rotation by `1e-6`, the
rotation variable holds a different matrix. -/
theorem C60_rotation_false : ∃ (v : RotationVar) (h' : Heap RVar) (Js : List (Mat ℝ)), RotationReachable v ∧
    numericalJacobians realArith (Fac.rotationPrior 1 0 1 1) 1e-6 (fun _ => .rotation v) = (h', .ok Js) ∧
    h' 0 ≠ .rotation v := by
  obtain ⟨v, hv, hc, hne⟩ : ∃ v, RotationReachable v ∧ v.isConst = false ∧ expSO3 v.vec ≠ v.dcm := by
    have := C41_rotation_false
    push Not at this
    obtain ⟨v, hv, hne⟩ := this
    refine ⟨{ v with isConst := false }, .setConst false hv, rfl, fun e => hne ?_⟩
    rw [RotationVar.setValue, if_neg (by simp [length_toList]), read3_toList]
    exact congrArg Res.ok (by rw [show expSO3 v.vec = v.dcm from e])
  have hf : ∀ (h : Heap RVar) v', ∃ x, (Fac.rotationPrior 1 0 1 1).computeResidual (h.set 0 (.rotation v')) = .ok x ∧
      x.length = (Fac.rotationPrior 1 0 1 1).residualSize := fun h v' =>
    ⟨toList ((1 / (1 : ℝ)) • logSO3 (v'.dcm * 1ᵀ)), by simp [Fac.rotationPrior, set_get], by simp [Fac.rotationPrior, length_toList]⟩
  let w : RotationVar := { v with dcm := expSO3 v.vec }
  obtain ⟨c0, h0⟩ := rotation_column (Fac.rotationPrior 1 0 1 1) v (fun _ => .rotation v) 0 rfl 1e-6 0 (hf _)
  obtain ⟨c1, h1⟩ := rotation_column (Fac.rotationPrior 1 0 1 1) w _ 0 (set_get (fun _ => .rotation v) 0 _) 1e-6 1 (hf _)
  obtain ⟨c2, h2⟩ := rotation_column (Fac.rotationPrior 1 0 1 1) w _ 0 (set_get (fun _ => .rotation v) 0 _) 1e-6 2 (hf _)
  rw [set_set] at h1 h2
  refine ⟨v, Heap.set (fun _ => .rotation v) 0 (.rotation w), [blockOfColumns 3 3 [c0, c1, c2]], hv, ?_, ?_⟩
  · have hb : numericalBlock realArith (Fac.rotationPrior 1 0 1 1) 1e-6 (some 0) (fun _ => .rotation v) =
        (Heap.set (fun _ => .rotation v) 0 (.rotation w), .ok (blockOfColumns 3 3 [c0, c1, c2])) := by
      rw [numericalBlock]
      refine bind_ok.2 ⟨_, _, rfl, ?_⟩
      rw [if_neg (by simp [VarLike.isConst, hc])]
      exact bind_ok.2 ⟨_, _, bind_ok.2 ⟨_, _, h0, bind_ok.2 ⟨_, _, bind_ok.2 ⟨_, _, h1, bind_ok.2 ⟨_, _,
        bind_ok.2 ⟨_, _, h2, bind_ok.2 ⟨_, _, rfl, rfl⟩⟩, rfl⟩⟩, rfl⟩⟩, rfl⟩
    refine bind_ok.2 ⟨_, _, rfl, bind_ok.2 ⟨_, toList ((1 / (1 : ℝ)) • logSO3 (v.dcm * 1ᵀ)), rfl, ?_⟩⟩
    rw [if_pos (by simp [Fac.rotationPrior, length_toList])]
    exact bind_ok.2 ⟨_, _, hb, bind_ok.2 ⟨_, _, rfl, rfl⟩⟩
  · rw [set_get]
    intro e
    exact hne (congrArg RotationVar.dcm (RVar.rotation.inj e))

end Factorama.Props
