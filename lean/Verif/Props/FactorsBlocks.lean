import Verif.Spec.Library
import Verif.Spec.Graph
import Verif.Lemmas.Factors

/-!
# The Jacobian blocks of every factor class: C57
-/

namespace Factorama.Props
open Matrix Geo Spec

/-! ### C57 One block per variable -/

theorem fill_eq {n : Nat} {old bs Js : List (Mat ℝ)} (h : Fac.fillBlocks n old bs = .ok Js) (hn : bs.length = n) : Js = bs :=
  (Res.ok.inj ((fillBlocks_ok hn).symm.trans h)).symm

theorem block_shape {m n : Nat} {f : Factor ℝ RVar} {h : Heap RVar} {r : VRef} (A : Matrix (Fin m) (Fin n) ℝ)
    (hm : f.residualSize = m) (hn : VarLike.size (h r) = n) :
    ∃ r', some r = some r' ∧ if VarLike.isConst (h r') then Fac.block (h r) A = Mat.empty
      else (Fac.block (h r) A).rows = f.residualSize ∧ (Fac.block (h r) A).cols = VarLike.size (h r') := by
  refine ⟨r, rfl, ?_⟩
  unfold Fac.block
  split
  · rfl
  · exact ⟨hm.symm, hn.symm⟩

theorem mat_shape {f : Factor ℝ RVar} {h : Heap RVar} {r : VRef} {J : Mat ℝ}
    (hJ : if VarLike.isConst (h r) then J = Mat.empty else J.rows = f.residualSize ∧ J.cols = VarLike.size (h r)) :
    ∃ r', some r = some r' ∧ if VarLike.isConst (h r') then J = Mat.empty
      else J.rows = f.residualSize ∧ J.cols = VarLike.size (h r') := ⟨r, rfl, hJ⟩

theorem andThen_ok {α β : Type} {r : Res α} {f : α → Res β} {b : β} (h : r.andThen f = .ok b) : ∃ a, r = .ok a ∧ f a = .ok b := by
  cases r with
  | ok a => exact ⟨a, rfl, h⟩
  | threw => cases h
  | ub => cases h

/-- **C57** Whenever `compute_jacobians` of any factor class other than the two named returns, whatever the output vector
contained, the result is one block per variable in the order of `variables()`, empty for constant variables and of the
right size for the others. Missing from the full property: `GenericPriorFactor` on a constant variable
(`C57_generic_prior_false`) and `CoordinateTransformFactor` with a buffer of another size
(`C57_coordinate_transform_false`). -/
theorem C57_blocks_partial (h : Heap RVar) (c : FactorClass) (f : Factor ℝ RVar) (hf : Built h c f)
    (h1 : c ≠ .genericPrior) (h2 : c ≠ .coordinateTransform) (old Js : List (Mat ℝ))
    (hJ : f.computeJacobians h old = .ok Js) : OneBlockPerVariable f h Js := by
  cases hf with
  | genericPrior => exact absurd rfl h1
  | coordinateTransform => exact absurd rfl h2
  | genericBetween id a b m n sigma ha hb hm =>
    simp only [genericBetween, Res.ok.injEq] at hJ
    subst hJ
    have key : ∀ r w, VarLike.size (h r) = n → if VarLike.isConst (h r) then betweenBlock n (h r) w = Mat.empty
        else (betweenBlock n (h r) w).rows = n ∧ (betweenBlock n (h r) w).cols = VarLike.size (h r) := by
      intro r w hr
      unfold betweenBlock
      split
      · rfl
      · exact ⟨rfl, hr.symm⟩
    exact .cons (mat_shape (key a _ ha)) (.cons (mat_shape (key b _ hb)) (.cons (mat_shape (key m _ hm)) .nil))
  | posePositionPrior id p prior sigma hp =>
    simp only [Fac.posePositionPrior, hp] at hJ
    obtain rfl := fill_eq hJ rfl
    rw [← hp]
    exact .cons (block_shape _ rfl (by rw [hp]; rfl)) .nil
  | poseOrientationPrior id p prior sigma hp =>
    simp only [Fac.poseOrientationPrior, hp] at hJ
    split at hJ
    · rename_i hc
      obtain rfl := fill_eq hJ rfl
      exact .cons (mat_shape (by rw [hp]; simp [VarLike.isConst, hc])) .nil
    · rename_i hc
      obtain ⟨J, _, hJ⟩ := andThen_ok hJ
      obtain rfl := fill_eq hJ rfl
      refine .cons (mat_shape ?_) .nil
      rw [hp, if_neg (show ¬ VarLike.isConst (RVar.pose _) = true from hc)]
      exact ⟨rfl, rfl⟩
  | rotationPrior id p prior sigma hp =>
    simp only [Fac.rotationPrior, hp] at hJ
    split at hJ
    · rename_i hc
      obtain rfl := fill_eq hJ rfl
      exact .cons (mat_shape (by rw [hp]; simp [VarLike.isConst, hc])) .nil
    · rename_i hc
      obtain ⟨J, _, hJ⟩ := andThen_ok hJ
      obtain rfl := fill_eq hJ rfl
      refine .cons (mat_shape ?_) .nil
      rw [hp, if_neg (show ¬ VarLike.isConst (RVar.rotation _) = true from hc)]
      exact ⟨rfl, rfl⟩
  | posePositionBetween id a b m sigma lf ha hb hm =>
    simp only [Fac.posePositionBetween, ha, hb] at hJ
    obtain rfl := fill_eq hJ rfl
    rw [← ha, ← hb]
    exact .cons (block_shape _ rfl (by rw [ha]; rfl)) (.cons (block_shape _ rfl (by rw [hb]; rfl)) (.cons (block_shape _ rfl hm) .nil))
  | poseOrientationBetween id a b m sigma ha hb hm =>
    simp only [Fac.poseOrientationBetween, ha, hb, hm] at hJ
    obtain ⟨J, _, hJ⟩ := andThen_ok hJ
    obtain rfl := fill_eq hJ rfl
    rw [← ha, ← hb, ← hm]
    exact .cons (block_shape _ rfl (by rw [ha]; rfl)) (.cons (block_shape _ rfl (by rw [hb]; rfl))
      (.cons (block_shape _ rfl (by rw [hm]; rfl)) .nil))
  | bearingObservation id p l bearing sigma hp hl =>
    simp only [Fac.bearingObservation, hp, hl] at hJ
    obtain ⟨pw, _, hJ⟩ := andThen_ok hJ
    split at hJ
    · cases hJ
    obtain rfl := fill_eq hJ rfl
    rw [← hp, ← hl]
    exact .cons (block_shape _ rfl (by rw [hp]; rfl)) (.cons (block_shape _ rfl (by rw [hl]; rfl)) .nil)
  | inverseRangeBearing id p l bearing sigma hp hl =>
    simp only [Fac.inverseRangeBearing, hp, hl] at hJ
    split at hJ
    · split at hJ
      · cases hJ
      obtain rfl := fill_eq hJ rfl
      rw [← hp, ← hl]
      exact .cons (block_shape _ rfl (by rw [hp]; rfl)) (.cons (block_shape _ rfl (by rw [hl]; rfl)) .nil)
    · cases hJ
  | bearingProjection id p l bearing sigma tol hp hl =>
    simp only [Fac.bearingProjection, hp, hl] at hJ
    obtain ⟨pw, _, hJ⟩ := andThen_ok hJ
    split at hJ
    · cases hJ
    split at hJ <;> obtain rfl := fill_eq hJ rfl <;> rw [← hp, ← hl] <;>
    exact .cons (block_shape _ rfl (by rw [hp]; rfl)) (.cons (block_shape _ rfl (by rw [hl]; rfl)) .nil)
  | bearing2D id p l obs sigma hp hl =>
    simp only [Fac.bearing2D, hp] at hJ
    obtain ⟨pw, _, hJ⟩ := andThen_ok hJ
    split at hJ
    · cases hJ
    obtain rfl := fill_eq hJ rfl
    rw [← hp]
    exact .cons (block_shape _ rfl (by rw [hp]; rfl)) (.cons (block_shape _ rfl hl) .nil)
  | rangeBearing2D id p l range obs rs bs hp hl =>
    simp only [Fac.rangeBearing2D, hp] at hJ
    obtain ⟨pw, _, hJ⟩ := andThen_ok hJ
    split at hJ
    · cases hJ
    obtain rfl := fill_eq hJ rfl
    rw [← hp]
    exact .cons (block_shape _ rfl (by rw [hp]; rfl)) (.cons (block_shape _ rfl hl) .nil)
  | pose2DPrior id p prior ps as hp =>
    simp only [Fac.pose2DPrior, hp] at hJ
    obtain rfl := fill_eq hJ rfl
    rw [← hp]
    exact .cons (block_shape _ rfl (by rw [hp]; rfl)) .nil
  | pose2DBetween id a b m ps as lf ha hb hm =>
    simp only [Fac.pose2DBetween, ha, hb] at hJ
    obtain rfl := fill_eq hJ rfl
    rw [← ha, ← hb]
    exact .cons (block_shape _ rfl (by rw [ha]; rfl)) (.cons (block_shape _ rfl (by rw [hb]; rfl)) (.cons (block_shape _ rfl hm) .nil))
  | plane id p l sigma scaling hp hl =>
    simp only [Fac.planeFactor, hl] at hJ
    obtain ⟨x, _, hJ⟩ := andThen_ok hJ
    cases scaling <;> obtain rfl := fill_eq hJ rfl <;> rw [← hl] <;>
    exact .cons (block_shape _ rfl hp) (.cons (block_shape _ rfl (by rw [hl]; rfl)) .nil)
  | planePrior id l n0 d0 ns ds hl =>
    simp only [Fac.planePrior, hl] at hJ
    obtain rfl := fill_eq hJ rfl
    rw [← hl]
    exact .cons (block_shape _ rfl (by rw [hl]; rfl)) .nil
  | linearVelocity id v1 v2 vel n dt sigma i hn =>
    simp only [Fac.linearVelocity] at hJ
    obtain ⟨b1, e1, hJ⟩ := andThen_ok hJ
    obtain ⟨b2, e2, hJ⟩ := andThen_ok hJ
    obtain rfl := fill_eq hJ rfl
    have key : ∀ r w b, (if VarLike.isConst (h r) then Res.ok Mat.empty else Fac.offsetDiag n (VarLike.size (h r)) i w) = .ok b →
        if VarLike.isConst (h r) then b = Mat.empty else b.rows = n ∧ b.cols = VarLike.size (h r) := by
      intro r w b hb
      split at hb
      · rename_i hc; rw [if_pos hc]; injection hb with hb; exact hb.symm
      · rename_i hc
        rw [if_neg hc]
        unfold Fac.offsetDiag at hb
        split at hb
        · injection hb with hb; subst hb; exact ⟨rfl, rfl⟩
        · cases hb
    refine .cons (mat_shape (key v1 _ _ e1)) (.cons (mat_shape (key v2 _ _ e2)) (.cons (mat_shape ?_) .nil))
    split
    · rfl
    · exact ⟨rfl, hn.symm⟩

/-- A range-bearing factor with a constant pose. -/
example : ∀ old Js, (Fac.rangeBearing2D 9 0 1 1 0 0.1 0.1).computeJacobians
    (fun r => if r = 1 then .generic ⟨1, false, [1, 0]⟩ else .pose2d ⟨0, true, 0, 0⟩) old = .ok Js →
    OneBlockPerVariable (Fac.rangeBearing2D 9 0 1 1 0 0.1 0.1)
      (fun r => if r = 1 then .generic ⟨1, false, [1, 0]⟩ else .pose2d ⟨0, true, 0, 0⟩) Js :=
  C57_blocks_partial _ .rangeBearing2D _ (.rangeBearing2D 9 0 1 1 0 0.1 0.1 rfl rfl) (by decide) (by decide)

/-- **C57** is false of `GenericPriorFactor`: for a constant variable it always returns two blocks. -/
theorem C57_generic_prior_false (h : Heap RVar) (id : Int) (r : VRef) (prior : List ℝ) (sigma : ℝ)
    (hc : VarLike.isConst (h r) = true) (old : List (Mat ℝ)) :
    ∃ Js, (genericPrior id r prior (1 / sigma)).computeJacobians h old = .ok Js ∧ Js.length = 2 ∧
      (genericPrior (V := RVar) id r prior (1 / sigma)).variables.length = 1 ∧
      ¬ OneBlockPerVariable (genericPrior id r prior (1 / sigma)) h Js := by
  refine ⟨[Mat.empty, Mat.empty], by simp [genericPrior, hc], rfl, rfl, fun hJ => ?_⟩
  have := hJ.length_eq
  simp [genericPrior] at this

example : VarLike.isConst (RVar.generic ⟨1, true, [1, 0]⟩) = true := rfl

/-- **C57** For a variable that is not constant `GenericPriorFactor` too returns one block of the right size. -/
theorem C57_generic_prior_partial (h : Heap RVar) (f : Factor ℝ RVar) (hf : Built h .genericPrior f)
    (hc : ∀ r, some r ∈ f.variables → VarLike.isConst (h r) = false) (old : List (Mat ℝ)) :
    ∃ Js, f.computeJacobians h old = .ok Js ∧ OneBlockPerVariable f h Js := by
  cases hf with
  | genericPrior id r prior sigma hp =>
    have hc := hc r (by simp [genericPrior])
    refine ⟨[Mat.diag prior.length (1 / sigma)], by simp [genericPrior, hc], .cons (mat_shape ?_) .nil⟩
    rw [hc]
    exact ⟨rfl, hp⟩

example : ∃ Js, (genericPrior 9 0 [5, 6] (1 / 0.1)).computeJacobians (fun _ => RVar.generic ⟨1, false, [1, 0]⟩) [] = .ok Js ∧
    OneBlockPerVariable (genericPrior 9 0 [5, 6] (1 / 0.1)) (fun _ => RVar.generic ⟨1, false, [1, 0]⟩) Js :=
  C57_generic_prior_partial _ _ (.genericPrior 9 0 [5, 6] 0.1 rfl) (by intro r _; rfl) []

/-- **C57** is false of `CoordinateTransformFactor`: if the output vector has any size other than 0 and 5, it is resized to 2
elements and the writes to the third, fourth and fifth element are undefined behaviour. -/
theorem C57_coordinate_transform_false (h : Heap RVar) (f : Factor ℝ RVar) (hf : Built h .coordinateTransform f)
    (hx : ∀ r v, some r ∈ f.variables → h r = .landmark v → v.value.length = 3) (old : List (Mat ℝ))
    (h0 : old.length ≠ 0) (h5 : old.length ≠ 5) : f.computeJacobians h old = .ub := by
  cases hf with
  | coordinateTransform id rot org sc la lb sigma h1 h2 h3 h4 h5' ho hs =>
    have hb := hx lb _ (by simp [Fac.coordinateTransform]) h5'
    simp only [Fac.coordinateTransform, h1, h2, h3, h4, h5']
    rw [if_neg (by rw [hs]; norm_num)]
    simp only [Fac.vec3, hb, if_true, Res.andThen]
    unfold Fac.coordBuffer
    rw [if_neg h0, if_pos h5]
    simp [Fac.writeBlocks]

/-- **C57** With an output vector that is empty or has five elements `CoordinateTransformFactor` returns one block per
variable. -/
theorem C57_coordinate_transform_partial (h : Heap RVar) (f : Factor ℝ RVar) (hf : Built h .coordinateTransform f)
    (old Js : List (Mat ℝ)) (hold : old.length = 0 ∨ old.length = 5) (hJ : f.computeJacobians h old = .ok Js) :
    OneBlockPerVariable f h Js := by
  cases hf with
  | coordinateTransform id rot org sc la lb sigma h1 h2 h3 h4 h5 ho hs =>
    have hbuf : (Fac.coordBuffer old).length = 5 := by
      rcases hold with h | h <;> simp [Fac.coordBuffer, h]
    have hwrite : ∀ bs : List (Mat ℝ), bs.length = 5 →
        Fac.writeBlocks (Fac.coordBuffer old).length (Fac.coordBuffer old) bs = .ok bs := by
      intro bs hbs
      rw [Fac.writeBlocks, hbuf, if_pos hbs.le, hbs, ← hbuf, List.drop_length, List.append_nil]
    simp only [Fac.coordinateTransform, h1, h2, h3, h4, h5] at hJ
    rw [if_neg (by rw [hs]; norm_num)] at hJ
    obtain ⟨xb, _, hJ⟩ := andThen_ok hJ
    have hJ' := Res.ok.inj ((hwrite _ rfl).symm.trans hJ)
    subst hJ'
    rw [← h1, ← h2, ← h3, ← h4, ← h5]
    exact .cons (block_shape _ rfl (by rw [h1]; rfl)) (.cons (block_shape _ rfl (by rw [h2]; exact ho))
      (.cons (block_shape _ rfl (by rw [h3]; exact hs)) (.cons (block_shape _ rfl (by rw [h4]; rfl))
        (.cons (block_shape _ rfl (by rw [h5]; rfl)) .nil))))

namespace C57
/-- Two frames and a landmark. -/
noncomputable def heap : Heap RVar := fun r =>
  match r with
  | 0 => .rotation (RotationVar.make 0 1)
  | 1 => .generic ⟨1, false, [1, 2, 3]⟩
  | 2 => .generic ⟨2, false, [2]⟩
  | 3 => .landmark ⟨3, false, [1, 2, 3]⟩
  | _ => .landmark ⟨4, false, [4, 5, 6]⟩

theorem built : Built heap .coordinateTransform (Fac.coordinateTransform 9 0 1 2 3 4 1) :=
  .coordinateTransform 9 0 1 2 3 4 1 rfl rfl rfl rfl rfl rfl rfl
end C57

example : (Fac.coordinateTransform 9 0 1 2 3 4 1).computeJacobians C57.heap [Mat.empty] = .ub := by
  refine C57_coordinate_transform_false _ _ C57.built (fun r v hr hv => ?_) [Mat.empty] (by simp) (by simp)
  simp only [Fac.coordinateTransform, List.mem_cons, Option.some.injEq, List.not_mem_nil, or_false] at hr
  rcases hr with rfl | rfl | rfl | rfl | rfl <;> cases hv <;> rfl

example : ∀ Js, (Fac.coordinateTransform 9 0 1 2 3 4 1).computeJacobians C57.heap [] = .ok Js →
    OneBlockPerVariable (Fac.coordinateTransform 9 0 1 2 3 4 1) C57.heap Js :=
  fun Js => C57_coordinate_transform_partial _ _ C57.built [] Js (.inl rfl)

theorem fill_reuse (n : Nat) (old bs : List (Mat ℝ)) (hn : bs.length = n) :
    Fac.fillBlocks n old bs = Fac.fillBlocks n [] bs := by rw [fillBlocks_ok hn, fillBlocks_ok hn]

theorem andThen_congr {α β : Type} {r : Res α} {f g : α → Res β} (h : ∀ a, f a = g a) : r.andThen f = r.andThen g := by
  cases r with
  | ok a => exact h a
  | threw => rfl
  | ub => rfl

theorem transform_own {id : Int} {rot org sc la lb : VRef} {sigma : ℝ} {buf : List (Mat ℝ)}
    (h : OwnBuffer (Fac.coordinateTransform id rot org sc la lb sigma) buf) : buf.length = 0 ∨ buf.length = 5 := by
  induction h with
  | nil => exact .inl rfl
  | @out h buf js _ hj ih =>
    have hbuf : (Fac.coordBuffer buf).length = 5 := by
      rcases ih with h | h <;> simp [Fac.coordBuffer, h]
    have hwrite : ∀ bs : List (Mat ℝ), bs.length = 5 →
        Fac.writeBlocks (Fac.coordBuffer buf).length (Fac.coordBuffer buf) bs = .ok bs := by
      intro bs hbs
      rw [Fac.writeBlocks, hbuf, if_pos hbs.le, hbs, ← hbuf, List.drop_length, List.append_nil]
    right
    simp only [Fac.coordinateTransform] at hj
    split at hj
    · split at hj
      · cases hj
      · obtain ⟨xb, _, hj⟩ := andThen_ok hj
        rw [← Res.ok.inj ((hwrite _ rfl).symm.trans hj)]
        rfl
    · cases hj

/-- **C57** No factor class is disturbed by its own earlier results: evaluated into an output vector that it filled itself
before (in any state of the variables), it returns the same blocks as into an empty one. This is the assumption on factors
in the sparse-Jacobian theorems (C07). -/
theorem C57_reuse (h : Heap RVar) (c : FactorClass) (f : Factor ℝ RVar) (hf : Built h c f) : ReuseSafe f := by
  intro h' buf hbuf
  cases hf with
  | genericPrior => rfl
  | genericBetween => rfl
  | coordinateTransform id rot org sc la lb sigma =>
    have hwrite : ∀ (old bs : List (Mat ℝ)), (old.length = 0 ∨ old.length = 5) → bs.length = 5 →
        Fac.writeBlocks (Fac.coordBuffer old).length (Fac.coordBuffer old) bs = .ok bs := by
      intro old bs hold hbs
      have hb : (Fac.coordBuffer old).length = 5 := by
        rcases hold with h | h <;> simp [Fac.coordBuffer, h]
      rw [Fac.writeBlocks, hb, if_pos hbs.le, hbs, ← hb, List.drop_length, List.append_nil]
    simp only [Fac.coordinateTransform]
    split
    · split
      · rfl
      · refine andThen_congr fun xb => ?_
        rw [hwrite buf _ (transform_own hbuf) rfl, hwrite [] _ (.inl rfl) rfl]
    · rfl
  | posePositionPrior =>
    simp only [Fac.posePositionPrior]
    split <;> first | rfl | exact fill_reuse _ _ _ rfl
  | poseOrientationPrior =>
    simp only [Fac.poseOrientationPrior]
    split
    · split
      · exact fill_reuse _ _ _ rfl
      · exact andThen_congr fun _ => fill_reuse _ _ _ rfl
    · rfl
  | rotationPrior =>
    simp only [Fac.rotationPrior]
    split
    · split
      · exact fill_reuse _ _ _ rfl
      · exact andThen_congr fun _ => fill_reuse _ _ _ rfl
    · rfl
  | posePositionBetween =>
    simp only [Fac.posePositionBetween]
    split <;> first | rfl | exact fill_reuse _ _ _ rfl
  | poseOrientationBetween =>
    simp only [Fac.poseOrientationBetween]
    split
    · exact andThen_congr fun _ => fill_reuse _ _ _ rfl
    · rfl
  | bearingObservation =>
    simp only [Fac.bearingObservation]
    split
    · refine andThen_congr fun _ => ?_
      split
      · rfl
      · exact fill_reuse _ _ _ rfl
    · rfl
  | inverseRangeBearing =>
    simp only [Fac.inverseRangeBearing]
    split
    · split
      · split
        · rfl
        · exact fill_reuse _ _ _ rfl
      · rfl
    · rfl
  | bearingProjection =>
    simp only [Fac.bearingProjection]
    split
    · refine andThen_congr fun _ => ?_
      split
      · rfl
      · split <;> exact fill_reuse _ _ _ rfl
    · rfl
  | bearing2D =>
    simp only [Fac.bearing2D]
    split
    · refine andThen_congr fun _ => ?_
      split
      · rfl
      · exact fill_reuse _ _ _ rfl
    · rfl
  | rangeBearing2D =>
    simp only [Fac.rangeBearing2D]
    split
    · refine andThen_congr fun _ => ?_
      split
      · rfl
      · exact fill_reuse _ _ _ rfl
    · rfl
  | pose2DPrior =>
    simp only [Fac.pose2DPrior]
    split <;> first | rfl | exact fill_reuse _ _ _ rfl
  | pose2DBetween =>
    simp only [Fac.pose2DBetween]
    split <;> first | rfl | exact fill_reuse _ _ _ rfl
  | plane id p l sigma scaling =>
    simp only [Fac.planeFactor]
    split
    · refine andThen_congr fun _ => ?_
      cases scaling <;> exact fill_reuse _ _ _ rfl
    · rfl
  | planePrior =>
    simp only [Fac.planePrior]
    split <;> first | rfl | exact fill_reuse _ _ _ rfl
  | linearVelocity =>
    simp only [Fac.linearVelocity]
    exact andThen_congr fun _ => andThen_congr fun _ => fill_reuse _ _ _ rfl

example : ReuseSafe (Fac.coordinateTransform 9 0 1 2 3 4 1) := C57_reuse _ _ _ C57.built

/-- The blocks of a factor whose `compute_jacobians` returns have been computed from variables of the declared classes, so the
factor is one of the library for these variables too. -/
theorem built_again {h h' : Heap RVar} {c : FactorClass} {f : Factor ℝ RVar} (hf : Built h c f) (hs : SameShape h h')
    {js : List (Mat ℝ)} (hj : f.computeJacobians h' [] = .ok js) : Built h' c f := by
  have hsz : ∀ r, VarLike.size (h' r) = VarLike.size (h r) := fun r => (hs r).2.2
  cases hf with
  | genericPrior id r prior sigma hp => exact .genericPrior _ _ _ _ (hp.trans (hsz r).symm)
  | genericBetween id a b m n sigma ha hb hm =>
    exact .genericBetween _ _ _ _ _ _ ((hsz a).trans ha) ((hsz b).trans hb) ((hsz m).trans hm)
  | posePositionPrior id p prior sigma hp =>
    simp only [Fac.posePositionPrior] at hj
    split at hj <;> first | exact .posePositionPrior _ _ _ _ (by assumption) | cases hj
  | poseOrientationPrior id p prior sigma hp =>
    simp only [Fac.poseOrientationPrior] at hj
    split at hj <;> first | exact .poseOrientationPrior _ _ _ _ (by assumption) | cases hj
  | rotationPrior id p prior sigma hp =>
    simp only [Fac.rotationPrior] at hj
    split at hj <;> first | exact .rotationPrior _ _ _ _ (by assumption) | cases hj
  | posePositionBetween id a b m sigma localFrame ha hb hm =>
    simp only [Fac.posePositionBetween] at hj
    split at hj <;> first | exact .posePositionBetween _ _ _ _ _ _ (by assumption) (by assumption) ((hsz m).trans hm) | cases hj
  | poseOrientationBetween id p1 p2 c sigma h1 h2 hc =>
    simp only [Fac.poseOrientationBetween] at hj
    split at hj <;> first | exact .poseOrientationBetween _ _ _ _ _ (by assumption) (by assumption) (by assumption) | cases hj
  | bearingObservation id p l bearing sigma hp hl =>
    simp only [Fac.bearingObservation] at hj
    split at hj <;> first | exact .bearingObservation _ _ _ _ _ (by assumption) (by assumption) | cases hj
  | inverseRangeBearing id p r bearing sigma hp hr =>
    simp only [Fac.inverseRangeBearing] at hj
    split at hj <;> first | exact .inverseRangeBearing _ _ _ _ _ (by assumption) (by assumption) | cases hj
  | bearingProjection id p l bearing sigma tol hp hl =>
    simp only [Fac.bearingProjection] at hj
    split at hj <;> first | exact .bearingProjection _ _ _ _ _ _ (by assumption) (by assumption) | cases hj
  | bearing2D id p l obs sigma hp hl =>
    simp only [Fac.bearing2D] at hj
    split at hj <;> first | exact .bearing2D _ _ _ _ _ (by assumption) ((hsz l).trans hl) | cases hj
  | rangeBearing2D id p l range obs rs bs hp hl =>
    simp only [Fac.rangeBearing2D] at hj
    split at hj <;> first | exact .rangeBearing2D _ _ _ _ _ _ _ (by assumption) ((hsz l).trans hl) | cases hj
  | pose2DPrior id p prior ps as hp =>
    simp only [Fac.pose2DPrior] at hj
    split at hj <;> first | exact .pose2DPrior _ _ _ _ _ (by assumption) | cases hj
  | pose2DBetween id a b m ps as localFrame ha hb hm =>
    simp only [Fac.pose2DBetween] at hj
    split at hj <;> first | exact .pose2DBetween _ _ _ _ _ _ _ (by assumption) (by assumption) ((hsz m).trans hm) | cases hj
  | plane id p l sigma scaling hp hl =>
    simp only [Fac.planeFactor] at hj
    split at hj <;> first | exact .plane _ _ _ _ _ ((hsz p).trans hp) (by assumption) | cases hj
  | planePrior id l n0 d0 ns ds hl =>
    simp only [Fac.planePrior] at hj
    split at hj <;> first | exact .planePrior _ _ _ _ _ _ (by assumption) | cases hj
  | linearVelocity id v1 v2 vel n dt sigma i hv => exact .linearVelocity _ _ _ _ _ _ _ _ ((hsz vel).trans hv)
  | @coordinateTransform v o s a b id rot org sc la lb sigma h1 h2 h3 h4 h5 ho hs' =>
    have eo : VarLike.size (h' org) = 3 := by rw [hsz, h2]; exact ho
    have es : VarLike.size (h' sc) = 1 := by rw [hsz, h3]; exact hs'
    simp only [Fac.coordinateTransform] at hj
    split at hj
    · rename_i e1 e2 e3 e4 e5
      rw [e2] at eo
      rw [e3] at es
      exact .coordinateTransform _ _ _ _ _ _ _ e1 e2 e3 e4 e5 eo es
    · cases hj

/-- **C57** The blocks of a library factor without empty variables, computed into an empty output vector, are proper: they
meet the assumption of the Jacobian theorems of the graph (C06, C07), whatever the values of the variables. -/
theorem C57_proper {h h' : Heap RVar} {c : FactorClass} {f : Factor ℝ RVar} (hf : Built h c f) (hs : SameShape h h')
    (hsize : 0 < f.residualSize ∧ ∀ r, some r ∈ f.variables → 0 < VarLike.size (h r)) {js : List (Mat ℝ)}
    (hj : f.computeJacobians h' [] = .ok js) : ProperBlocks h' f js := by
  have hb := built_again hf hs hj
  have key : OneBlockPerVariable f h' js → ProperBlocks h' f js := by
    intro ho k r hr
    obtain ⟨hlt, he⟩ := List.getElem?_eq_some_iff.1 hr
    have hl : k < js.length := ho.length_eq ▸ hlt
    obtain ⟨r', e1, e2⟩ := (List.forall₂_iff_get.1 ho).2 k hlt hl
    have : r' = r := by
      have e1' : f.variables[k] = some r' := e1
      rw [he] at e1'
      exact (Option.some.inj e1').symm
    subst this
    refine ⟨js[k], List.getElem?_eq_getElem hl, fun hc => ?_, fun hc => ?_⟩
    · rw [hc] at e2
      rw [show js[k] = Mat.empty from e2]
      rfl
    · rw [hc] at e2
      obtain ⟨g1, g2⟩ : js[k].rows = f.residualSize ∧ js[k].cols = VarLike.size (h' r') := e2
      refine ⟨?_, g1, g2⟩
      have hp := hsize.2 r' (List.mem_of_getElem? hr)
      rw [← (hs r').2.2] at hp
      have := hsize.1
      simp only [Mat.isEmpty, g1, g2]
      simp
      omega
  by_cases h1 : c = .genericPrior
  · subst h1
    cases hb with
    | genericPrior id r prior sigma hp =>
      cases hc : VarLike.isConst (h' r) with
      | false =>
        obtain ⟨Js, e1, e2⟩ := C57_generic_prior_partial h' _ (.genericPrior id r prior sigma hp)
          (fun s hs => by
            have : s = r := by simpa [genericPrior] using hs
            rw [this, hc]) []
        rw [hj] at e1
        cases e1
        exact key e2
      | true =>
        have : js = [Mat.empty, Mat.empty] := by simpa [genericPrior, hc] using hj.symm
        subst this
        intro k s hk
        match k with
        | 0 =>
          have : s = r := by simpa [genericPrior] using hk.symm
          subst this
          exact ⟨Mat.empty, rfl, fun _ => rfl, fun e => by rw [hc] at e; cases e⟩
        | k + 1 => simp [genericPrior] at hk
  · by_cases h2 : c = .coordinateTransform
    · subst h2
      exact key (C57_coordinate_transform_partial _ _ hb [] js (.inl rfl) hj)
    · exact key (C57_blocks_partial _ _ _ hb h1 h2 [] js hj)

/-- Both hypotheses hold of a planar range-bearing factor, and its blocks can be computed. -/
example : ∃ js, (Fac.rangeBearing2D 9 0 1 1 0 0.1 0.1).computeJacobians
      (fun r => if r = 1 then .generic ⟨1, false, [1, 0]⟩ else .pose2d ⟨0, true, 0, 0⟩) [] = .ok js ∧
    ProperBlocks (fun r => if r = 1 then .generic ⟨1, false, [1, 0]⟩ else .pose2d ⟨0, true, 0, 0⟩)
      (Fac.rangeBearing2D 9 0 1 1 0 0.1 0.1) js := by
  have hj : ∃ js, (Fac.rangeBearing2D 9 0 1 1 0 0.1 0.1).computeJacobians
      (fun r => if r = 1 then .generic ⟨1, false, [1, 0]⟩ else .pose2d ⟨0, true, 0, 0⟩) [] = .ok js := by
    have h1 : ¬ (1 : ℝ) < 1e-9 := by norm_num
    simp [Fac.rangeBearing2D, Fac.head2, VarLike.value, Res.andThen, Fac.deltaLocal, Pose2DVar.dcm, Matrix.mulVec, dotProduct,
      Fin.sum_univ_two, Fac.fillBlocks, Fac.writeBlocks, h1]
  obtain ⟨js, hj⟩ := hj
  refine ⟨js, hj, C57_proper (h := fun r => if r = 1 then .generic ⟨1, false, [1, 0]⟩ else .pose2d ⟨0, true, 0, 0⟩)
    (.rangeBearing2D 9 0 1 1 0 0.1 0.1 rfl rfl) (fun _ => ⟨rfl, rfl, rfl⟩) ⟨by decide, fun r hr => ?_⟩ hj⟩
  simp only [Fac.rangeBearing2D, List.mem_cons, Option.some.injEq, List.not_mem_nil, or_false] at hr
  rcases hr with rfl | rfl <;> decide

end Factorama.Props
