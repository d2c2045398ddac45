import Verif.Spec.Factors

/-!
# All variables of a factor move at once
-/

namespace Factorama.Spec
open Matrix Geo Topology

/-- `compute_jacobians`, called with an empty output vector as the factor graph does, returns one block per variable, in
the order of `variables()`: an empty one for a constant variable and otherwise the derivative of the residual. -/
def FreshJacobiansCorrect (incr : Increment) (f : Factor ℝ RVar) (h : Heap RVar) : Prop :=
  ∃ Js, f.computeJacobians h [] = .ok Js ∧
    List.Forall₂ (fun v J => ∃ r, v = some r ∧
      if VarLike.isConst (h r) then J = Mat.empty else IsDerivative incr f h r J) f.variables Js

/-- `v'` is the state of the variable `v` after the graph has handed it the increment `d`: a constant variable receives
none. -/
def Moved (v : RVar) (d : Fin (VarLike.size v) → ℝ) (v' : RVar) : Prop :=
  if VarLike.isConst v then v' = v else VarLike.applyIncr v (List.ofFn d) = .ok v'

/-- When the variables receive increments that depend linearly on a vector `x`, all at once, the residual is a function of
`x` near zero that is differentiable at zero. -/
def JointlyDifferentiable (f : Factor ℝ RVar) (h : Heap RVar) : Prop :=
  ∀ (N : Nat) (L : ∀ r, (Fin N → ℝ) →L[ℝ] (Fin (VarLike.size (h r)) → ℝ)),
    ∃ F : (Fin N → ℝ) → (Fin f.residualSize → ℝ), DifferentiableAt ℝ F 0 ∧
      ∀ᶠ x in 𝓝 0, ∀ h' : Heap RVar, (∀ r, some r ∈ f.variables → Moved (h r) (L r x) (h' r)) →
        f.computeResidual h' = .ok (List.ofFn (F x))

/-- `f` is a factor of the library and its variables are away from the states at which its residual is not differentiable
or its `compute_jacobians` does not return the derivative. The conditions are those of C42–C56. -/
inductive SmoothPoint (h : Heap RVar) : Factor ℝ RVar → Prop
  | genericPrior {n : Nat} {x p : Fin n → ℝ} (id r sigma) : 0 < n → IsVector (h r) x → VarLike.isConst (h r) = false →
      SmoothPoint h (Factorama.genericPrior id r (toList p) (1 / sigma))
  | genericBetween {n : Nat} {xa xb xm : Fin n → ℝ} (id a b m sigma) : 0 < n → IsVector (h a) xa → IsVector (h b) xb →
      IsVector (h m) xm → a ≠ b → a ≠ m → b ≠ m → SmoothPoint h (Factorama.genericBetween id a b m n (1 / sigma))
  | posePositionPrior {v} (id p prior sigma) : h p = .pose v → SmoothPoint h (Fac.posePositionPrior id p prior sigma)
  | poseOrientationPrior {v} (id p prior sigma) : h p = .pose v → IsRotation v.dcm → Regular v.dcm → IsRotation prior →
      (prior = 1 ∨ 1e-5 ≤ angle prior) → (v.dcm = prior ∨ Regular (v.dcm * priorᵀ)) →
      SmoothPoint h (Fac.poseOrientationPrior id p prior sigma)
  | rotationPrior {v} (id r prior sigma) : h r = .rotation v → IsRotation v.dcm → IsRotation prior →
      (v.dcm = prior ∨ Regular (v.dcm * priorᵀ)) → SmoothPoint h (Fac.rotationPrior id r prior sigma)
  | posePositionBetween {va vb} {x : V3} (id a b m sigma localFrame) : h a = .pose va → h b = .pose vb → IsVector (h m) x →
      a ≠ b → IsRotation va.dcm → Regular va.dcm → SmoothPoint h (Fac.posePositionBetween id a b m sigma localFrame)
  | poseOrientationBetween {v1 v2 vc} (id p1 p2 c sigma) : h p1 = .pose v1 → h p2 = .pose v2 → h c = .rotation vc → p1 ≠ p2 →
      IsRotation v1.dcm → Regular v1.dcm → IsRotation v2.dcm → Regular v2.dcm → IsRotation vc.dcm →
      (v2.dcm * v1.dcmᵀ * vc.dcm = 1 ∨ Regular (v2.dcm * v1.dcmᵀ * vc.dcm)) →
      SmoothPoint h (Fac.poseOrientationBetween id p1 p2 c sigma)
  | bearingObservation {v x} {pw : V3} (id p l bearing sigma) : h p = .pose v → h l = .landmark x → x.value = toList pw →
      IsRotation v.dcm → Regular v.dcm → 1e-9 ≤ length (v.dcm *ᵥ (pw - v.pos)) →
      SmoothPoint h (Fac.bearingObservation id p l bearing sigma)
  | inverseRangeBearing {v x} (id p r bearing sigma) : h p = .pose v → h r = .invRange x → x.extra = [] → 1e-9 < |x.inv| →
      x.lo < x.inv → x.inv < x.hi → IsRotation v.dcm → Regular v.dcm →
      1e-9 ≤ length (v.dcm *ᵥ (x.origin + (1 / x.inv) • x.bearing - v.pos)) →
      SmoothPoint h (Fac.inverseRangeBearing id p r bearing sigma)
  | bearingProjection {v x} {pw : V3} (id p l bearing sigma tol) : h p = .pose v → h l = .landmark x → x.value = toList pw →
      IsRotation v.dcm → Regular v.dcm → v.dcm *ᵥ (pw - v.pos) ≠ 0 →
      normalized bearing ⬝ᵥ normalized (v.dcm *ᵥ (pw - v.pos)) ≠ tol →
      SmoothPoint h (Fac.bearingProjection id p l bearing sigma tol)
  | bearing2D {v} {x : V2} (id p l obs sigma) : h p = .pose2d v → IsVector (h l) x →
      1e-9 * 1e-9 ≤ Fac.deltaLocal v x 0 * Fac.deltaLocal v x 0 + Fac.deltaLocal v x 1 * Fac.deltaLocal v x 1 →
      wrapAngle (atan2 (Fac.deltaLocal v x 1) (Fac.deltaLocal v x 0) - obs) < Real.pi →
      SmoothPoint h (Fac.bearing2D id p l obs sigma)
  | rangeBearing2D {v} {x : V2} (id p l range obs rs bs) : h p = .pose2d v → IsVector (h l) x →
      1e-9 ≤ length (Fac.deltaLocal v x) →
      wrapAngle (atan2 (Fac.deltaLocal v x 1) (Fac.deltaLocal v x 0) - obs) < Real.pi →
      SmoothPoint h (Fac.rangeBearing2D id p l range obs rs bs)
  | pose2DPrior {v} (id p prior ps as) : h p = .pose2d v → wrapAngle (v.theta - prior 2) < Real.pi →
      SmoothPoint h (Fac.pose2DPrior id p prior ps as)
  | pose2DBetween {va vb x} (id a b m ps as localFrame) : h a = .pose2d va → h b = .pose2d vb → MeasuredPose (h m) x →
      a ≠ b → a ≠ m → b ≠ m → wrapAngle (vb.theta - va.theta - x 2) < Real.pi →
      SmoothPoint h (Fac.pose2DBetween id a b m ps as localFrame)
  | plane {v} {x : V3} (id p l sigma) : h l = .plane v → v.normal ⬝ᵥ v.normal = 1 → IsVector (h p) x →
      SmoothPoint h (Fac.planeFactor id p l sigma none)
  | planeScaled {v} {x : V3} (id p l sigma r0 p0) : h l = .plane v → v.normal ⬝ᵥ v.normal = 1 → IsVector (h p) x → 0 < r0 →
      1e-12 < length (x - p0) → SmoothPoint h (Fac.planeFactor id p l sigma (some (r0, p0)))
  | planePrior {v} (id l n0 d0 ns ds) : h l = .plane v → v.normal ⬝ᵥ v.normal = 1 →
      SmoothPoint h (Fac.planePrior id l n0 d0 ns ds)
  | linearVelocity {n : Nat} {x1 x2 u : Fin n → ℝ} (id v1 v2 vel dt sigma i) : 0 < n → HasPart (h v1) i x1 → HasPart (h v2) i x2 →
      IsVector (h vel) u → v1 ≠ v2 → v1 ≠ vel → v2 ≠ vel → SmoothPoint h (Fac.linearVelocity id v1 v2 vel n dt sigma i)
  | coordinateTransform {v o s a b} (id rot org sc la lb sigma) : TransformVars h rot org sc la lb v o s a b → org ≠ sc →
      la ≠ lb → SmoothPoint h (Fac.coordinateTransform id rot org sc la lb sigma)

end Factorama.Spec
