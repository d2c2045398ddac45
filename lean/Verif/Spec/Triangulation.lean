import Verif.Model.Factors
import Verif.Spec.Factors

/-!
# Specification: landmarks that are seen from poses
-/

namespace Factorama.Spec
open Geo

/-- The factor says in which direction the pose at `p` sees the landmark at `l`; `y` is the way from the pose to the landmark. -/
inductive Sight (h : Heap RVar) : Factor ℝ RVar → VRef → VRef → (Nat → ℝ) → Prop where
  | space {id : Int} {p l : VRef} {bearing : V3} {sigma : ℝ} {v : PoseVar} {x : LandmarkVar} {pw : V3} (hs : sigma ≠ 0)
      (hp : h p = .pose v) (hR : IsRotation v.dcm) (hl : h l = .landmark x) (hx : x.value = toList pw) :
      Sight h (Fac.bearingObservation id p l bearing sigma) p l fun j => (toList (pw - v.pos)).getD j 0
  | planar {id : Int} {p l : VRef} {obs sigma : ℝ} {v : Pose2DVar} {x : V2} (hs : sigma ≠ 0)
      (hp : h p = .pose2d v) (hl : IsVector (h l) x) :
      Sight h (Fac.bearing2D id p l obs sigma) p l fun j => (toList (x - v.pos)).getD j 0

/-- The first `n` components of `y` are a multiple of those of `u`. -/
def Along (n : Nat) (u y : Nat → ℝ) : Prop := ∃ a : ℝ, ∀ j, j < n → y j = a * u j

end Factorama.Spec
