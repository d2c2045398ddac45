import Verif.Spec.Frame
import Verif.Spec.FrameTurn

/-!
# Specification: how covariances look in another world frame
-/

namespace Factorama.Spec
open Matrix Geo

/-- The rotation by `phi` of the first two of `n` numbers: the position of a planar pose, but not its heading. -/
noncomputable def planeTurn (phi : ℝ) (n : Nat) : Matrix (Fin n) (Fin n) ℝ :=
  Matrix.of fun i j => if h : i.1 < 2 ∧ j.1 < 2 then turn phi ⟨i, h.1⟩ ⟨j, h.2⟩ else if i = j then 1 else 0

/-- The rotation `W` of the first three of `n` numbers: the position of a pose, but not its local rotation. -/
noncomputable def spaceTurn (W : M3) (n : Nat) : Matrix (Fin n) (Fin n) ℝ :=
  Matrix.of fun i j => if h : i.1 < 3 ∧ j.1 < 3 then W ⟨i, h.1⟩ ⟨j, h.2⟩ else if i = j then 1 else 0

/-- What becomes of the errors of a quantity of `n` numbers when the plane is turned. -/
noncomputable def planeErrors (phi : ℝ) (role : PlaneRole) (n : Nat) : Matrix (Fin n) (Fin n) ℝ :=
  match role with
  | .still => 1
  | _ => planeTurn phi n

/-- What becomes of the errors of a quantity of `n` numbers when space is turned. The range and the direction of a ray are
measured along axes carried by the ray. -/
noncomputable def spaceErrors (W : M3) (role : TurnRole) (n : Nat) : Matrix (Fin n) (Fin n) ℝ :=
  match role with
  | .pose | .landmark | .point | .arrow | .attitude | .origin => spaceTurn W n
  | _ => 1

end Factorama.Spec
