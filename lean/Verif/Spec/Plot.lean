import Verif.Model.Plot
import Verif.Spec.Geometry

/-!
# What a drawing of a graph should show
-/

namespace Factorama.Spec
open Matrix Geo Plot

/-- `f` was constructed with pointers to objects of the declared classes, and Python sees the accessors bound for its
class. -/
inductive Seen (h : Heap RVar) : PyFactor → Prop
  | bearingObservation {v x} (id p l bearing sigma) : h p = .pose v → h l = .landmark x →
      Seen h (.bearingObservation id p l bearing sigma)
  | bearing2D {v} (id p l obs sigma) : h p = .pose2d v → VarLike.size (h l) = 2 → Seen h (.bearing2D id p l obs sigma)
  | rangeBearing2D {v} (id p l range obs rs bs) : h p = .pose2d v → VarLike.size (h l) = 2 →
      Seen h (.rangeBearing2D id p l range obs rs bs)
  | other (f : PyFactor) : Built h f.cls f.fac → f.cls ≠ .bearingObservation → f.cls ≠ .bearing2D →
      f.cls ≠ .rangeBearing2D → f.bearingC = none → f.angle = none → f.range = none → Seen h f

/-- Every landmark has three values. -/
def LandmarksSized (h : Heap RVar) : Prop := ∀ r x, h r = .landmark x → x.value.length = 3

/-- The kind and position with which a variable is shown, for the kinds of variables that are shown. -/
def shownAs : RVar → Option (Mark × V3)
  | .pose v => some (.pose, v.pos)
  | .landmark x => some (.landmark, read3 x.value 0)
  | .pose2d v => some (.pose2d, ![v.pos 0, v.pos 1, 0])
  | .generic v => if v.value.length = 2 then some (.landmark2d, ![v.value.getD 0 0, v.value.getD 1 0, 0]) else none
  | _ => none

/-- The markers of a drawing. -/
def markers (items : List Item) : List (Mark × V3) := items.filterMap fun
  | .marker k p => some (k, p)
  | _ => none

/-- The lines of a drawing. -/
def lines (items : List Item) : List (Line × V3 × V3) := items.filterMap fun
  | .line k a b => some (k, a, b)
  | _ => none

/-- `np.linalg.eigh` does what it should: for a symmetric matrix it finds an orthonormal basis of eigenvectors, with
ascending eigenvalues. -/
structure Diagonalizes (E : Eigh) : Prop where
  orthonormal {n : Nat} (C : Matrix (Fin n) (Fin n) ℝ) : C.IsSymm → (E.vectors C)ᵀ * E.vectors C = 1
  eigen {n : Nat} (C : Matrix (Fin n) (Fin n) ℝ) : C.IsSymm → C = E.vectors C * diagonal (E.values C) * (E.vectors C)ᵀ
  ascending {n : Nat} (C : Matrix (Fin n) (Fin n) ℝ) : C.IsSymm → Monotone (E.values C)

/-- The squared distance of a point from the estimate in units of the standard deviation. -/
noncomputable def sigmas {n : Nat} (C : Matrix (Fin n) (Fin n) ℝ) (estimate x : Fin n → ℝ) : ℝ :=
  (x - estimate) ⬝ᵥ (C⁻¹ *ᵥ (x - estimate))

/-- The outline of an ellipse patch: an ellipse with the given diameters, turned by the angle about its centre. -/
def Outline (centre : V2) (width height angle : ℝ) (x : V2) : Prop :=
  ∃ t : ℝ, x = centre + ![Real.cos angle * (width / 2 * Real.cos t) - Real.sin angle * (height / 2 * Real.sin t),
    Real.sin angle * (width / 2 * Real.cos t) + Real.cos angle * (height / 2 * Real.sin t)]

/-- The point is inside the box. -/
def InBox (lo hi p : V3) : Prop := ∀ i, lo i ≤ p i ∧ p i ≤ hi i

end Factorama.Spec
