import Verif.Model.History

/-!
# `GenericVariable`, `GenericPriorFactor` and `GenericBetweenFactor`

These classes only add, subtract and scale, so they are modelled for every scalar type.
-/

namespace Factorama

/-- `class GenericVariable`, generic_variable.hpp:19-62, with the members of `Variable`
(base_types.hpp:175-181). -/
structure GenVar (F : Type) where
  id : Int
  isConst : Bool
  value : List F
  deriving Repr, DecidableEq

namespace GenVar
variable {F : Type} [Add F]

/-- The constructor, generic_variable.hpp:27-34: rejects an empty vector. -/
def make (id : Int) (x : List F) : Res (GenVar F) :=
  if x.length = 0 then .threw else .ok ⟨id, false, x⟩

/-- `set_value_from_vector`, generic_variable.hpp:40-46. -/
def setValue (v : GenVar F) (x : List F) : Res (GenVar F) :=
  if x.length ≠ v.value.length then .threw else .ok { v with value := x }

/-- `apply_increment`, generic_variable.hpp:48-54. -/
def applyIncr (v : GenVar F) (dx : List F) : Res (GenVar F) :=
  if dx.length ≠ v.value.length then .threw
  else .ok { v with value := List.zipWith (· + ·) v.value dx }

instance : VarLike F (GenVar F) where
  id := GenVar.id
  isConst := GenVar.isConst
  setConst v b := { v with isConst := b }
  size v := v.value.length
  value := GenVar.value
  setValue := setValue
  applyIncr := applyIncr

instance : LawfulVar F (GenVar F) where
  id_setConst _ _ := rfl
  isConst_setConst _ _ := rfl
  size_setConst _ _ := rfl
  id_setValue v v' x h := by
    simp only [VarLike.setValue, setValue] at h; split at h <;> simp at h; subst h; rfl
  isConst_setValue v v' x h := by
    simp only [VarLike.setValue, setValue] at h; split at h <;> simp at h; subst h; rfl
  size_setValue v v' x h := by
    simp only [VarLike.setValue, setValue] at h
    split at h
    · simp at h
    · rename_i hx; simp at h hx; subst h; simpa [VarLike.size] using hx
  id_applyIncr v v' x h := by
    simp only [VarLike.applyIncr, applyIncr] at h; split at h <;> simp at h; subst h; rfl
  isConst_applyIncr v v' x h := by
    simp only [VarLike.applyIncr, applyIncr] at h; split at h <;> simp at h; subst h; rfl
  size_applyIncr v v' x h := by
    simp only [VarLike.applyIncr, applyIncr] at h
    split at h
    · simp at h
    · rename_i hx; simp at h hx; subst h; simp [VarLike.size]; omega

end GenVar

/-- `a - b` of two Eigen vectors; different sizes are an `eigen_assert`. -/
def vecSub {F : Type} [Sub F] (a b : List F) : Res (List F) :=
  if a.length = b.length then .ok (List.zipWith (· - ·) a b) else .ub

/-- `setZero(); diagonal().array() = w` on an `n × n` matrix. -/
def Mat.diag {F : Type} [Zero F] (n : Nat) (w : F) : Mat F := ⟨n, n, fun i j => if i = j then w else 0⟩

section factors
variable {F V : Type} [Zero F] [Sub F] [Mul F] [Neg F] [VarLike F V]

/-- `GenericPriorFactor`, generic_prior_factor.hpp:20-89; `w` is `weight_ = 1/sigma` and `size_` is the
size of the prior. A resized matrix is completely overwritten, so its old contents do not matter.
The two branches of `compute_jacobians` (lines 55-74) leave one block if the variable is not constant and
two blocks if it is. -/
def genericPrior (id : Int) (r : VRef) (prior : List F) (w : F) : Factor F V where
  id := id
  residualSize := prior.length
  variables := [some r]
  computeResidual h :=
    match vecSub (VarLike.value (h r)) prior with
    | .ok d => .ok (d.map (w * ·))
    | .threw => .threw
    | .ub => .ub
  computeJacobians h _ :=
    if VarLike.isConst (h r) then .ok [Mat.empty, Mat.empty]
    else .ok [Mat.diag prior.length w]

/-- The block of one variable in `GenericBetweenFactor::compute_jacobians`. -/
def betweenBlock (n : Nat) (v : V) (w : F) : Mat F :=
  if VarLike.isConst v then Mat.empty else Mat.diag n w

/-- `GenericBetweenFactor`, generic_between_factor.cpp:7-84; `n` is `size_`, the size of `measured_diff` at
construction. -/
def genericBetween (id : Int) (a b m : VRef) (n : Nat) (w : F) : Factor F V where
  id := id
  residualSize := n
  variables := [some a, some b, some m]
  computeResidual h :=
    match vecSub (VarLike.value (h b)) (VarLike.value (h a)) with
    | .ok d => match vecSub d (VarLike.value (h m)) with
      | .ok e => .ok (e.map (w * ·))
      | .threw => .threw
      | .ub => .ub
    | .threw => .threw
    | .ub => .ub
  computeJacobians h _ :=
    .ok [betweenBlock n (h a) (-w), betweenBlock n (h b) w, betweenBlock n (h m) (-w)]

end factors

end Factorama
