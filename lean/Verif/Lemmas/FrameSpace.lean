import Verif.Lemmas.Moved
import Verif.Lemmas.Variables
import Verif.Spec.Frame

/-!
# Shifting a world in space
-/

namespace Factorama
open Spec Matrix Geo

theorem toList_value {n : Nat} (x y : Fin n → ℝ) (h : toList x = toList y) : x = y := List.ofFn_inj.1 h

theorem vec3_toList (x : V3) : Fac.vec3 (toList x) = .ok x := by
  simp only [Fac.vec3, toList, List.length_ofFn, if_true]
  congr 1
  funext i
  fin_cases i <;> simp [read3]

theorem landmark_posW_toList (id : Int) (c : Bool) (x : V3) : LandmarkVar.posW ⟨id, c, toList x⟩ = .ok x := by
  have := vec3_toList x
  simpa [Fac.vec3, LandmarkVar.posW] using this

theorem vecSub_toList {n : Nat} (x y : Fin n → ℝ) : vecSub (toList x) (toList y) = .ok (toList (x - y)) := by
  rw [vecSub, if_pos (by simp [toList])]
  congr 1
  apply List.ext_getElem (by simp [toList])
  intro i h1 h2
  simp [toList]

/-- The values of two objects that have a place, before and after. -/
theorem shiftedVar_value {a : V3} {role : SpaceRole} {v v' : RVar} (hr : role = .landmark ∨ role = .point)
    (h : ShiftedVar a role v v') : ∃ x, VarLike.value v = toList x ∧ VarLike.value v' = toList (x + a) ∧
      VarLike.isConst v' = VarLike.isConst v := by
  rcases hr with rfl | rfl <;> cases h <;> exact ⟨_, rfl, rfl, rfl⟩

theorem shiftedVar_shape {a : V3} {role : SpaceRole} {v v' : RVar} (h : ShiftedVar a role v v') :
    VarLike.isConst v' = VarLike.isConst v ∧ VarLike.size v' = VarLike.size v := by
  cases h <;> exact ⟨rfl, rfl⟩

theorem block_const {m n : Nat} {v v' : RVar} (h : VarLike.isConst v' = VarLike.isConst v) (A : Matrix (Fin m) (Fin n) ℝ) :
    Fac.block v' A = Fac.block v A := by
  simp only [Fac.block, h]

theorem take_append_ofFn {n : Nat} (x : Fin n → ℝ) (l : List ℝ) : (toList x ++ l).take n = toList x := by
  rw [List.take_append_of_le_length (by simp [toList]), List.take_of_length_le (by simp [toList])]

theorem segment_toList (x : V3) (l : List ℝ) : Fac.segmentOf (toList x ++ l) 0 3 = .ok (toList x) := by
  rw [Fac.segmentOf, if_pos (by simp [toList]), List.drop_zero, take_append_ofFn]

theorem segment_pose (v : PoseVar) : Fac.segmentOf (VarLike.value (RVar.pose v)) 0 3 = .ok (toList v.pos) := by
  show Fac.segmentOf (toList v.pos ++ toList v.rot ++ v.extra) 0 3 = _
  rw [List.append_assoc]
  exact segment_toList _ _

theorem segment_place {a : V3} {role : SpaceRole} {v v' : RVar} (hr : role = .landmark ∨ role = .point)
    (h : ShiftedVar a role v v') : ∃ x, Fac.segmentOf (VarLike.value v) 0 3 = .ok (toList x) ∧
      Fac.segmentOf (VarLike.value v') 0 3 = .ok (toList (x + a)) := by
  obtain ⟨x, h1, h2, _⟩ := shiftedVar_value hr h
  refine ⟨x, ?_, ?_⟩
  · rw [h1]; simpa using segment_toList x []
  · rw [h2]; simpa using segment_toList (x + a) []

/-- A measurement and its description in the other frame have the same residual and the same Jacobian. -/
theorem shifted_factor {a : V3} {role : VRef → SpaceRole} {f f' : Factor ℝ RVar} (hf : ShiftedFactor a role f f')
    {h h' : Heap RVar} (hs : ∀ r, ShiftedVar a (role r) (h r) (h' r)) :
    f'.computeResidual h' = f.computeResidual h ∧ f'.computeJacobians h' [] = f.computeJacobians h [] := by
  have still : ∀ r, role r = .still → h' r = h r := by
    intro r hr
    have := hs r
    rw [hr] at this
    generalize h r = v, h' r = v' at this
    cases this <;> rfl
  have shape := fun r => shiftedVar_shape (hs r)
  cases hf with
  | placePrior id r x w hr =>
    obtain ⟨y, h1, h2, h3⟩ := shiftedVar_value hr (hs r)
    simp only [Factorama.genericPrior, h1, h2, h3, vecSub_toList, add_sub_add_right_eq_sub, true_and]
    simp [toList]
  | stillPrior id r prior w hr =>
    simp only [Factorama.genericPrior, still r hr, and_self]
  | placesBetween id p q m n w hp hq hm =>
    obtain ⟨x, h1, h2, h3⟩ := shiftedVar_value hp (hs p)
    obtain ⟨y, h4, h5, h6⟩ := shiftedVar_value hq (hs q)
    simp only [Factorama.genericBetween, h1, h2, h4, h5, vecSub_toList, add_sub_add_right_eq_sub, still m hm, betweenBlock, h3, h6,
      and_self]
  | posePositionPrior id p prior sigma =>
    have h1 := hs p
    simp only [Fac.posePositionPrior]
    generalize h p = v, h' p = v', role p = b at h1
    cases h1 <;> simp [Fac.block, VarLike.isConst]
  | poseOrientationPrior id p prior sigma =>
    have h1 := hs p
    simp only [Fac.poseOrientationPrior]
    generalize h p = v, h' p = v', role p = b at h1
    cases h1 <;> simp
  | rotationPrior id r prior sigma =>
    have h1 := hs r
    simp only [Fac.rotationPrior]
    generalize h r = v, h' r = v', role r = b at h1
    cases h1 <;> simp
  | posePositionBetween id p q m sigma localFrame hm =>
    have h1 := hs p
    have h2 := hs q
    simp only [Fac.posePositionBetween, still m hm]
    generalize h p = v, h' p = v', role p = b at h1
    generalize h q = u, h' q = u', role q = d at h2
    cases h1 <;> try exact ⟨rfl, rfl⟩
    cases h2 <;> try exact ⟨rfl, rfl⟩
    simp [Fac.block, VarLike.isConst]
  | poseOrientationBetween id p q c sigma =>
    have h1 := hs p
    have h2 := hs q
    have h3 := hs c
    simp only [Fac.poseOrientationBetween]
    generalize h p = v, h' p = v', role p = b at h1
    generalize h q = u, h' q = u', role q = d at h2
    generalize h c = w, h' c = w', role c = e at h3
    cases h1 <;> try exact ⟨rfl, rfl⟩
    cases h2 <;> try exact ⟨rfl, rfl⟩
    cases h3 <;> exact ⟨rfl, rfl⟩
  | bearingObservation id p l bearing sigma =>
    have h1 := hs p
    have h2 := hs l
    simp only [Fac.bearingObservation]
    generalize h p = v, h' p = v', role p = b at h1
    generalize h l = u, h' l = u', role l = d at h2
    cases h1 <;> try exact ⟨rfl, rfl⟩
    cases h2 <;> try exact ⟨rfl, rfl⟩
    simp only [landmark_posW_toList, Res.map, Res.andThen, add_sub_add_right_eq_sub, Fac.block, VarLike.isConst, and_self]
  | bearingProjection id p l bearing sigma tol =>
    have h1 := hs p
    have h2 := hs l
    simp only [Fac.bearingProjection]
    generalize h p = v, h' p = v', role p = b at h1
    generalize h l = u, h' l = u', role l = d at h2
    cases h1 <;> try exact ⟨rfl, rfl⟩
    cases h2 <;> try exact ⟨rfl, rfl⟩
    simp only [landmark_posW_toList, Res.map, Res.andThen, add_sub_add_right_eq_sub, Fac.block, VarLike.isConst, and_self]
  | inverseRangeBearing id p r bearing sigma =>
    have h1 := hs p
    have h2 := hs r
    simp only [Fac.inverseRangeBearing]
    generalize h p = v, h' p = v', role p = b at h1
    generalize h r = u, h' r = u', role r = d at h2
    cases h1 <;> try exact ⟨rfl, rfl⟩
    cases h2 <;> try exact ⟨rfl, rfl⟩
    rename_i v x
    have e : ∀ y : V3, x.origin + a + y - (v.pos + a) = x.origin + y - v.pos := by intro y; abel
    by_cases hi : |x.inv| < 1e-9
    · simp only [InvRangeVar.posW, if_pos hi, and_self]
    · simp only [InvRangeVar.posW, if_neg hi, e, Fac.block, VarLike.isConst, and_self]
  | plane id p l sigma hp =>
    obtain ⟨x, h1, h2, h3⟩ := shiftedVar_value hp (hs p)
    have h4 := hs l
    simp only [Fac.planeFactor, h1, h2, vec3_toList]
    generalize h l = u, h' l = u', role l = d at h4
    cases h4 <;> try exact ⟨rfl, rfl⟩
    rename_i v hc
    constructor
    · simp only [PlaneVar.distanceFromPoint, Res.map, dotProduct_add]
      congr 3
      ring
    · have c1 : VarLike.isConst (RVar.plane v) = true := hc
      have c2 : VarLike.isConst (RVar.plane { v with dist := v.dist - v.normal ⬝ᵥ a }) = true := hc
      simp only [Res.andThen, Fac.block, h3, c1, c2, if_true]
  | posesVelocity id p q vel dt sigma hp hq hm =>
    have h1 := hs p
    have h2 := hs q
    simp only [Fac.linearVelocity, still vel hm]
    rw [hp] at h1
    rw [hq] at h2
    generalize h p = v, h' p = v' at h1
    generalize h q = u, h' q = u' at h2
    cases h1
    cases h2
    simp only [segment_pose, Res.andThen, vecSub_toList, add_sub_add_right_eq_sub, VarLike.isConst, VarLike.size, and_self]
  | placesVelocity id p q vel dt sigma hp hq hm =>
    obtain ⟨x, h1, h2⟩ := segment_place hp (hs p)
    obtain ⟨y, h3, h4⟩ := segment_place hq (hs q)
    simp only [Fac.linearVelocity, still vel hm, h1, h2, h3, h4, Res.andThen, vecSub_toList, add_sub_add_right_eq_sub,
      (shape p).1, (shape p).2, (shape q).1, (shape q).2, and_self]

/-- The directions of increments are the same in both frames. -/
noncomputable def sameDirections (_ : VRef) (_ : RVar) (i j : Nat) : ℝ := if i = j then 1 else 0

theorem same_sum {n : Nat} (i : Fin n) (x : Nat → ℝ) : ∑ a : Fin n, (if (i : Nat) = a then (1 : ℝ) else 0) * x a = x i := by
  rw [Finset.sum_eq_single i]
  · simp
  · intro b _ hb
    rw [if_neg (fun e => hb (Fin.ext e.symm)), zero_mul]
  · simp

/-- Shifted factors, as turned ones. -/
theorem shifted_turnedFactor {a : V3} {role : VRef → SpaceRole} {f f' : Factor ℝ RVar} (h : ShiftedFactor a role f f') :
    TurnedFactor sameDirections (fun r => ShiftedVar a (role r)) f f' := by
  refine ⟨?_, ?_, 1, by simp, fun x x' hM => ?_⟩
  · cases h <;> rfl
  · cases h <;> first | rfl | simp [Factorama.genericPrior, toList]
  · obtain ⟨e1, e2⟩ := shifted_factor h hM
    constructor
    · intro s s' h1 h2 i
      rw [e1, h1] at h2
      obtain rfl := Res.ok.inj h2
      simp [Matrix.one_apply]
    · intro s s' js js' _ _ h1 h2 p q B B' _ _ h3 h4 i j
      rw [e2, h1] at h2
      obtain rfl := Res.ok.inj h2
      obtain rfl := Option.some.inj (h3.symm.trans h4)
      have := same_sum j fun k => B.entry i k
      simp only [sameDirections, Matrix.one_apply, ite_mul, one_mul, zero_mul, Finset.sum_ite_eq, Finset.mem_univ, if_true]
      rw [← this]
      exact Finset.sum_congr rfl fun b _ => by rw [mul_comm]; simp only [eq_comm]

theorem same_orthogonal (r : VRef) (v : RVar) : (Matrix.of fun i j : Fin (VarLike.size v) => sameDirections r v i j)ᵀ *
    (Matrix.of fun i j : Fin (VarLike.size v) => sameDirections r v i j) = 1 := by
  have : (Matrix.of fun i j : Fin (VarLike.size v) => sameDirections r v i j) = 1 := by
    ext i j
    simp [sameDirections, Matrix.one_apply, Fin.ext_iff]
  rw [this]
  simp

/-- Shifting a world in space gives a corresponding problem. -/
theorem shifted_correspond {a : V3} {role : VRef → SpaceRole} {facs facs' : List (Factor ℝ RVar)}
    (hf : List.Forall₂ (ShiftedFactor a role) facs facs') {vars : List VRef} (hnd : vars.Nodup) :
    Correspond 1 (fun h h' => ∀ r, ShiftedVar a (role r) (h r) (h' r)) vars facs vars facs' := by
  refine turned_correspond (τ := sameDirections) (M := fun r => ShiftedVar a (role r)) ?_ hnd (fun r v v' h => shiftedVar_shape h) ?_ ?_
  · exact hf.imp fun f f' h => shifted_turnedFactor h
  · exact fun r v _ _ _ => same_orthogonal r v
  · intro r v v' d d' w w' hM _ l1 l2 hd h1 h2
    have e : d' = d := by
      apply List.ext_getElem (by omega)
      intro i h3 h4
      have := hd ⟨i, by omega⟩
      simp only [sameDirections] at this
      rw [same_sum ⟨i, by omega⟩ fun k => d.getD k 0] at this
      simpa [List.getD_eq_getElem?_getD, h3, h4] using this
    subst e
    have key : ∀ (x y : V3), List.zipWith (· + ·) (toList x) (toList y) = toList (x + y) := by
      intro x y
      apply List.ext_getElem (by simp [toList])
      intro i h1 h2
      simp [toList]
    have lst : ∀ d : List ℝ, d.length = 3 → ∃ y : V3, d = toList y := by
      intro d hd
      match d, hd with
      | [x, y, z], _ => exact ⟨![x, y, z], by simp [toList]⟩
    generalize role r = b at hM ⊢
    cases hM with
    | pose v =>
      have l1 : d'.length = 6 := l1
      simp only [VarLike.applyIncr, PoseVar.applyIncr] at h1 h2
      rw [if_neg (by simpa using l1)] at h1 h2
      simp only [Res.map] at h1 h2
      cases Res.ok.inj h1
      cases Res.ok.inj h2
      have := ShiftedVar.pose (a := a) (PoseVar.recompute { v with pos := v.pos + read3 d' 0, rot := logSO3 (expSO3 (read3 d' 3) * v.dcm) })
      convert this using 1
      simp only [PoseVar.recompute]
      congr 2
      abel
    | landmark id c x =>
      obtain ⟨y, rfl⟩ := lst d' l1
      simp only [VarLike.applyIncr, LandmarkVar.applyIncr] at h1 h2
      rw [if_neg (by simp [toList]), if_neg (by simp [toList]), key] at h1 h2
      cases Res.ok.inj h1
      cases Res.ok.inj h2
      rw [show x + a + y = x + y + a by abel]
      exact .landmark id c (x + y)
    | plane v hc => simp_all [VarLike.isConst]
    | ray v =>
      have l1 : d'.length = 1 := l1
      simp only [VarLike.applyIncr, InvRangeVar.applyIncr] at h1 h2
      rw [if_neg (by simpa using l1)] at h1 h2
      split at h1
      · simp [Res.map] at h1
      · rename_i hx
        rw [if_neg hx] at h2
        cases Res.ok.inj h1
        cases Res.ok.inj h2
        exact .ray { v with inv := InvRangeVar.clip v.lo v.hi (v.inv + d'.getD 0 0) }
    | point id c x =>
      obtain ⟨y, rfl⟩ := lst d' (by rw [l1]; simp [VarLike.size, toList])
      simp only [VarLike.applyIncr, GenVar.applyIncr] at h1 h2
      rw [if_neg (by simp [toList]), key] at h1 h2
      cases Res.ok.inj h1
      cases Res.ok.inj h2
      rw [show x + a + y = x + y + a by abel]
      exact .point id c (x + y)
    | generic v =>
      rw [h1] at h2
      obtain rfl := Res.ok.inj h2
      simp only [VarLike.applyIncr, GenVar.applyIncr] at h1
      split at h1
      · simp [Res.map] at h1
      · cases Res.ok.inj h1
        exact .generic _
    | rotation v =>
      rw [h1] at h2
      obtain rfl := Res.ok.inj h2
      simp only [VarLike.applyIncr, RotationVar.applyIncr] at h1
      split at h1
      · simp [Res.map] at h1
      · cases Res.ok.inj h1
        exact .rotation _

end Factorama
