import Verif.Spec.Units
import Mathlib.Tactic.Ring
import Mathlib.Tactic.FinCases

/-!
# Factors with other standard deviations
-/

namespace Factorama
open Spec Matrix Geo Fac

theorem Mat.eq_of {M N : Mat ℝ} (h1 : M.rows = N.rows) (h2 : M.cols = N.cols) (h3 : ∀ i j, M.entry i j = N.entry i j) : M = N := by
  cases M; cases N
  simp only [Mat.mk.injEq] at *
  exact ⟨h1, h2, funext fun i => funext fun j => h3 i j⟩

theorem scaledMat_empty (c : ℝ) : scaledMat c Mat.empty = Mat.empty := Mat.eq_of rfl rfl fun _ _ => mul_zero c

theorem scaledMat_ofMatrix {m n : Nat} (c : ℝ) (A : Matrix (Fin m) (Fin n) ℝ) :
    scaledMat c (Mat.ofMatrix A) = Mat.ofMatrix (c • A) := by
  refine Mat.eq_of rfl rfl fun i j => ?_
  show c * (if h : i < m ∧ j < n then A ⟨i, h.1⟩ ⟨j, h.2⟩ else 0) = if h : i < m ∧ j < n then (c • A) ⟨i, h.1⟩ ⟨j, h.2⟩ else 0
  split <;> simp

theorem scaledMat_block {m n : Nat} (c : ℝ) (v : RVar) (A : Matrix (Fin m) (Fin n) ℝ) :
    scaledMat c (block v A) = block v (c • A) := by
  unfold block
  split
  · exact scaledMat_empty c
  · exact scaledMat_ofMatrix c A

theorem scaledMat_diag (c w : ℝ) (n : Nat) : scaledMat c (Mat.diag n w) = Mat.diag n (c * w) := by
  refine Mat.eq_of rfl rfl fun i j => ?_
  show c * (Mat.diag n w).entry i j = (Mat.diag n (c * w)).entry i j
  simp only [Mat.diag]
  split <;> simp

theorem smul_beside {m : Nat} (c : ℝ) (A B : Matrix (Fin m) (Fin 3) ℝ) : c • beside A B = beside (c • A) (c • B) := by
  ext i j
  simp only [beside, Matrix.smul_apply]
  split <;> rfl

theorem map_toList {n : Nat} (c : ℝ) (x : Fin n → ℝ) : (toList x).map (c * ·) = toList (c • x) := by
  simp only [toList, List.map_ofFn, Function.comp_def]
  rfl

theorem one_div_div_eq (s c : ℝ) : 1 / (s / c) = c * (1 / s) := by
  rw [one_div_div, mul_one_div]

theorem Res.map_of_andThen {α β γ : Type} (r : Res α) (f : α → Res β) (g : β → γ) :
    (r.andThen f).map g = r.andThen fun a => (f a).map g := by cases r <;> rfl

theorem Res.map_map' {α β γ : Type} (r : Res α) (f : α → β) (g : β → γ) :
    (r.map f).map g = r.map fun a => g (f a) := by cases r <;> rfl

theorem fillBlocks_nil_map (c : ℝ) (n : Nat) (bs : List (Mat ℝ)) :
    (fillBlocks n [] bs).map (List.map (scaledMat c)) = fillBlocks n [] (bs.map (scaledMat c)) := by
  unfold fillBlocks writeBlocks
  have e : (if ([] : List (Mat ℝ)).length = n then [] else List.replicate n Mat.empty) = List.replicate n (Mat.empty : Mat ℝ) := by
    split
    · next h => rw [← h]; rfl
    · rfl
  rw [e]
  simp only [List.length_map]
  split
  · simp only [Res.map, List.map_append, List.drop_replicate, List.map_replicate, scaledMat_empty]
  · rfl


theorem Res.map_eq_map {α β : Type} {r : Res α} {f g : α → β} (h : ∀ a, f a = g a) : r.map f = r.map g := by
  rw [funext h]

theorem Res.andThen_eq {α β : Type} {r : Res α} {f g : α → Res β} (h : ∀ a, f a = g a) : r.andThen f = r.andThen g := by
  rw [funext h]

/-- Blocks that are `c` times as large. -/
theorem fillBlocks_scaled {c : ℝ} {n : Nat} {bs bs' : List (Mat ℝ)} (h : bs' = bs.map (scaledMat c)) :
    fillBlocks n [] bs' = (fillBlocks n [] bs).map (List.map (scaledMat c)) := by rw [fillBlocks_nil_map, h]

theorem block_scaled {m n : Nat} {c : ℝ} {v : RVar} {A A' : Matrix (Fin m) (Fin n) ℝ} (h : A' = c • A) :
    block v A' = scaledMat c (block v A) := by rw [scaledMat_block, h]

theorem blocks1 {c : ℝ} {a a' : Mat ℝ} (h : a' = scaledMat c a) : [a'] = [a].map (scaledMat c) := by rw [h]; rfl
theorem blocks2 {c : ℝ} {a a' b b' : Mat ℝ} (h : a' = scaledMat c a) (h2 : b' = scaledMat c b) :
    [a', b'] = [a, b].map (scaledMat c) := by rw [h, h2]; rfl
theorem blocks3 {c : ℝ} {a a' b b' d d' : Mat ℝ} (h : a' = scaledMat c a) (h2 : b' = scaledMat c b) (h3 : d' = scaledMat c d) :
    [a', b', d'] = [a, b, d].map (scaledMat c) := by rw [h, h2, h3]; rfl

theorem toList_scaled {n : Nat} {c : ℝ} {x x' : Fin n → ℝ} (h : x' = c • x) : toList x' = (toList x).map (c * ·) := by
  rw [map_toList, h]

theorem rescaled_library {c : ℝ} {f f' : Factor ℝ RVar} (hf : SigmasDividedBy c f f') : Rescaled c f f' := by
  cases hf with
  | posePositionPrior id p prior sigma =>
    refine ⟨rfl, rfl, fun h => ?_, fun h => ?_⟩ <;> simp only [posePositionPrior] <;> cases h p <;> try rfl
    · exact congrArg Res.ok (toList_scaled (by rw [one_div_div_eq, mul_smul]))
    · exact fillBlocks_scaled (blocks1 (block_scaled (by rw [smul_beside, one_div_div_eq, mul_smul, smul_zero])))
  | poseOrientationPrior id p prior sigma =>
    refine ⟨rfl, rfl, fun h => ?_, fun h => ?_⟩ <;> simp only [poseOrientationPrior] <;> cases h p <;> try rfl
    · exact congrArg Res.ok (toList_scaled (by rw [one_div_div_eq, mul_smul]))
    · dsimp only
      split
      · exact fillBlocks_scaled (blocks1 (scaledMat_empty c).symm)
      · rw [Res.map_of_andThen]
        refine Res.andThen_eq fun J => fillBlocks_scaled (blocks1 ?_)
        rw [scaledMat_ofMatrix, smul_beside, one_div_div_eq, mul_smul, smul_zero]
  | rotationPrior id p prior sigma =>
    refine ⟨rfl, rfl, fun h => ?_, fun h => ?_⟩ <;> simp only [rotationPrior] <;> cases h p <;> try rfl
    · exact congrArg Res.ok (toList_scaled (by rw [one_div_div_eq, mul_smul]))
    · dsimp only
      split
      · exact fillBlocks_scaled (blocks1 (scaledMat_empty c).symm)
      · rw [Res.map_of_andThen]
        refine Res.andThen_eq fun J => fillBlocks_scaled (blocks1 ?_)
        rw [scaledMat_ofMatrix, one_div_div_eq, mul_smul]
  | posePositionBetween id a b m sigma loc =>
    refine ⟨rfl, rfl, fun h => ?_, fun h => ?_⟩ <;> simp only [posePositionBetween] <;> cases h a <;> try rfl
    all_goals cases h b <;> try rfl
    · dsimp only
      rw [Res.map_map']
      exact Res.map_eq_map fun d => toList_scaled (by rw [one_div_div_eq, mul_smul])
    · refine fillBlocks_scaled (blocks3 (block_scaled ?_) (block_scaled ?_) (block_scaled ?_)) <;>
        cases loc <;> simp [smul_beside, one_div_div_eq, mul_smul, -one_div]
  | poseOrientationBetween id a b m sigma =>
    refine ⟨rfl, rfl, fun h => ?_, fun h => ?_⟩ <;> simp only [poseOrientationBetween] <;> cases h a <;> try rfl
    all_goals cases h b <;> try rfl
    all_goals cases h m <;> try rfl
    · exact congrArg Res.ok (toList_scaled (by rw [one_div_div_eq, mul_smul]))
    · dsimp only
      rw [Res.map_of_andThen]
      refine Res.andThen_eq fun J => fillBlocks_scaled (blocks3 (block_scaled ?_) (block_scaled ?_) (block_scaled ?_)) <;>
        simp [smul_beside, one_div_div_eq, mul_smul, -one_div]
  | bearingObservation id p l bearing sigma =>
    refine ⟨rfl, rfl, fun h => ?_, fun h => ?_⟩ <;> simp only [bearingObservation] <;> cases h p <;> try rfl
    all_goals cases h l <;> try rfl
    · dsimp only
      rw [Res.map_map']
      exact Res.map_eq_map fun d => toList_scaled (by rw [one_div_div_eq, mul_smul])
    · dsimp only
      rw [Res.map_of_andThen]
      refine Res.andThen_eq fun pw => ?_
      split
      · rfl
      · refine fillBlocks_scaled (blocks2 (block_scaled ?_) (block_scaled ?_)) <;>
          simp only [smul_beside, one_div_div_eq, mul_div_assoc, mul_smul, Matrix.smul_mul]
        rw [smul_comm]
  | inverseRangeBearing id p l bearing sigma =>
    refine ⟨rfl, rfl, fun h => ?_, fun h => ?_⟩ <;> simp only [inverseRangeBearing] <;> cases h p <;> try rfl
    all_goals cases h l <;> try rfl
    · dsimp only
      split
      · exact congrArg Res.ok (toList_scaled (by rw [one_div_div_eq, mul_smul]))
      · rfl
    · dsimp only
      split
      · split
        · rfl
        · refine fillBlocks_scaled (blocks2 (block_scaled ?_) (block_scaled ?_))
          · simp [smul_beside, one_div_div_eq, mul_smul, -one_div]
          · ext i j
            simp [one_div_div_eq, mul_smul, -one_div, Matrix.smul_mulVec]
      · rfl
  | bearingProjection id p l bearing sigma tol =>
    refine ⟨rfl, rfl, fun h => ?_, fun h => ?_⟩ <;> simp only [bearingProjection] <;> cases h p <;> try rfl
    all_goals cases h l <;> try rfl
    · dsimp only
      rw [Res.map_map']
      refine Res.map_eq_map fun d => ?_
      split <;> exact toList_scaled (by rw [one_div_div_eq, mul_smul])
    · dsimp only
      rw [Res.map_of_andThen]
      refine Res.andThen_eq fun pw => ?_
      split
      · rfl
      · split
        · exact fillBlocks_scaled (blocks2 (block_scaled (smul_zero c).symm) (block_scaled (smul_zero c).symm))
        · refine fillBlocks_scaled (blocks2 (block_scaled ?_) (block_scaled ?_)) <;>
            rw [← Matrix.mul_smul] <;> congr 1 <;> simp [smul_beside, one_div_div_eq, mul_smul, -one_div]
  | bearing2D id p l obs sigma =>
    refine ⟨rfl, rfl, fun h => ?_, fun h => ?_⟩ <;> simp only [bearing2D] <;> cases h p <;> try rfl
    · dsimp only
      rw [Res.map_map']
      refine Res.map_eq_map fun x => ?_
      simp [one_div_div_eq, mul_assoc, -one_div]
    · dsimp only
      rw [Res.map_of_andThen]
      refine Res.andThen_eq fun x => ?_
      split
      · rfl
      · refine fillBlocks_scaled (blocks2 (block_scaled ?_) (block_scaled ?_)) <;> ext i j <;> fin_cases i <;> fin_cases j <;>
          simp [one_div_div_eq, -one_div] <;> ring
  | rangeBearing2D id p l range obs rs bs =>
    refine ⟨rfl, rfl, fun h => ?_, fun h => ?_⟩ <;> simp only [rangeBearing2D] <;> cases h p <;> try rfl
    · dsimp only
      rw [Res.map_map']
      refine Res.map_eq_map fun x => ?_
      simp [one_div_div_eq, mul_assoc, -one_div]
    · dsimp only
      rw [Res.map_of_andThen]
      refine Res.andThen_eq fun x => ?_
      split
      · rfl
      · refine fillBlocks_scaled (blocks2 (block_scaled ?_) (block_scaled ?_)) <;> ext i j <;> fin_cases i <;> fin_cases j <;>
          simp [one_div_div_eq, -one_div] <;> ring
  | pose2DPrior id p prior ps as =>
    refine ⟨rfl, rfl, fun h => ?_, fun h => ?_⟩ <;> simp only [pose2DPrior] <;> cases h p <;> try rfl
    · simp [Res.map, one_div_div_eq, mul_assoc, -one_div]
    · refine fillBlocks_scaled (blocks1 (block_scaled ?_))
      ext i j
      fin_cases i <;> fin_cases j <;> simp [one_div_div_eq, -one_div]
  | pose2DBetween id a b m ps as loc =>
    refine ⟨rfl, rfl, fun h => ?_, fun h => ?_⟩ <;> simp only [pose2DBetween] <;> cases h a <;> try rfl
    all_goals cases h b <;> try rfl
    · dsimp only
      split
      · rfl
      · simp [Res.map, one_div_div_eq, mul_assoc, -one_div]
    · refine fillBlocks_scaled (blocks3 (block_scaled ?_) (block_scaled ?_) (block_scaled ?_)) <;> cases loc <;>
        ext i j <;> fin_cases i <;> fin_cases j <;> simp [one_div_div_eq, -one_div, mul_assoc]
  | plane id p l sigma scaling =>
    refine ⟨rfl, rfl, fun h => ?_, fun h => ?_⟩ <;> simp only [planeFactor] <;> cases h l <;> try rfl
    · dsimp only
      rw [Res.map_map']
      refine Res.map_eq_map fun x => ?_
      cases scaling <;> simp [one_div_div_eq, mul_assoc, -one_div]
    · dsimp only
      rw [Res.map_of_andThen]
      refine Res.andThen_eq fun x => ?_
      cases scaling with
      | none =>
        refine fillBlocks_scaled (blocks2 (block_scaled ?_) (block_scaled ?_)) <;> ext i j <;> fin_cases i <;> fin_cases j <;>
          simp [one_div_div_eq, -one_div, mul_assoc]
      | some q =>
        refine fillBlocks_scaled (blocks2 (block_scaled ?_) (block_scaled ?_)) <;> ext i j <;> fin_cases i <;> fin_cases j <;>
          simp [one_div_div_eq, -one_div, mul_assoc]
  | planePrior id l n0 d0 ns ds =>
    refine ⟨rfl, rfl, fun h => ?_, fun h => ?_⟩ <;> simp only [planePrior] <;> cases h l <;> try rfl
    · refine congrArg Res.ok ?_
      rw [List.map_append, map_toList, one_div_div_eq, one_div_div_eq, mul_smul, Matrix.smul_mulVec]
      simp [mul_assoc]
    · refine fillBlocks_scaled (blocks1 (block_scaled ?_))
      ext i j
      fin_cases i <;> fin_cases j <;> simp [one_div_div_eq, -one_div, mul_assoc]
  | linearVelocity id v1 v2 vel n dt sigma i =>
    refine ⟨rfl, rfl, fun h => ?_, fun h => ?_⟩ <;> simp only [linearVelocity]
    · rw [Res.map_of_andThen]
      refine Res.andThen_eq fun x => ?_
      rw [Res.map_of_andThen]
      refine Res.andThen_eq fun x => ?_
      rw [Res.map_of_andThen]
      refine Res.andThen_eq fun x => ?_
      rw [Res.map_map']
      refine Res.map_eq_map fun x => ?_
      simp [one_div_div_eq, mul_assoc, -one_div]
    · have key : ∀ (r : VRef) (w w' : ℝ), w' = c * w →
          (if VarLike.isConst (h r) then Res.ok Mat.empty else offsetDiag n (VarLike.size (h r)) i w') =
          (if VarLike.isConst (h r) then Res.ok Mat.empty else offsetDiag n (VarLike.size (h r)) i w).map (scaledMat c) := by
        intro r w w' e
        split
        · simp only [Res.map, scaledMat_empty]
        · unfold offsetDiag
          split
          · simp only [Res.map]
            refine congrArg Res.ok (Mat.eq_of rfl rfl fun a b => ?_)
            simp [scaledMat, e]
          · rfl
      have map_andThen : ∀ (r : Res (Mat ℝ)) (g : Mat ℝ → Res (List (Mat ℝ))),
          (r.map (scaledMat c)).andThen g = r.andThen fun a => g (scaledMat c a) := by
        intro r g; cases r <;> rfl
      rw [key v1 (-(1 / sigma)) _ (by rw [one_div_div_eq]; ring), key v2 (1 / sigma) _ (one_div_div_eq _ _), map_andThen, Res.map_of_andThen]
      refine Res.andThen_eq fun b1 => ?_
      rw [map_andThen, Res.map_of_andThen]
      refine Res.andThen_eq fun b2 => fillBlocks_scaled (blocks3 rfl rfl ?_)
      split
      · rw [scaledMat_empty]
      · rw [scaledMat_diag, one_div_div_eq]; congr 1; ring
  | coordinateTransform id rot org sc la lb sigma =>
    refine ⟨rfl, rfl, fun h => ?_, fun h => ?_⟩ <;> simp only [coordinateTransform]
    · cases h rot <;> try rfl
      cases h org <;> try rfl
      cases h sc <;> try rfl
      cases h la <;> try rfl
      cases h lb <;> try rfl
      dsimp only
      split
      · rfl
      · rw [Res.map_of_andThen]
        refine Res.andThen_eq fun x => ?_
        rw [Res.map_of_andThen]
        refine Res.andThen_eq fun x => ?_
        rw [Res.map_map']
        exact Res.map_eq_map fun d => toList_scaled (by rw [one_div_div_eq, mul_smul])
    · cases h rot <;> try rfl
      cases h org <;> try rfl
      cases h sc <;> try rfl
      cases h la <;> try rfl
      cases h lb <;> try rfl
      dsimp only
      split
      · rfl
      · rw [Res.map_of_andThen]
        refine Res.andThen_eq fun x => ?_
        simp [writeBlocks, coordBuffer, Res.map, scaledMat_block, one_div_div_eq, mul_smul, -one_div]
        congr 1
        ext i j
        simp [Matrix.neg_mulVec, Matrix.smul_mulVec]
  | genericPrior id r prior sigma =>
    refine ⟨rfl, rfl, fun h => ?_, fun h => ?_⟩ <;> simp only [genericPrior]
    · cases vecSub (VarLike.value (h r)) prior <;> simp [Res.map, one_div_div_eq, mul_assoc, -one_div]
    · split
      · simp [Res.map, scaledMat_empty]
      · simp [Res.map, scaledMat_diag, one_div_div_eq, -one_div]
  | genericBetween id a b m n sigma =>
    have key : ∀ (v : RVar) (w : ℝ), betweenBlock n v (c * w) = scaledMat c (betweenBlock n v w) := by
      intro v w
      unfold betweenBlock
      split
      · rw [scaledMat_empty]
      · rw [scaledMat_diag]
    refine ⟨rfl, rfl, fun h => ?_, fun h => ?_⟩ <;> simp only [genericBetween]
    · cases vecSub (VarLike.value (h b)) (VarLike.value (h a)) <;> try rfl
      next d =>
        dsimp only
        cases vecSub d (VarLike.value (h m)) <;> simp [Res.map, one_div_div_eq, mul_assoc, -one_div]
    · simp [Res.map, one_div_div_eq, -one_div, ← key]

end Factorama
