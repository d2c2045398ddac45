import Verif.Spec.Held
import Verif.Spec.Library
import Verif.Lemmas.Factors

/-!
# Factors of the library when variables are held constant
-/

namespace Factorama
open Spec Fac Geo

theorem Spec.Held.free {x x' : Heap RVar} (h : Held x x') {r : VRef} (hc : VarLike.isConst (F := ℝ) (x' r) = false) : x' r = x r := by
  rcases h r with e | e
  · exact e
  · rw [e] at hc
    revert hc
    cases x r <;> exact fun hc => nomatch hc

theorem Spec.Held.value {x x' : Heap RVar} (h : Held x x') (r : VRef) : VarLike.value (F := ℝ) (x' r) = VarLike.value (x r) := by
  rcases h r with e | e <;> rw [e]
  cases x r <;> rfl

theorem Spec.Held.size {x x' : Heap RVar} (h : Held x x') (r : VRef) : VarLike.size (F := ℝ) (x' r) = VarLike.size (F := ℝ) (x r) := by
  rcases h r with e | e <;> rw [e]
  cases x r <;> rfl

theorem Spec.Held.pose {x x' : Heap RVar} (h : Held x x') {r : VRef} {v : PoseVar} (e : x r = .pose v) :
    ∃ b, x' r = .pose { v with isConst := b } := by
  rcases h r with e' | e' <;> rw [e', e]
  · exact ⟨v.isConst, rfl⟩
  · exact ⟨true, rfl⟩

theorem Spec.Held.landmark {x x' : Heap RVar} (h : Held x x') {r : VRef} {v : LandmarkVar} (e : x r = .landmark v) :
    ∃ b, x' r = .landmark { v with isConst := b } := by
  rcases h r with e' | e' <;> rw [e', e]
  · exact ⟨v.isConst, rfl⟩
  · exact ⟨true, rfl⟩

theorem Spec.Held.rotation {x x' : Heap RVar} (h : Held x x') {r : VRef} {v : RotationVar} (e : x r = .rotation v) :
    ∃ b, x' r = .rotation { v with isConst := b } := by
  rcases h r with e' | e' <;> rw [e', e]
  · exact ⟨v.isConst, rfl⟩
  · exact ⟨true, rfl⟩

theorem Spec.Held.invRange {x x' : Heap RVar} (h : Held x x') {r : VRef} {v : InvRangeVar} (e : x r = .invRange v) :
    ∃ b, x' r = .invRange { v with isConst := b } := by
  rcases h r with e' | e' <;> rw [e', e]
  · exact ⟨v.isConst, rfl⟩
  · exact ⟨true, rfl⟩

theorem Spec.Held.plane {x x' : Heap RVar} (h : Held x x') {r : VRef} {v : PlaneVar} (e : x r = .plane v) :
    ∃ b, x' r = .plane { v with isConst := b } := by
  rcases h r with e' | e' <;> rw [e', e]
  · exact ⟨v.isConst, rfl⟩
  · exact ⟨true, rfl⟩

theorem Spec.Held.pose2d {x x' : Heap RVar} (h : Held x x') {r : VRef} {v : Pose2DVar} (e : x r = .pose2d v) :
    ∃ b, x' r = .pose2d { v with isConst := b } := by
  rcases h r with e' | e' <;> rw [e', e]
  · exact ⟨v.isConst, rfl⟩
  · exact ⟨true, rfl⟩

theorem Spec.Held.generic {x x' : Heap RVar} (h : Held x x') {r : VRef} {v : GenVar ℝ} (e : x r = .generic v) :
    ∃ b, x' r = .generic { v with isConst := b } := by
  rcases h r with e' | e' <;> rw [e', e]
  · exact ⟨v.isConst, rfl⟩
  · exact ⟨true, rfl⟩

/-- Blocks that are given variable by variable. -/
theorem sameBlocks_one {x' : Heap RVar} {a : VRef} {A A' : Mat ℝ} {js js' : List (Mat ℝ)} (e : js = [A]) (e' : js' = [A'])
    (ha : VarLike.isConst (F := ℝ) (x' a) = false → A' = A) {p : Nat} {q : VRef} {B B' : Mat ℝ} (hp : [some a][p]? = some (some q))
    (hc : VarLike.isConst (F := ℝ) (x' q) = false) (hB : js[p]? = some B) (hB' : js'[p]? = some B') : B' = B := by
  subst e e'
  match p with
  | 0 => simp at hp hB hB'; subst hp hB hB'; exact ha hc
  | p + 1 => simp at hp

theorem sameBlocks_two {x' : Heap RVar} {a b : VRef} {A A' C C' : Mat ℝ} {js js' : List (Mat ℝ)} (e : js = [A, C]) (e' : js' = [A', C'])
    (ha : VarLike.isConst (F := ℝ) (x' a) = false → A' = A) (hb : VarLike.isConst (F := ℝ) (x' b) = false → C' = C)
    {p : Nat} {q : VRef} {B B' : Mat ℝ} (hp : [some a, some b][p]? = some (some q))
    (hc : VarLike.isConst (F := ℝ) (x' q) = false) (hB : js[p]? = some B) (hB' : js'[p]? = some B') : B' = B := by
  subst e e'
  match p with
  | 0 => simp at hp hB hB'; subst hp hB hB'; exact ha hc
  | 1 => simp at hp hB hB'; subst hp hB hB'; exact hb hc
  | p + 2 => simp at hp

theorem sameBlocks_three {x' : Heap RVar} {a b c : VRef} {A A' C C' D D' : Mat ℝ} {js js' : List (Mat ℝ)} (e : js = [A, C, D])
    (e' : js' = [A', C', D']) (ha : VarLike.isConst (F := ℝ) (x' a) = false → A' = A)
    (hb : VarLike.isConst (F := ℝ) (x' b) = false → C' = C) (hd : VarLike.isConst (F := ℝ) (x' c) = false → D' = D)
    {p : Nat} {q : VRef} {B B' : Mat ℝ} (hp : [some a, some b, some c][p]? = some (some q))
    (hc : VarLike.isConst (F := ℝ) (x' q) = false) (hB : js[p]? = some B) (hB' : js'[p]? = some B') : B' = B := by
  subst e e'
  match p with
  | 0 => simp at hp hB hB'; subst hp hB hB'; exact ha hc
  | 1 => simp at hp hB hB'; subst hp hB hB'; exact hb hc
  | 2 => simp at hp hB hB'; subst hp hB hB'; exact hd hc
  | p + 3 => simp at hp

/-- Setting variables constant only removes their blocks. -/
theorem held_library {x x' : Heap RVar} (hH : Held x x') {cls : FactorClass} {f : Factor ℝ RVar} (hf : Built x cls f) :
    SameFreeBlocks f x x' := by
  intro js js' h h' p q B B' hp hc hB hB'
  have blk : ∀ {m n : Nat} (r : VRef) (M : Matrix (Fin m) (Fin n) ℝ), VarLike.isConst (F := ℝ) (x' r) = false →
      block (x' r) M = block (x r) M := fun r M hr => by rw [hH.free hr]
  have ok : ∀ {n : Nat} {bs js : List (Mat ℝ)}, bs.length = n → fillBlocks n [] bs = .ok js → js = bs := by
    intro n bs js hl he
    rw [fillBlocks_ok hl] at he
    exact (Res.ok.inj he).symm
  cases hf with
  | genericPrior id r prior sigma hl =>
    by_cases hr : VarLike.isConst (F := ℝ) (x' r) = false
    · simp only [genericPrior] at h h'
      rw [hH.free hr, h] at h'
      rw [Res.ok.inj h', hB'] at hB
      exact Option.some.inj hB
    · match p with
      | 0 =>
        obtain rfl : r = q := by simpa [genericPrior] using hp
        exact absurd hc hr
      | p + 1 => simp [genericPrior] at hp
  | genericBetween id a b m n sigma _ _ _ =>
    simp only [genericBetween] at h h'
    refine sameBlocks_three (Res.ok.inj h).symm (Res.ok.inj h').symm (fun e => ?_) (fun e => ?_) (fun e => ?_) hp hc hB hB' <;>
      rw [hH.free e]
  | posePositionPrior id p' prior sigma e1 =>
    obtain ⟨b1, e1'⟩ := hH.pose e1
    simp only [posePositionPrior, e1, e1'] at h h'
    rw [← e1] at h
    rw [← e1'] at h'
    exact sameBlocks_one (ok rfl h) (ok rfl h') (fun e => blk _ _ e) hp hc hB hB'
  | poseOrientationPrior id p' prior sigma e1 =>
    obtain ⟨b1, e1'⟩ := hH.pose e1
    by_cases hr : VarLike.isConst (F := ℝ) (x' p') = false
    · simp only [poseOrientationPrior] at h h'
      rw [hH.free hr, h] at h'
      rw [Res.ok.inj h', hB'] at hB
      exact Option.some.inj hB
    · match p with
      | 0 =>
        obtain rfl : p' = q := by simpa [poseOrientationPrior] using hp
        exact absurd hc hr
      | p + 1 => simp [poseOrientationPrior] at hp
  | rotationPrior id p' prior sigma e1 =>
    by_cases hr : VarLike.isConst (F := ℝ) (x' p') = false
    · simp only [rotationPrior] at h h'
      rw [hH.free hr, h] at h'
      rw [Res.ok.inj h', hB'] at hB
      exact Option.some.inj hB
    · match p with
      | 0 =>
        obtain rfl : p' = q := by simpa [rotationPrior] using hp
        exact absurd hc hr
      | p + 1 => simp [rotationPrior] at hp
  | posePositionBetween id a b m sigma loc e1 e2 _ =>
    obtain ⟨b1, e1'⟩ := hH.pose e1
    obtain ⟨b2, e2'⟩ := hH.pose e2
    simp only [posePositionBetween] at h h'
    rw [e1, e2] at h
    rw [e1', e2'] at h'
    exact sameBlocks_three (ok rfl h) (ok rfl h') (fun e => by rw [← e1, ← e1', blk _ _ e]) (fun e => by rw [← e2, ← e2', blk _ _ e])
      (fun e => blk _ _ e) hp hc hB hB'
  | poseOrientationBetween id a b c sigma e1 e2 e3 =>
    obtain ⟨b1, e1'⟩ := hH.pose e1
    obtain ⟨b2, e2'⟩ := hH.pose e2
    obtain ⟨b3, e3'⟩ := hH.rotation e3
    simp only [poseOrientationBetween] at h h'
    rw [e1, e2, e3] at h
    rw [e1', e2', e3'] at h'
    simp only at h h'
    generalize invJacSO3 _ = J at h h'
    cases J with
    | ok J =>
      exact sameBlocks_three (ok rfl h) (ok rfl h') (fun e => by rw [← e1, ← e1', blk _ _ e]) (fun e => by rw [← e2, ← e2', blk _ _ e])
        (fun e => by rw [← e3, ← e3', blk _ _ e]) hp hc hB hB'
    | threw => cases h
    | ub => cases h
  | bearingObservation id p l bearing sigma e1 e2 =>
    rename_i v y
    obtain ⟨b1, e1'⟩ := hH.pose e1
    obtain ⟨b2, e2'⟩ := hH.landmark e2
    simp only [bearingObservation] at h h'
    rw [e1, e2] at h
    rw [e1', e2'] at h'
    have same : LandmarkVar.posW { y with isConst := b2 } = y.posW := rfl
    simp only [same] at h h'
    cases hp : y.posW with
    | ok pw =>
      simp only [hp, Res.andThen] at h h'
      split at h
      · cases h
      · rename_i hn
        rw [if_neg hn] at h'
        exact sameBlocks_two (ok rfl h) (ok rfl h') (fun e => by rw [← e1, ← e1', blk _ _ e])
          (fun e => by rw [← e2, ← e2', blk _ _ e]) ‹_› hc hB hB'
    | threw => simp only [hp, Res.andThen] at h; cases h
    | ub => simp only [hp, Res.andThen] at h; cases h
  | inverseRangeBearing id p r bearing sigma e1 e2 =>
    rename_i v y
    obtain ⟨b1, e1'⟩ := hH.pose e1
    obtain ⟨b2, e2'⟩ := hH.invRange e2
    simp only [inverseRangeBearing] at h h'
    rw [e1, e2] at h
    rw [e1', e2'] at h'
    have same : InvRangeVar.posW { y with isConst := b2 } = y.posW := rfl
    simp only [same] at h h'
    cases hp : y.posW with
    | some pw =>
      simp only [hp] at h h'
      split at h
      · cases h
      · rename_i hn
        rw [if_neg hn] at h'
        exact sameBlocks_two (ok rfl h) (ok rfl h') (fun e => by rw [← e1, ← e1', blk _ _ e])
          (fun e => by rw [← e2, ← e2', blk _ _ e]) ‹_› hc hB hB'
    | none => simp only [hp] at h; cases h
  | bearingProjection id p l bearing sigma tol e1 e2 =>
    rename_i v y
    obtain ⟨b1, e1'⟩ := hH.pose e1
    obtain ⟨b2, e2'⟩ := hH.landmark e2
    simp only [bearingProjection] at h h'
    rw [e1, e2] at h
    rw [e1', e2'] at h'
    have same : LandmarkVar.posW { y with isConst := b2 } = y.posW := rfl
    simp only [same] at h h'
    cases hp : y.posW with
    | ok pw =>
      simp only [hp, Res.andThen] at h h'
      split at h
      · cases h
      · rename_i hn
        rw [if_neg hn] at h'
        split at h
        · rename_i hk
          rw [if_pos hk] at h'
          exact sameBlocks_two (ok rfl h) (ok rfl h') (fun e => by rw [← e1, ← e1', blk _ _ e])
            (fun e => by rw [← e2, ← e2', blk _ _ e]) ‹_› hc hB hB'
        · rename_i hk
          rw [if_neg hk] at h'
          exact sameBlocks_two (ok rfl h) (ok rfl h') (fun e => by rw [← e1, ← e1', blk _ _ e])
            (fun e => by rw [← e2, ← e2', blk _ _ e]) ‹_› hc hB hB'
    | threw => simp only [hp, Res.andThen] at h; cases h
    | ub => simp only [hp, Res.andThen] at h; cases h
  | bearing2D id p l obs sigma e1 _ =>
    rename_i v _
    obtain ⟨b1, e1'⟩ := hH.pose2d e1
    simp only [bearing2D] at h h'
    rw [e1] at h
    rw [e1'] at h'
    have same : ∀ y, deltaLocal { v with isConst := b1 } y = deltaLocal v y := fun _ => rfl
    simp only [same, hH.value l] at h h'
    cases hp : head2 (VarLike.value (x l)) with
    | ok y =>
      simp only [hp, Res.andThen] at h h'
      split at h
      · cases h
      · rename_i hn
        rw [if_neg hn] at h'
        exact sameBlocks_two (ok rfl h) (ok rfl h') (fun e => by rw [← e1, ← e1', blk _ _ e])
          (fun e => by rw [blk _ _ e]) ‹_› hc hB hB'
    | threw => simp only [hp, Res.andThen] at h; cases h
    | ub => simp only [hp, Res.andThen] at h; cases h
  | rangeBearing2D id p l range obs rs bs e1 _ =>
    rename_i v _
    obtain ⟨b1, e1'⟩ := hH.pose2d e1
    simp only [rangeBearing2D] at h h'
    rw [e1] at h
    rw [e1'] at h'
    have same : ∀ y, deltaLocal { v with isConst := b1 } y = deltaLocal v y := fun _ => rfl
    simp only [same, hH.value l] at h h'
    cases hp : head2 (VarLike.value (x l)) with
    | ok y =>
      simp only [hp, Res.andThen] at h h'
      split at h
      · cases h
      · rename_i hn
        rw [if_neg hn] at h'
        exact sameBlocks_two (ok rfl h) (ok rfl h') (fun e => by rw [← e1, ← e1', blk _ _ e])
          (fun e => by rw [blk _ _ e]) ‹_› hc hB hB'
    | threw => simp only [hp, Res.andThen] at h; cases h
    | ub => simp only [hp, Res.andThen] at h; cases h
  | pose2DPrior id p prior ps as e1 =>
    obtain ⟨b1, e1'⟩ := hH.pose2d e1
    simp only [pose2DPrior, e1, e1'] at h h'
    rw [← e1] at h
    rw [← e1'] at h'
    exact sameBlocks_one (ok rfl h) (ok rfl h') (fun e => blk _ _ e) ‹_› hc hB hB'
  | pose2DBetween id a b m ps as loc e1 e2 _ =>
    obtain ⟨b1, e1'⟩ := hH.pose2d e1
    obtain ⟨b2, e2'⟩ := hH.pose2d e2
    simp only [pose2DBetween] at h h'
    rw [e1, e2] at h
    rw [e1', e2'] at h'
    exact sameBlocks_three (ok rfl h) (ok rfl h') (fun e => by rw [← e1, ← e1', blk _ _ e]; rfl)
      (fun e => by rw [← e2, ← e2', blk _ _ e]; rfl) (fun e => blk _ _ e) hp hc hB hB'
  | plane id p l sigma scaling _ e1 =>
    rename_i v _
    obtain ⟨b1, e1'⟩ := hH.plane e1
    simp only [planeFactor] at h h'
    rw [e1] at h
    rw [e1'] at h'
    simp only [hH.value p] at h h'
    cases hp : vec3 (VarLike.value (x p)) with
    | ok y =>
      simp only [hp, Res.andThen] at h h'
      cases scaling with
      | none =>
        exact sameBlocks_two (ok rfl h) (ok rfl h') (fun e => by rw [blk _ _ e])
          (fun e => by rw [← e1, ← e1', blk _ _ e]) ‹_› hc hB hB'
      | some d =>
        exact sameBlocks_two (ok rfl h) (ok rfl h') (fun e => by rw [blk _ _ e])
          (fun e => by rw [← e1, ← e1', blk _ _ e]) ‹_› hc hB hB'
    | threw => simp only [hp, Res.andThen] at h; cases h
    | ub => simp only [hp, Res.andThen] at h; cases h
  | planePrior id l n0 d0 ns ds e1 =>
    obtain ⟨b1, e1'⟩ := hH.plane e1
    simp only [planePrior, e1, e1'] at h h'
    rw [← e1] at h
    rw [← e1'] at h'
    exact sameBlocks_one (ok rfl h) (ok rfl h') (fun e => blk _ _ e) ‹_› hc hB hB'
  | linearVelocity id v1 v2 vel n dt sigma i _ =>
    simp only [linearVelocity] at h h'
    generalize hs1 : (if VarLike.isConst (F := ℝ) (x v1) then Res.ok Mat.empty else offsetDiag n (VarLike.size (F := ℝ) (x v1)) i (-(1 / sigma))) = s1 at h
    generalize hs2 : (if VarLike.isConst (F := ℝ) (x v2) then Res.ok Mat.empty else offsetDiag n (VarLike.size (F := ℝ) (x v2)) i (1 / sigma)) = s2 at h
    generalize hs1' : (if VarLike.isConst (F := ℝ) (x' v1) then Res.ok Mat.empty else offsetDiag n (VarLike.size (F := ℝ) (x' v1)) i (-(1 / sigma))) = s1' at h'
    generalize hs2' : (if VarLike.isConst (F := ℝ) (x' v2) then Res.ok Mat.empty else offsetDiag n (VarLike.size (F := ℝ) (x' v2)) i (1 / sigma)) = s2' at h'
    obtain ⟨b1, rfl⟩ : ∃ b, s1 = .ok b := by
      cases s1 with
      | ok b => exact ⟨b, rfl⟩
      | threw => cases h
      | ub => cases h
    obtain ⟨b2, rfl⟩ : ∃ b, s2 = .ok b := by
      cases s2 with
      | ok b => exact ⟨b, rfl⟩
      | threw => cases h
      | ub => cases h
    obtain ⟨b1', rfl⟩ : ∃ b, s1' = .ok b := by
      cases s1' with
      | ok b => exact ⟨b, rfl⟩
      | threw => cases h'
      | ub => cases h'
    obtain ⟨b2', rfl⟩ : ∃ b, s2' = .ok b := by
      cases s2' with
      | ok b => exact ⟨b, rfl⟩
      | threw => cases h'
      | ub => cases h'
    refine sameBlocks_three (ok rfl h) (ok rfl h') (fun e => ?_) (fun e => ?_) (fun e => ?_) hp hc hB hB'
    · rw [hH.free e, hs1] at hs1'; exact (Res.ok.inj hs1').symm
    · rw [hH.free e, hs2] at hs2'; exact (Res.ok.inj hs2').symm
    · rw [hH.free e]
  | coordinateTransform id rot org sc la lb sigma e1 e2 e3 e4 e5 _ _ =>
    rename_i v o s a b _ _
    obtain ⟨b1, e1'⟩ := hH.rotation e1
    obtain ⟨b2, e2'⟩ := hH.generic e2
    obtain ⟨b3, e3'⟩ := hH.generic e3
    obtain ⟨b4, e4'⟩ := hH.landmark e4
    obtain ⟨b5, e5'⟩ := hH.landmark e5
    simp only [coordinateTransform] at h h'
    rw [e1, e2, e3, e4, e5] at h
    rw [e1', e2', e3', e4', e5'] at h'
    simp only at h h'
    split at h
    · cases h
    · rename_i hn
      rw [if_neg hn] at h'
      cases hp' : vec3 b.value with
      | ok y =>
        simp only [hp', Res.andThen] at h h'
        have hj := (Res.ok.inj h).symm
        have hj' := (Res.ok.inj h').symm
        rw [← e1, ← e2, ← e3, ← e4, ← e5] at hj
        rw [← e1', ← e2', ← e3', ← e4', ← e5'] at hj'
        subst hj hj'
        match p with
        | 0 => simp [coordinateTransform] at hp hB hB'; subst hp hB hB'; exact blk _ _ hc
        | 1 => simp [coordinateTransform] at hp hB hB'; subst hp hB hB'; exact blk _ _ hc
        | 2 => simp [coordinateTransform] at hp hB hB'; subst hp hB hB'; exact blk _ _ hc
        | 3 => simp [coordinateTransform] at hp hB hB'; subst hp hB hB'; exact blk _ _ hc
        | 4 => simp [coordinateTransform] at hp hB hB'; subst hp hB hB'; exact blk _ _ hc
        | p + 5 => simp [coordinateTransform] at hp
      | threw => simp only [hp', Res.andThen] at h; cases h
      | ub => simp only [hp', Res.andThen] at h; cases h

end Factorama
