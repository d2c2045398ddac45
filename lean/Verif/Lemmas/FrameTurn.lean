import Verif.Lemmas.FramePlane
import Verif.Lemmas.LogExp
import Verif.Lemmas.CorrespondWhile
import Verif.Spec.FrameTurn

/-!
# Turning a world in space
-/

namespace Factorama
open Spec Matrix Geo

/-- The rotation on the first three of several numbers. -/
noncomputable def spinEntry (W : M3) (i j : Nat) : ℝ := if h : i < 3 ∧ j < 3 then W ⟨i, h.1⟩ ⟨j, h.2⟩ else sameEntry i j

/-- How the directions of increments turn. -/
noncomputable def spaceDirections (W : M3) (role : VRef → TurnRole) (r : VRef) (_ : RVar) : Nat → Nat → ℝ :=
  match role r with
  | .pose | .landmark | .point | .arrow | .attitude | .origin => spinEntry W
  | _ => sameEntry

theorem spinEntry_three (W : M3) : (Matrix.of fun i j : Fin 3 => spinEntry W i j) = W := by
  ext i j
  simp [spinEntry, i.2, j.2]

/-- The rotation on the increments of a pose. -/
noncomputable def spinSix (W : M3) : Matrix (Fin 6) (Fin 6) ℝ := Matrix.of fun i j : Fin 6 => spinEntry W i j

theorem beside_spinSix {m : Nat} (A B : Matrix (Fin m) (Fin 3) ℝ) (W : M3) :
    Fac.beside A B * spinSix W = Fac.beside (A * W) B := by
  ext i j
  rw [Matrix.mul_apply, Fin.sum_univ_six]
  fin_cases j <;> simp [Fac.beside, spinSix, spinEntry, sameEntry, Matrix.mul_apply, Fin.sum_univ_three] <;> rfl

theorem mul_beside {m k : Nat} (K : Matrix (Fin k) (Fin m) ℝ) (A B : Matrix (Fin m) (Fin 3) ℝ) :
    K * Fac.beside A B = Fac.beside (K * A) (K * B) := by
  ext i j
  rw [Matrix.mul_apply]
  by_cases h : (j : Nat) < 3 <;> simp [Fac.beside, h, Matrix.mul_apply]

theorem spinSix_orthogonal {W : M3} (hW : Wᵀ * W = 1) : (spinSix W)ᵀ * spinSix W = 1 := by
  have e : spinSix W = Fac.beside (Matrix.of fun (i : Fin 6) (j : Fin 3) => spinEntry W i j) (Matrix.of fun (i : Fin 6) (j : Fin 3) => sameEntry i (j + 3)) := by
    ext i j
    fin_cases i <;> fin_cases j <;> simp [spinSix, Fac.beside, spinEntry, sameEntry]
  have w : ∀ i j, ∑ k, W k i * W k j = (1 : M3) i j := by
    intro i j
    rw [← hW]; rfl
  ext i j
  rw [Matrix.mul_apply, Fin.sum_univ_six]
  have h00 := w 0 0; have h01 := w 0 1; have h02 := w 0 2; have h10 := w 1 0; have h11 := w 1 1; have h12 := w 1 2
  have h20 := w 2 0; have h21 := w 2 1; have h22 := w 2 2
  simp only [Fin.sum_univ_three] at h00 h01 h02 h10 h11 h12 h20 h21 h22
  fin_cases i <;> fin_cases j <;> simp [spinSix, spinEntry, sameEntry] <;> assumption

/-- Blocks that are matrices. -/
theorem BlockTurned.of_matrix {m n : Nat} {κ τ : Nat → Nat → ℝ} {A A' : Matrix (Fin m) (Fin n) ℝ}
    (h : A' * (Matrix.of fun i j : Fin n => τ i j) = (Matrix.of fun i j : Fin m => κ i j) * A) :
    BlockTurned m n κ τ (Mat.ofMatrix A) (Mat.ofMatrix A') := by
  intro i j hi hj
  have := congrFun (congrFun h ⟨i, hi⟩) ⟨j, hj⟩
  rw [Matrix.mul_apply, Matrix.mul_apply] at this
  rw [Finset.sum_range, Finset.sum_range]
  simpa [Mat.ofMatrix, hi, hj] using this

theorem turned_list {m : Nat} {κ : Nat → Nat → ℝ} {x y : Fin m → ℝ} (h : y = (Matrix.of fun i j : Fin m => κ i j) *ᵥ x) :
    ∀ i, i < m → (toList y).getD i 0 = ∑ b ∈ Finset.range m, κ i b * (toList x).getD b 0 := by
  intro i hi
  have := congrFun h ⟨i, hi⟩
  rw [Finset.sum_range]
  simpa [toList, hi, mulVec, dotProduct] using this

section
variable {W : M3} {a : V3} {role : VRef → TurnRole}

theorem rotatedVar_shape {b : TurnRole} {v v' : RVar} (h : RotatedVar W a b v v') :
    VarLike.isConst v' = VarLike.isConst v ∧ VarLike.size v' = VarLike.size v := by
  cases h with
  | pose v v' h1 h2 h3 h4 => exact ⟨h2, rfl⟩
  | attitude v v' h1 h2 h3 => exact ⟨h2, rfl⟩
  | _ => exact ⟨rfl, by simp [VarLike.size, toList]⟩

/-- The two descriptions of the variables. -/
abbrev Rotated (W : M3) (a : V3) (role : VRef → TurnRole) (h h' : Heap RVar) : Prop := ∀ r, RotatedVar W a (role r) (h r) (h' r)

variable {h h' : Heap RVar}

theorem Rotated.pose (hM : Rotated W a role h h') {r : VRef} (hr : role r = .pose) :
    ∃ v v', h r = .pose v ∧ h' r = .pose v' ∧ v'.isConst = v.isConst ∧ v'.pos = W *ᵥ v.pos + a ∧ v'.dcm = v.dcm * Wᵀ := by
  have := hM r
  rw [hr] at this
  generalize h r = v, h' r = v' at this
  cases this with
  | pose v v' h1 h2 h3 h4 => exact ⟨v, v', rfl, rfl, h2, h3, h4⟩

theorem Rotated.landmark (hM : Rotated W a role h h') {r : VRef} (hr : role r = .landmark) :
    ∃ id c, ∃ x : V3, h r = .landmark ⟨id, c, toList x⟩ ∧ h' r = .landmark ⟨id, c, toList (W *ᵥ x + a)⟩ := by
  have := hM r
  rw [hr] at this
  generalize h r = v, h' r = v' at this
  cases this; exact ⟨_, _, _, rfl, rfl⟩

theorem Rotated.arrow (hM : Rotated W a role h h') {r : VRef} (hr : role r = .arrow) :
    ∃ id c, ∃ x : V3, h r = .generic ⟨id, c, toList x⟩ ∧ h' r = .generic ⟨id, c, toList (W *ᵥ x)⟩ := by
  have := hM r
  rw [hr] at this
  generalize h r = v, h' r = v' at this
  cases this; exact ⟨_, _, _, rfl, rfl⟩

theorem Rotated.attitude (hM : Rotated W a role h h') {r : VRef} (hr : role r = .attitude) :
    ∃ v v', h r = .rotation v ∧ h' r = .rotation v' ∧ v'.isConst = v.isConst ∧ v'.dcm = W * v.dcm := by
  have := hM r
  rw [hr] at this
  generalize h r = v, h' r = v' at this
  cases this with
  | attitude v v' h1 h2 h3 => exact ⟨v, v', rfl, rfl, h2, h3⟩

theorem Rotated.origin (hM : Rotated W a role h h') {r : VRef} (hr : role r = .origin) :
    ∃ id c, ∃ x : V3, h r = .generic ⟨id, c, toList x⟩ ∧ h' r = .generic ⟨id, c, toList (W *ᵥ x - a)⟩ := by
  have := hM r
  rw [hr] at this
  generalize h r = v, h' r = v' at this
  cases this; exact ⟨_, _, _, rfl, rfl⟩

theorem Rotated.ray (hM : Rotated W a role h h') {r : VRef} (hr : role r = .ray) :
    ∃ v, h r = .invRange v ∧ h' r = .invRange { v with origin := W *ᵥ v.origin + a, bearing := W *ᵥ v.bearing } := by
  have := hM r
  rw [hr] at this
  generalize h r = v, h' r = v' at this
  cases this; exact ⟨_, rfl, rfl⟩

theorem Rotated.plane (hM : Rotated W a role h h') {r : VRef} (hr : role r = .plane) :
    ∃ v, v.isConst = true ∧ h r = .plane v ∧ h' r = .plane { v with normal := W *ᵥ v.normal, dist := v.dist - (W *ᵥ v.normal) ⬝ᵥ a } := by
  have := hM r
  rw [hr] at this
  generalize h r = v, h' r = v' at this
  cases this with
  | plane v hc => exact ⟨_, hc, rfl, rfl⟩

theorem Rotated.still (hM : Rotated W a role h h') {r : VRef} (hr : role r = .still) : h' r = h r := by
  have := hM r
  rw [hr] at this
  generalize h r = v, h' r = v' at this
  cases this <;> rfl

theorem Rotated.place (hM : Rotated W a role h h') {r : VRef} (hr : (role r).IsPlace) :
    ∃ x : V3, VarLike.value (h r) = toList x ∧ VarLike.value (h' r) = toList (W *ᵥ x + a) ∧ VarLike.size (h r) = 3 := by
  have := hM r
  rcases hr with hr | hr <;> rw [hr] at this <;> generalize h r = v, h' r = v' at this <;> cases this <;>
    exact ⟨_, rfl, rfl, by simp [VarLike.size, toList]⟩

theorem spin_place {r : VRef} (hr : (role r).IsPlace) (v : RVar) : spaceDirections W role r v = spinEntry W := by
  rcases hr with hr | hr <;> simp [spaceDirections, hr]

theorem spin_pose {r : VRef} (hr : role r = .pose) (v : RVar) : spaceDirections W role r v = spinEntry W := by simp [spaceDirections, hr]
theorem spin_arrow {r : VRef} (hr : role r = .arrow) (v : RVar) : spaceDirections W role r v = spinEntry W := by simp [spaceDirections, hr]
theorem spin_attitude {r : VRef} (hr : role r = .attitude) (v : RVar) : spaceDirections W role r v = spinEntry W := by
  simp [spaceDirections, hr]
theorem spin_origin {r : VRef} (hr : role r = .origin) (v : RVar) : spaceDirections W role r v = spinEntry W := by simp [spaceDirections, hr]
theorem spin_still {r : VRef} (hr : role r = .still) (v : RVar) : spaceDirections W role r v = sameEntry := by simp [spaceDirections, hr]
theorem spin_ray {r : VRef} (hr : role r = .ray) (v : RVar) : spaceDirections W role r v = sameEntry := by simp [spaceDirections, hr]

/-- The blocks of a variable in the two frames, if it is free. -/
def FitBlock (W : M3) (role : VRef → TurnRole) (h : Heap RVar) (m : Nat) (κ : Nat → Nat → ℝ) (q : VRef) (B B' : Mat ℝ) : Prop :=
  VarLike.isConst (h q) = false → BlockTurned m (VarLike.size (h q)) κ (spaceDirections W role q (h q)) B B'

/-- What a camera sees. -/
theorem seen (hW : Wᵀ * W = 1) (D : M3) (x y : V3) : (D * Wᵀ) *ᵥ (W *ᵥ x + a - (W *ᵥ y + a)) = D *ᵥ (x - y) := by
  rw [add_sub_add_right_eq_sub, ← mulVec_sub, mulVec_mulVec, Matrix.mul_assoc, hW, Matrix.mul_one]

theorem back (hW : Wᵀ * W = 1) {m : Nat} (D : Matrix (Fin m) (Fin 3) ℝ) : D * Wᵀ * W = D := by
  rw [Matrix.mul_assoc, hW, Matrix.mul_one]

theorem FitBlock.pose (hW : Wᵀ * W = 1) (hM : Rotated W a role h h') {p : VRef} (hp : role p = .pose) {m : Nat}
    {A A' B B' : Matrix (Fin m) (Fin 3) ℝ} (h1 : A' * W = A) (h2 : B' = B) :
    FitBlock W role h m sameEntry p (Fac.block (h p) (Fac.beside A B)) (Fac.block (h' p) (Fac.beside A' B')) := by
  intro c0
  obtain ⟨v, v', e1, e2, _⟩ := hM.pose hp
  rw [Fac.block, Fac.block, (rotatedVar_shape (hM p)).1, c0, spin_pose hp, e1]
  refine BlockTurned.of_matrix (n := 6) ?_
  rw [sameEntry_eq, Matrix.one_mul]
  show Fac.beside A' B' * spinSix W = _
  rw [beside_spinSix, h1, h2]

theorem FitBlock.poseSpun (hW : Wᵀ * W = 1) (hM : Rotated W a role h h') {p : VRef} (hp : role p = .pose)
    {A A' B B' : M3} (h1 : A' * W = W * A) (h2 : B' = W * B) :
    FitBlock W role h 3 (spinEntry W) p (Fac.block (h p) (Fac.beside A B)) (Fac.block (h' p) (Fac.beside A' B')) := by
  intro c0
  obtain ⟨v, v', e1, e2, _⟩ := hM.pose hp
  rw [Fac.block, Fac.block, (rotatedVar_shape (hM p)).1, c0, spin_pose hp, e1]
  refine BlockTurned.of_matrix (n := 6) ?_
  rw [spinEntry_three]
  show Fac.beside A' B' * spinSix W = _
  rw [beside_spinSix, h1, h2, mul_beside]

theorem FitBlock.three (hM : Rotated W a role h h') {q : VRef} (hs : VarLike.size (h q) = 3)
    (hd : spaceDirections W role q (h q) = spinEntry W) {m : Nat}
    {A A' : Matrix (Fin m) (Fin 3) ℝ} (h1 : A' * W = A) :
    FitBlock W role h m sameEntry q (Fac.block (h q) A) (Fac.block (h' q) A') := by
  intro c0
  rw [Fac.block, Fac.block, (rotatedVar_shape (hM q)).1, c0, hs, hd]
  refine BlockTurned.of_matrix (n := 3) ?_
  rw [sameEntry_eq, Matrix.one_mul, spinEntry_three, h1]

theorem FitBlock.threeSpun (hM : Rotated W a role h h') {q : VRef} (hs : VarLike.size (h q) = 3)
    (hd : spaceDirections W role q (h q) = spinEntry W) {A A' : M3} (h1 : A' * W = W * A) :
    FitBlock W role h 3 (spinEntry W) q (Fac.block (h q) A) (Fac.block (h' q) A') := by
  intro c0
  rw [Fac.block, Fac.block, (rotatedVar_shape (hM q)).1, c0, hs, hd]
  refine BlockTurned.of_matrix (n := 3) ?_
  rw [spinEntry_three, h1]

theorem FitBlock.same (hM : Rotated W a role h h') {q : VRef} (hd : spaceDirections W role q (h q) = sameEntry) {m n : Nat}
    (A : Matrix (Fin m) (Fin n) ℝ) : FitBlock W role h m sameEntry q (Fac.block (h q) A) (Fac.block (h' q) A) := by
  intro c0
  rw [block_const (rotatedVar_shape (hM q)).1, hd]
  exact BlockTurned.same _ _ _

/-- A block of a variable that stays where it is, with turned rows. -/
theorem FitBlock.rows (hM : Rotated W a role h h') {q : VRef} (hd : spaceDirections W role q (h q) = sameEntry) {n : Nat}
    {A A' : Matrix (Fin 3) (Fin n) ℝ} (h1 : A' = W * A) :
    FitBlock W role h 3 (spinEntry W) q (Fac.block (h q) A) (Fac.block (h' q) A') := by
  intro c0
  rw [Fac.block, Fac.block, (rotatedVar_shape (hM q)).1, c0, hd]
  intro i j hi hj
  have e : ∑ b ∈ Finset.range (VarLike.size (h q)), (Mat.ofMatrix A').entry i b * sameEntry b j = (Mat.ofMatrix A').entry i j := by
    simp [sameEntry, hj]
  simp only [Bool.false_eq_true, if_false]
  rw [e, Finset.sum_range]
  by_cases hn : j < n
  · subst h1
    simp [Mat.ofMatrix, hi, hn, Matrix.mul_apply, spinEntry]
  · simp [Mat.ofMatrix, hn]

theorem FitBlock.const {q : VRef} (hc : VarLike.isConst (h q) = true) {m : Nat} {κ : Nat → Nat → ℝ} {B B' : Mat ℝ} :
    FitBlock W role h m κ q B B' := fun c0 => by rw [hc] at c0; cases c0

theorem same_list {m : Nat} (s : List ℝ) : ∀ i, i < m → s.getD i 0 = ∑ b ∈ Finset.range m, sameEntry i b * s.getD b 0 :=
  fun i hi => (sum_sameEntry (fun b => s.getD b 0) i hi).symm

theorem landmark_size {r : VRef} (hM : Rotated W a role h h') (hr : role r = .landmark) : VarLike.size (h r) = 3 := by
  obtain ⟨_, _, _, e, _⟩ := hM.landmark hr
  rw [e]; rfl

theorem arrow_size {r : VRef} (hM : Rotated W a role h h') (hr : role r = .arrow) : VarLike.size (h r) = 3 := by
  obtain ⟨_, _, _, e, _⟩ := hM.arrow hr
  rw [e]; simp [VarLike.size, toList]

theorem attitude_size {r : VRef} (hM : Rotated W a role h h') (hr : role r = .attitude) : VarLike.size (h r) = 3 := by
  obtain ⟨_, _, e, _⟩ := hM.attitude hr
  rw [e]; rfl

theorem origin_size {r : VRef} (hM : Rotated W a role h h') (hr : role r = .origin) : VarLike.size (h r) = 3 := by
  obtain ⟨_, _, _, e, _⟩ := hM.origin hr
  rw [e]; simp [VarLike.size, toList]

variable (W a role) in
/-- The statement about a pair of factors. -/
abbrev FitFactor (f f' : Factor ℝ RVar) : Prop := TurnedFactor (spaceDirections W role) (fun r => RotatedVar W a (role r)) f f'

theorem spin_orthogonal (hW : Wᵀ * W = 1) :
    (Matrix.of fun i j : Fin 3 => spinEntry W i j)ᵀ * (Matrix.of fun i j : Fin 3 => spinEntry W i j) = 1 := by
  rw [spinEntry_three, hW]

theorem bearingObservation_fit (hW : Wᵀ * W = 1) (id p l bearing sigma) (hp : role p = .pose) (hl : role l = .landmark) :
    FitFactor W a role (Fac.bearingObservation id p l bearing sigma) (Fac.bearingObservation id p l bearing sigma) := by
  refine .of (m := 3) rfl rfl rfl sameEntry (sameEntry_orthogonal 3) ?_ ?_
  · intro h h' hM s s' h1 h2
    obtain ⟨v, v', e1, e2, _, e3, e4⟩ := Rotated.pose hM hp
    obtain ⟨i, c, x, e5, e6⟩ := Rotated.landmark hM hl
    simp only [Fac.bearingObservation, e1, e2, e5, e6, landmark_posW_toList, Res.map, e3, e4, seen hW] at h1 h2
    rw [h1] at h2
    cases h2
    exact same_list s
  · intro h h' hM js js' h1 h2 k q B B' h3 h4 h5 h6
    obtain ⟨v, v', e1, e2, _, e3, e4⟩ := Rotated.pose hM hp
    obtain ⟨i, c, x, e5, e6⟩ := Rotated.landmark hM hl
    simp only [Fac.bearingObservation, e1, e2, e5, e6, landmark_posW_toList, Res.andThen, e3, e4, seen hW] at h1 h2
    split at h1
    · cases h1
    rename_i hn
    rw [if_neg hn] at h2
    rw [fillBlocks_ok (by rfl)] at h1 h2
    rw [← e1, ← e5] at h1
    rw [← e2, ← e6] at h2
    cases Res.ok.inj h1
    cases Res.ok.inj h2
    refine two_blocks (P := FitBlock W role h 3 sameEntry) ?_ ?_ k q B B' h3 h5 h6 h4
    · exact FitBlock.pose hW hM hp (by rw [← Matrix.mul_assoc, back hW]) rfl
    · exact FitBlock.three hM (landmark_size hM hl) (spin_place (.inl hl) _) (by rw [← Matrix.mul_assoc, back hW])

theorem bearingProjection_fit (hW : Wᵀ * W = 1) (id p l bearing sigma tol) (hp : role p = .pose) (hl : role l = .landmark) :
    FitFactor W a role (Fac.bearingProjection id p l bearing sigma tol) (Fac.bearingProjection id p l bearing sigma tol) := by
  refine .of (m := 2) rfl rfl rfl sameEntry (sameEntry_orthogonal 2) ?_ ?_
  · intro h h' hM s s' h1 h2
    obtain ⟨v, v', e1, e2, _, e3, e4⟩ := Rotated.pose hM hp
    obtain ⟨i, c, x, e5, e6⟩ := Rotated.landmark hM hl
    simp only [Fac.bearingProjection, e1, e2, e5, e6, landmark_posW_toList, Res.map, e3, e4, seen hW] at h1 h2
    rw [h1] at h2
    cases h2
    exact same_list s
  · intro h h' hM js js' h1 h2 k q B B' h3 h4 h5 h6
    obtain ⟨v, v', e1, e2, _, e3, e4⟩ := Rotated.pose hM hp
    obtain ⟨i, c, x, e5, e6⟩ := Rotated.landmark hM hl
    simp only [Fac.bearingProjection, e1, e2, e5, e6, landmark_posW_toList, Res.andThen, e3, e4, seen hW] at h1 h2
    split at h1
    · cases h1
    rename_i hn
    rw [if_neg hn] at h2
    have z : (0 : Matrix (Fin 2) (Fin 6) ℝ) = Fac.beside 0 0 := by
      ext i j; simp [Fac.beside]
    split at h1
    · rename_i ht
      rw [if_pos ht] at h2
      rw [fillBlocks_ok (by rfl)] at h1 h2
      rw [← e1, ← e5] at h1
      rw [← e2, ← e6] at h2
      cases Res.ok.inj h1
      cases Res.ok.inj h2
      refine two_blocks (P := FitBlock W role h 2 sameEntry) ?_ ?_ k q B B' h3 h5 h6 h4
      · rw [z]
        exact FitBlock.pose hW hM hp (by rw [Matrix.zero_mul]) rfl
      · exact FitBlock.three hM (landmark_size hM hl) (spin_place (.inl hl) _) (by rw [Matrix.zero_mul])
    · rename_i ht
      rw [if_neg ht] at h2
      rw [fillBlocks_ok (by rfl)] at h1 h2
      rw [← e1, ← e5] at h1
      rw [← e2, ← e6] at h2
      cases Res.ok.inj h1
      cases Res.ok.inj h2
      refine two_blocks (P := FitBlock W role h 2 sameEntry) ?_ ?_ k q B B' h3 h5 h6 h4
      · rw [mul_beside, mul_beside]
        exact FitBlock.pose hW hM hp (by simp only [← Matrix.mul_assoc]; rw [back hW]) rfl
      · exact FitBlock.three hM (landmark_size hM hl) (spin_place (.inl hl) _) (by simp only [← Matrix.mul_assoc]; rw [back hW])

theorem inverseRangeBearing_fit (hW : Wᵀ * W = 1) (id p r bearing sigma) (hp : role p = .pose) (hr : role r = .ray) :
    FitFactor W a role (Fac.inverseRangeBearing id p r bearing sigma) (Fac.inverseRangeBearing id p r bearing sigma) := by
  have sum : ∀ (x : InvRangeVar) (c : ℝ), W *ᵥ x.origin + a + c • W *ᵥ x.bearing = W *ᵥ (x.origin + c • x.bearing) + a := by
    intro x c
    rw [mulVec_add, mulVec_smul]; abel
  have neg : ∀ (D : M3) (b : V3) (c : ℝ), (D * Wᵀ) *ᵥ vdiv (-(W *ᵥ b)) c = D *ᵥ vdiv (-b) c := by
    intro D b c
    have : vdiv (-(W *ᵥ b)) c = W *ᵥ vdiv (-b) c := by
      have e : ∀ x : V3, vdiv x c = c⁻¹ • x := by intro x; funext i; simp [vdiv, div_eq_inv_mul]
      rw [e, e, mulVec_smul, mulVec_neg]
    rw [this, mulVec_mulVec, back hW]
  refine .of (m := 3) rfl rfl rfl sameEntry (sameEntry_orthogonal 3) ?_ ?_
  · intro h h' hM s s' h1 h2
    obtain ⟨v, v', e1, e2, _, e3, e4⟩ := Rotated.pose hM hp
    obtain ⟨x, e5, e6⟩ := Rotated.ray hM hr
    by_cases hi : |x.inv| < 1e-9
    · simp only [Fac.inverseRangeBearing, e1, e5, InvRangeVar.posW, if_pos hi] at h1
      cases h1
    simp only [Fac.inverseRangeBearing, e1, e2, e5, e6, InvRangeVar.posW, if_neg hi, e3, e4, sum, seen hW] at h1 h2
    rw [h1] at h2
    cases h2
    exact same_list s
  · intro h h' hM js js' h1 h2 k q B B' h3 h4 h5 h6
    obtain ⟨v, v', e1, e2, _, e3, e4⟩ := Rotated.pose hM hp
    obtain ⟨x, e5, e6⟩ := Rotated.ray hM hr
    by_cases hi : |x.inv| < 1e-9
    · simp only [Fac.inverseRangeBearing, e1, e5, InvRangeVar.posW, if_pos hi] at h1
      cases h1
    simp only [Fac.inverseRangeBearing, e1, e2, e5, e6, InvRangeVar.posW, if_neg hi, e3, e4, sum, seen hW, neg] at h1 h2
    split at h1
    · cases h1
    rename_i hn
    rw [if_neg hn] at h2
    rw [fillBlocks_ok (by rfl)] at h1 h2
    rw [← e1, ← e5] at h1
    rw [← e2, ← e6] at h2
    cases Res.ok.inj h1
    cases Res.ok.inj h2
    refine two_blocks (P := FitBlock W role h 3 sameEntry) ?_ ?_ k q B B' h3 h5 h6 h4
    · exact FitBlock.pose hW hM hp (by rw [← Matrix.mul_assoc, back hW]) rfl
    · exact FitBlock.same hM (spin_ray hr _) _

theorem poseOrientationBetween_fit (hW : Wᵀ * W = 1) (id p q c sigma) (hp : role p = .pose) (hq : role q = .pose)
    (hc : role c = .still) :
    FitFactor W a role (Fac.poseOrientationBetween id p q c sigma) (Fac.poseOrientationBetween id p q c sigma) := by
  have rel : ∀ A B : M3, B * Wᵀ * (A * Wᵀ)ᵀ = B * Aᵀ := by
    intro A B
    rw [Matrix.transpose_mul, Matrix.transpose_transpose, ← Matrix.mul_assoc, back hW]
  refine .of (m := 3) rfl rfl rfl sameEntry (sameEntry_orthogonal 3) ?_ ?_
  · intro h h' hM s s' h1 h2
    obtain ⟨v, v', e1, e2, _, e3, e4⟩ := Rotated.pose hM hp
    obtain ⟨u, u', e5, e6, _, e7, e8⟩ := Rotated.pose hM hq
    simp only [Fac.poseOrientationBetween, e1, e2, e5, e6, Rotated.still hM hc] at h1 h2
    cases hx : h c with
    | rotation vc =>
      simp only [hx, e4, e8, rel] at h1 h2
      rw [h1] at h2
      cases h2
      exact same_list s
    | _ => simp [hx] at h1
  · intro h h' hM js js' h1 h2 k z B B' h3 h4 h5 h6
    obtain ⟨v, v', e1, e2, _, e3, e4⟩ := Rotated.pose hM hp
    obtain ⟨u, u', e5, e6, _, e7, e8⟩ := Rotated.pose hM hq
    simp only [Fac.poseOrientationBetween, e1, e2, e5, e6, Rotated.still hM hc] at h1 h2
    cases hx : h c with
    | rotation vc =>
      simp only [hx, e4, e8, rel] at h1 h2
      cases hJ : invJacSO3 (logSO3 (u.dcm * v.dcmᵀ * vc.dcm)) with
      | ok J =>
        simp only [hJ, Res.andThen] at h1 h2
        rw [fillBlocks_ok (by rfl)] at h1 h2
        rw [← e1, ← e5, ← hx] at h1
        rw [← e2, ← e6, ← hx, ← Rotated.still hM hc] at h2
        cases Res.ok.inj h1
        cases Res.ok.inj h2
        refine three_blocks (P := FitBlock W role h 3 sameEntry) ?_ ?_ ?_ k z B B' h3 h5 h6 h4
        · exact FitBlock.pose hW hM hp (by rw [Matrix.zero_mul]) rfl
        · exact FitBlock.pose hW hM hq (by rw [Matrix.zero_mul]) rfl
        · exact FitBlock.same hM (spin_still hc _) _
      | threw => simp [hJ, Res.andThen] at h1
      | ub => simp [hJ, Res.andThen] at h1
    | _ => simp [hx] at h1

theorem posePositionBetweenLocal_fit (hW : Wᵀ * W = 1) (id p q m sigma) (hp : role p = .pose) (hq : role q = .pose)
    (hm : role m = .still) :
    FitFactor W a role (Fac.posePositionBetween id p q m sigma true) (Fac.posePositionBetween id p q m sigma true) := by
  refine .of (m := 3) rfl rfl rfl sameEntry (sameEntry_orthogonal 3) ?_ ?_
  · intro h h' hM s s' h1 h2
    obtain ⟨v, v', e1, e2, _, e3, e4⟩ := Rotated.pose hM hp
    obtain ⟨u, u', e5, e6, _, e7, e8⟩ := Rotated.pose hM hq
    simp only [Fac.posePositionBetween, e1, e2, e5, e6, Rotated.still hM hm, e3, e4, e7, if_true, seen hW] at h1 h2
    rw [h1] at h2
    cases h2
    exact same_list s
  · intro h h' hM js js' h1 h2 k z B B' h3 h4 h5 h6
    obtain ⟨v, v', e1, e2, _, e3, e4⟩ := Rotated.pose hM hp
    obtain ⟨u, u', e5, e6, _, e7, e8⟩ := Rotated.pose hM hq
    simp only [Fac.posePositionBetween, e1, e2, e5, e6, e3, e4, e7, if_true, seen hW] at h1 h2
    rw [fillBlocks_ok (by rfl)] at h1 h2
    rw [← e1, ← e5] at h1
    rw [← e2, ← e6] at h2
    cases Res.ok.inj h1
    cases Res.ok.inj h2
    refine three_blocks (P := FitBlock W role h 3 sameEntry) ?_ ?_ ?_ k z B B' h3 h5 h6 h4
    · exact FitBlock.pose hW hM hp (by rw [Matrix.smul_mul, back hW]) rfl
    · exact FitBlock.pose hW hM hq (by rw [Matrix.smul_mul, back hW]) rfl
    · exact FitBlock.same hM (spin_still hm _) _

theorem posePositionBetween_fit (hW : Wᵀ * W = 1) (id p q m sigma) (hp : role p = .pose) (hq : role q = .pose)
    (hm : role m = .arrow) :
    FitFactor W a role (Fac.posePositionBetween id p q m sigma false) (Fac.posePositionBetween id p q m sigma false) := by
  refine .of (m := 3) rfl rfl rfl (spinEntry W) (spin_orthogonal hW) ?_ ?_
  · intro h h' hM s s' h1 h2
    obtain ⟨v, v', e1, e2, _, e3, e4⟩ := Rotated.pose hM hp
    obtain ⟨u, u', e5, e6, _, e7, e8⟩ := Rotated.pose hM hq
    obtain ⟨_, _, x, e9, e10⟩ := Rotated.arrow hM hm
    simp only [Fac.posePositionBetween, e1, e2, e5, e6, e9, e10, VarLike.value, vec3_toList, Res.map, e3, e7, Bool.false_eq_true, if_false] at h1 h2
    cases Res.ok.inj h1
    cases Res.ok.inj h2
    refine turned_list ?_
    rw [spinEntry_three, mulVec_smul, mulVec_sub, mulVec_sub, add_sub_add_right_eq_sub]
  · intro h h' hM js js' h1 h2 k z B B' h3 h4 h5 h6
    obtain ⟨v, v', e1, e2, _, e3, e4⟩ := Rotated.pose hM hp
    obtain ⟨u, u', e5, e6, _, e7, e8⟩ := Rotated.pose hM hq
    simp only [Fac.posePositionBetween, e1, e2, e5, e6, Bool.false_eq_true, if_false] at h1 h2
    rw [fillBlocks_ok (by rfl)] at h1 h2
    rw [← e1, ← e5] at h1
    rw [← e2, ← e6] at h2
    cases Res.ok.inj h1
    cases Res.ok.inj h2
    refine three_blocks (P := FitBlock W role h 3 (spinEntry W)) ?_ ?_ ?_ k z B B' h3 h5 h6 h4
    · exact FitBlock.poseSpun hW hM hp (by simp) (by simp)
    · exact FitBlock.poseSpun hW hM hq (by simp) (by simp)
    · exact FitBlock.threeSpun hM (arrow_size hM hm) (spin_arrow hm _) (by simp)

theorem posePositionPrior_fit (hW : Wᵀ * W = 1) (id p) (prior : V3) (sigma) (hp : role p = .pose) :
    FitFactor W a role (Fac.posePositionPrior id p prior sigma) (Fac.posePositionPrior id p (W *ᵥ prior + a) sigma) := by
  refine .of (m := 3) rfl rfl rfl (spinEntry W) (spin_orthogonal hW) ?_ ?_
  · intro h h' hM s s' h1 h2
    obtain ⟨v, v', e1, e2, _, e3, e4⟩ := Rotated.pose hM hp
    simp only [Fac.posePositionPrior, e1, e2, e3] at h1 h2
    cases Res.ok.inj h1
    cases Res.ok.inj h2
    refine turned_list ?_
    rw [spinEntry_three, mulVec_smul, mulVec_sub, add_sub_add_right_eq_sub]
  · intro h h' hM js js' h1 h2 k z B B' h3 h4 h5 h6
    obtain ⟨v, v', e1, e2, _, e3, e4⟩ := Rotated.pose hM hp
    simp only [Fac.posePositionPrior, e1, e2] at h1 h2
    rw [fillBlocks_ok (by rfl)] at h1 h2
    rw [← e1] at h1
    rw [← e2] at h2
    cases Res.ok.inj h1
    cases Res.ok.inj h2
    refine one_block (P := FitBlock W role h 3 (spinEntry W)) ?_ k z B B' h3 h5 h6 h4
    exact FitBlock.poseSpun hW hM hp (by simp) (by simp)

theorem transpose_rotation (hW : IsRotation W) : IsRotation Wᵀ := by
  refine ⟨?_, by rw [Matrix.det_transpose]; exact hW.2⟩
  rw [Matrix.transpose_transpose]
  exact mul_eq_one_comm.1 hW.1

theorem poseOrientationPrior_fit (hR' : IsRotation W) (id p) (R : M3) (sigma) (hp : role p = .pose) (hR : IsRotation R)
    (h1 : 1e-5 ≤ angle R) (h2 : 1e-5 ≤ angle (R * Wᵀ)) :
    FitFactor W a role (Fac.poseOrientationPrior id p R sigma) (Fac.poseOrientationPrior id p (R * Wᵀ) sigma) := by
  have hW : Wᵀ * W = 1 := mul_eq_one_comm.1 hR'.1
  have x1 := exp_log (IsRotation.eqs hR) h1
  have x2 := exp_log (IsRotation.eqs (rotation_mul hR (transpose_rotation hR'))) h2
  have rel : ∀ A : M3, A * Wᵀ * (R * Wᵀ)ᵀ = A * Rᵀ := by
    intro A
    rw [Matrix.transpose_mul, Matrix.transpose_transpose, ← Matrix.mul_assoc, back hW]
  refine .of (m := 3) rfl rfl rfl sameEntry (sameEntry_orthogonal 3) ?_ ?_
  · intro h h' hM s s' h1 h2
    obtain ⟨v, v', e1, e2, _, e3, e4⟩ := Rotated.pose hM hp
    simp only [Fac.poseOrientationPrior, e1, e2, e4, x1, x2, rel] at h1 h2
    rw [h1] at h2
    cases h2
    exact same_list s
  · intro h h' hM js js' h1 h2 k z B B' h3 h4 h5 h6
    obtain ⟨v, v', e1, e2, ec, e3, e4⟩ := Rotated.pose hM hp
    obtain ⟨rfl, rfl⟩ : k = 0 ∧ p = z := by
      rcases k with _ | k <;> simp_all [Fac.poseOrientationPrior]
    have c0 : v.isConst = false := by rw [e1] at h4; exact h4
    simp only [Fac.poseOrientationPrior, e1, e2, e4, x1, x2, rel, ec, c0, Bool.false_eq_true, if_false] at h1 h2
    cases hJ : invJacSO3 (logSO3 (v.dcm * Rᵀ)) with
    | ok J =>
      simp only [hJ, Res.andThen] at h1 h2
      rw [fillBlocks_ok (by rfl)] at h1 h2
      cases Res.ok.inj h1
      cases Res.ok.inj h2
      cases h5
      cases h6
      have := FitBlock.pose (h := h) (h' := h') hW hM hp (m := 3) (A := 0) (A' := 0) (B := (1 / sigma) • J) (by rw [Matrix.zero_mul]) rfl h4
      rw [Fac.block, Fac.block, (rotatedVar_shape (hM p)).1, h4] at this
      exact this
    | threw => simp [hJ, Res.andThen] at h1
    | ub => simp [hJ, Res.andThen] at h1

theorem still_fit {f : Factor ℝ RVar} {r : VRef} (hv : f.variables = [some r]) (hr : role r = .still)
    (hres : ∀ h h' : Heap RVar, h' r = h r → f.computeResidual h' = f.computeResidual h)
    (hjac : ∀ h h' : Heap RVar, h' r = h r → f.computeJacobians h' [] = f.computeJacobians h []) : FitFactor W a role f f := by
  refine .of (m := f.residualSize) rfl rfl rfl sameEntry (sameEntry_orthogonal _) ?_ ?_
  · intro h h' hM s s' h1 h2
    rw [hres h h' (Rotated.still hM hr), h1] at h2
    cases h2
    exact same_list s
  · intro h h' hM js js' h1 h2 p q B B' h3 h4 h5 h6
    rw [hjac h h' (Rotated.still hM hr), h1] at h2
    obtain rfl := Res.ok.inj h2
    obtain rfl := Option.some.inj (h5.symm.trans h6)
    obtain ⟨rfl, rfl⟩ : p = 0 ∧ r = q := by
      rcases p with _ | p <;> simp_all
    rw [spin_still hr]
    exact BlockTurned.same _ _ _

theorem prior_fit (hW : Wᵀ * W = 1) {id : Int} {r : VRef} {x y b : V3} {w : ℝ}
    (hd : ∀ v, spaceDirections W role r v = spinEntry W) (hb : y = W *ᵥ x + b)
    (hval : ∀ h h' : Heap RVar, Rotated W a role h h' → ∃ z : V3, VarLike.value (h r) = toList z ∧
      VarLike.value (h' r) = toList (W *ᵥ z + b) ∧ VarLike.size (h r) = 3) :
    FitFactor W a role (Factorama.genericPrior id r (toList x) w) (Factorama.genericPrior id r (toList y) w) := by
  have map : ∀ z : V3, (toList z).map (w * ·) = toList (w • z) := by
    intro z
    apply List.ext_getElem (by simp [toList])
    intro i h1 h2
    simp [toList]
  refine .of (m := 3) (by simp [Factorama.genericPrior, toList]) rfl (by simp [Factorama.genericPrior, toList]) (spinEntry W) (spin_orthogonal hW) ?_ ?_
  · intro h h' hM s s' h1 h2
    obtain ⟨z, e1, e2, e3⟩ := hval h h' hM
    simp only [Factorama.genericPrior, e1, e2, vecSub_toList, map] at h1 h2
    cases Res.ok.inj h1
    cases Res.ok.inj h2
    refine turned_list ?_
    rw [spinEntry_three, mulVec_smul, mulVec_sub, hb, add_sub_add_right_eq_sub]
  · intro h h' hM js js' h1 h2 k z B B' h3 h4 h5 h6
    obtain ⟨rfl, rfl⟩ : k = 0 ∧ r = z := by
      rcases k with _ | k <;> simp_all [Factorama.genericPrior]
    obtain ⟨_, _, _, e3⟩ := hval h h' hM
    simp only [Factorama.genericPrior, (rotatedVar_shape (hM r)).1, h4] at h1 h2
    cases h1
    cases h2
    cases h5
    cases h6
    have l : ∀ z : V3, (toList z).length = 3 := by simp [toList]
    rw [hd, e3, l, l]
    exact BlockTurned.diag 3 _ w

theorem placesBetween_fit (hW : Wᵀ * W = 1) (id p q m w) (hp : (role p).IsPlace) (hq : (role q).IsPlace) (hm : role m = .arrow) :
    FitFactor W a role (Factorama.genericBetween id p q m 3 w) (Factorama.genericBetween id p q m 3 w) := by
  have map : ∀ z : V3, (toList z).map (w * ·) = toList (w • z) := by
    intro z
    apply List.ext_getElem (by simp [toList])
    intro i h1 h2
    simp [toList]
  refine .of (m := 3) rfl rfl rfl (spinEntry W) (spin_orthogonal hW) ?_ ?_
  · intro h h' hM s s' h1 h2
    obtain ⟨x, e1, e2, _⟩ := Rotated.place hM hp
    obtain ⟨y, e3, e4, _⟩ := Rotated.place hM hq
    obtain ⟨_, _, z, e5, e6⟩ := Rotated.arrow hM hm
    have e7 : VarLike.value (h m) = toList z := by rw [e5]; rfl
    have e8 : VarLike.value (h' m) = toList (W *ᵥ z) := by rw [e6]; rfl
    simp only [Factorama.genericBetween, e1, e2, e3, e4, e7, e8, vecSub_toList, map] at h1 h2
    cases Res.ok.inj h1
    cases Res.ok.inj h2
    refine turned_list ?_
    rw [spinEntry_three, mulVec_smul, mulVec_sub, mulVec_sub, add_sub_add_right_eq_sub]
  · intro h h' hM js js' h1 h2 k z B B' h3 h4 h5 h6
    obtain ⟨_, _, _, n1⟩ := Rotated.place hM hp
    obtain ⟨_, _, _, n2⟩ := Rotated.place hM hq
    simp only [Factorama.genericBetween, betweenBlock, (rotatedVar_shape (hM p)).1, (rotatedVar_shape (hM q)).1, (rotatedVar_shape (hM m)).1] at h1 h2
    cases Res.ok.inj h1
    cases Res.ok.inj h2
    refine three_blocks (P := FitBlock W role h 3 (spinEntry W)) ?_ ?_ ?_ k z B B' h3 h5 h6 h4
    · intro c0
      rw [c0, n1, spin_place hp]
      exact BlockTurned.diag 3 _ _
    · intro c0
      rw [c0, n2, spin_place hq]
      exact BlockTurned.diag 3 _ _
    · intro c0
      rw [c0, arrow_size hM hm, spin_arrow hm]
      exact BlockTurned.diag 3 _ _

theorem plane_fit (hW : Wᵀ * W = 1) (id p l sigma) (hp : (role p).IsPlace) (hl : role l = .plane) :
    FitFactor W a role (Fac.planeFactor id p l sigma none) (Fac.planeFactor id p l sigma none) := by
  have dot : ∀ n x : V3, (W *ᵥ n) ⬝ᵥ (W *ᵥ x) = n ⬝ᵥ x := by
    intro n x
    rw [dotProduct_mulVec, vecMul_mulVec, hW, vecMul_one]
  refine .of (m := 1) rfl rfl rfl sameEntry (sameEntry_orthogonal 1) ?_ ?_
  · intro h h' hM s s' h1 h2
    obtain ⟨x, e1, e2, _⟩ := Rotated.place hM hp
    obtain ⟨v, _, e3, e4⟩ := Rotated.plane hM hl
    simp only [Fac.planeFactor, e1, e2, e3, e4, vec3_toList, Res.map, PlaneVar.distanceFromPoint, dotProduct_add, dot] at h1 h2
    rw [show v.normal ⬝ᵥ x + W *ᵥ v.normal ⬝ᵥ a + (v.dist - W *ᵥ v.normal ⬝ᵥ a) = v.normal ⬝ᵥ x + v.dist by ring, h1] at h2
    cases h2
    exact same_list s
  · intro h h' hM js js' h1 h2 k z B B' h3 h4 h5 h6
    obtain ⟨x, e1, e2, n1⟩ := Rotated.place hM hp
    obtain ⟨v, hc, e3, e4⟩ := Rotated.plane hM hl
    simp only [Fac.planeFactor, e1, e2, e3, e4, vec3_toList, Res.andThen] at h1 h2
    rw [fillBlocks_ok (by rfl)] at h1 h2
    cases Res.ok.inj h1
    cases Res.ok.inj h2
    refine two_blocks (P := FitBlock W role h 1 sameEntry) ?_ ?_ k z B B' h3 h5 h6 h4
    · refine FitBlock.three hM n1 (spin_place hp _) ?_
      ext i j
      have := congrFun (congrArg (fun M => M *ᵥ v.normal) hW) j
      rw [← mulVec_mulVec, one_mulVec] at this
      simp only [mulVec, dotProduct, transpose_apply] at this
      simp only [Matrix.mul_apply, Matrix.of_apply, mul_assoc, ← Finset.mul_sum, mulVec, dotProduct]
      congr 1
      rw [← this]
      exact Finset.sum_congr rfl fun k _ => mul_comm _ _
    · exact FitBlock.const (by rw [e3]; exact hc)

theorem spun_offset {n : Nat} (hn : n = 3 ∨ n = 6) (w : ℝ) : BlockTurned 3 n (spinEntry W) (spinEntry W)
    ⟨3, n, fun a b => if b = 0 + a then w else 0⟩ ⟨3, n, fun a b => if b = 0 + a then w else 0⟩ := by
  intro i j hi hj
  rcases hn with rfl | rfl <;> interval_cases i <;> interval_cases j <;>
    simp [Finset.sum_range_succ, spinEntry, sameEntry, mul_comm]

theorem velocity_fit (hW : Wᵀ * W = 1) (id p q vel dt sigma)
    (hp : ∀ h h' : Heap RVar, Rotated W a role h h' → ∃ x : V3, Fac.segmentOf (VarLike.value (h p)) 0 3 = .ok (toList x) ∧
      Fac.segmentOf (VarLike.value (h' p)) 0 3 = .ok (toList (W *ᵥ x + a)) ∧ (VarLike.size (h p) = 3 ∨ VarLike.size (h p) = 6))
    (hq : ∀ h h' : Heap RVar, Rotated W a role h h' → ∃ x : V3, Fac.segmentOf (VarLike.value (h q)) 0 3 = .ok (toList x) ∧
      Fac.segmentOf (VarLike.value (h' q)) 0 3 = .ok (toList (W *ᵥ x + a)) ∧ (VarLike.size (h q) = 3 ∨ VarLike.size (h q) = 6))
    (dp : ∀ v, spaceDirections W role p v = spinEntry W) (dq : ∀ v, spaceDirections W role q v = spinEntry W)
    (hm : role vel = .arrow) :
    FitFactor W a role (Fac.linearVelocity id p q vel 3 dt sigma 0) (Fac.linearVelocity id p q vel 3 dt sigma 0) := by
  have map : ∀ (c : ℝ) (z : V3), (toList z).map (c * ·) = toList (c • z) := by
    intro c z
    apply List.ext_getElem (by simp [toList])
    intro i h1 h2
    simp [toList]
  have map' : ∀ (c : ℝ) (z : V3), (toList z).map (· * c) = toList (c • z) := by
    intro c z
    apply List.ext_getElem (by simp [toList])
    intro i h1 h2
    simp [toList, mul_comm]
  have off : ∀ {n : Nat}, n = 3 ∨ n = 6 → ∀ w : ℝ, Fac.offsetDiag 3 n 0 w = .ok ⟨3, n, fun a b => if b = 0 + a then w else 0⟩ := by
    rintro n (rfl | rfl) w <;> simp [Fac.offsetDiag]
  refine .of (m := 3) rfl rfl rfl (spinEntry W) (spin_orthogonal hW) ?_ ?_
  · intro h h' hM s s' h1 h2
    obtain ⟨x, e1, e2, _⟩ := hp h h' hM
    obtain ⟨y, e3, e4, _⟩ := hq h h' hM
    obtain ⟨_, _, z, e5, e6⟩ := Rotated.arrow hM hm
    have e7 : VarLike.value (h vel) = toList z := by rw [e5]; rfl
    have e8 : VarLike.value (h' vel) = toList (W *ᵥ z) := by rw [e6]; rfl
    simp only [Fac.linearVelocity, e1, e2, e3, e4, e7, e8, Res.andThen, vecSub_toList, map', map, Res.map] at h1 h2
    cases Res.ok.inj h1
    cases Res.ok.inj h2
    refine turned_list ?_
    rw [spinEntry_three, mulVec_smul, mulVec_sub, mulVec_sub, mulVec_smul, add_sub_add_right_eq_sub]
  · intro h h' hM js js' h1 h2 k z B B' h3 h4 h5 h6
    obtain ⟨_, _, _, n1⟩ := hp h h' hM
    obtain ⟨_, _, _, n2⟩ := hq h h' hM
    simp only [Fac.linearVelocity, (rotatedVar_shape (hM p)), (rotatedVar_shape (hM q)), (rotatedVar_shape (hM vel)).1,
      off n1, off n2] at h1 h2
    have same := h1.symm.trans h2
    obtain rfl := Res.ok.inj same
    obtain rfl := Option.some.inj (h5.symm.trans h6)
    have e : js = [if VarLike.isConst (h p) then Mat.empty else ⟨3, VarLike.size (h p), fun a b => if b = 0 + a then -(1 / sigma) else 0⟩,
        if VarLike.isConst (h q) then Mat.empty else ⟨3, VarLike.size (h q), fun a b => if b = 0 + a then (1 / sigma) else 0⟩,
        if VarLike.isConst (h vel) then Mat.empty else Mat.diag 3 (-(1 / sigma) * dt)] := by
      cases c1 : VarLike.isConst (h p) <;> cases c2 : VarLike.isConst (h q) <;>
        simp only [c1, c2, if_true, Bool.false_eq_true, if_false, Res.andThen] at h1 <;> rw [fillBlocks_ok (by rfl)] at h1 <;>
        exact (Res.ok.inj h1).symm
    subst e
    refine three_blocks (P := FitBlock W role h 3 (spinEntry W)) ?_ ?_ ?_ k z B B h3 h5 h5 h4
    · intro c0
      rw [dp, c0]
      exact spun_offset n1 _
    · intro c0
      rw [dq, c0]
      exact spun_offset n2 _
    · intro c0
      rw [spin_arrow hm, arrow_size hM hm, c0]
      exact BlockTurned.diag 3 _ _

theorem rotated_segment_pose (hM : Rotated W a role h h') {p : VRef} (hp : role p = .pose) :
    ∃ x : V3, Fac.segmentOf (VarLike.value (h p)) 0 3 = .ok (toList x) ∧
      Fac.segmentOf (VarLike.value (h' p)) 0 3 = .ok (toList (W *ᵥ x + a)) ∧ (VarLike.size (h p) = 3 ∨ VarLike.size (h p) = 6) := by
  obtain ⟨v, v', e1, e2, _, e3, _⟩ := hM.pose hp
  rw [e1, e2]
  exact ⟨v.pos, segment_pose v, by rw [segment_pose, e3], .inr rfl⟩

theorem rotated_segment_place (hM : Rotated W a role h h') {p : VRef} (hp : (role p).IsPlace) :
    ∃ x : V3, Fac.segmentOf (VarLike.value (h p)) 0 3 = .ok (toList x) ∧
      Fac.segmentOf (VarLike.value (h' p)) 0 3 = .ok (toList (W *ᵥ x + a)) ∧ (VarLike.size (h p) = 3 ∨ VarLike.size (h p) = 6) := by
  obtain ⟨x, e1, e2, e3⟩ := hM.place hp
  rw [e1, e2]
  exact ⟨x, by simpa using segment_toList x [], by simpa using segment_toList (W *ᵥ x + a) [], .inl e3⟩

theorem turned_skew (hR : IsRotation W) (x : V3) : skew (W *ᵥ x) * W = W * skew x := by
  obtain ⟨hr, hc, c00, c01, c02, c10, c11, c12, c20, c21, c22⟩ := IsRotation.eqs hR
  ext i j
  fin_cases i <;> fin_cases j <;>
    simp [skew, Matrix.mul_apply, Fin.sum_univ_three, Matrix.mulVec, dotProduct] <;> grind

theorem turned_norm (hR : IsRotation W) (x : V3) : vnorm (W *ᵥ x) = vnorm x := by
  unfold vnorm
  rw [Matrix.dotProduct_mulVec, Matrix.vecMul_mulVec, mul_eq_one_comm.1 hR.1, Matrix.vecMul_one]

/-- The exponential of a turned rotation vector. -/
theorem turned_exp (hR : IsRotation W) (x : V3) : expSO3 (W *ᵥ x) * W = W * expSO3 x := by
  have e : vdiv (W *ᵥ x) (vnorm x) = W *ᵥ vdiv x (vnorm x) := by
    have e : ∀ y : V3, vdiv y (vnorm x) = (vnorm x)⁻¹ • y := by intro y; funext i; simp [vdiv, div_eq_inv_mul]
    rw [e, e, mulVec_smul]
  unfold expSO3
  simp only [turned_norm hR, e]
  split
  · rw [Matrix.add_mul, Matrix.mul_add, turned_skew hR, Matrix.one_mul, Matrix.mul_one]
  · simp only [Matrix.add_mul, Matrix.mul_add, Matrix.smul_mul, Matrix.mul_smul, Matrix.one_mul, Matrix.mul_one]
    rw [Matrix.mul_assoc, turned_skew hR, ← Matrix.mul_assoc, turned_skew hR, Matrix.mul_assoc]

theorem five_blocks {P : VRef → Mat ℝ → Mat ℝ → Prop} {q0 q1 q2 q3 q4 : VRef} {A0 A0' A1 A1' A2 A2' A3 A3' A4 A4' : Mat ℝ}
    (h0 : P q0 A0 A0') (h1 : P q1 A1 A1') (h2 : P q2 A2 A2') (h3 : P q3 A3 A3') (h4 : P q4 A4 A4')
    (p : Nat) (q : VRef) (B B' : Mat ℝ) (g1 : [some q0, some q1, some q2, some q3, some q4][p]? = some (some q))
    (g2 : [A0, A1, A2, A3, A4][p]? = some B) (g3 : [A0', A1', A2', A3', A4'][p]? = some B') : P q B B' := by
  rcases p with _ | _ | _ | _ | _ | p <;> simp at g1 g2 g3 <;> subst g1 g2 g3 <;> assumption

theorem coordinateTransform_read {h : Heap RVar} {id rot org sc la lb sigma}
    (hr : (∃ s, (Fac.coordinateTransform id rot org sc la lb sigma).computeResidual h = .ok s) ∨
      ∃ js, (Fac.coordinateTransform id rot org sc la lb sigma).computeJacobians h [] = .ok js) :
    ∃ sv bv xb, h sc = .generic sv ∧ h lb = .landmark bv ∧ sv.value.length ≠ 0 ∧ Fac.vec3 bv.value = .ok xb := by
  rcases hr with ⟨s, hr⟩ | ⟨s, hr⟩ <;> simp only [Fac.coordinateTransform] at hr <;> split at hr
  · rename_i r o sv av bv k1 k2 k3 k4 k5
    split at hr
    · cases hr
    · rename_i hs
      cases hb : Fac.vec3 bv.value with
      | ok xb => exact ⟨sv, bv, xb, k3, k5, hs, hb⟩
      | _ => simp [hb, Res.andThen] at hr
  · cases hr
  · rename_i r o sv av bv k1 k2 k3 k4 k5
    split at hr
    · cases hr
    · rename_i hs
      cases hb : Fac.vec3 bv.value with
      | ok xb => exact ⟨sv, bv, xb, k3, k5, hs, hb⟩
      | _ => simp [hb, Res.andThen] at hr
  · cases hr

theorem coordinateTransform_write {h : Heap RVar} {id rot org sc la lb sigma} {r : RotationVar} {o s : GenVar ℝ} {x y : LandmarkVar} {xb : V3}
    (k1 : h rot = .rotation r) (k2 : h org = .generic o) (k3 : h sc = .generic s) (k4 : h la = .landmark x) (k5 : h lb = .landmark y)
    (hs : s.value.length ≠ 0) (hb : Fac.vec3 y.value = .ok xb) :
    (Fac.coordinateTransform id rot org sc la lb sigma).computeJacobians h [] = .ok
      [Fac.block (h rot) ((1 / sigma * s.value.getD 0 0) • skew (r.dcm *ᵥ xb)),
       Fac.block (h org) ((1 / sigma) • (1 : M3)),
       Fac.block (h sc) (Matrix.of fun i (_ : Fin 1) => ((-(1 / sigma) • r.dcm) *ᵥ xb) i),
       Fac.block (h la) ((1 / sigma) • (1 : M3)),
       Fac.block (h lb) ((-(1 / sigma) * s.value.getD 0 0) • r.dcm)] := by
  simp only [Fac.coordinateTransform, k1, k2, k3, k4, k5, if_neg hs, hb, Res.andThen]
  rfl

theorem coordinateTransform_fit (hR : IsRotation W) (id rot org sc la lb sigma) (h1 : role rot = .attitude) (h2 : role org = .origin)
    (h3 : role sc = .still) (h4 : role la = .landmark) (h5 : role lb = .still) :
    FitFactor W a role (Fac.coordinateTransform id rot org sc la lb sigma) (Fac.coordinateTransform id rot org sc la lb sigma) := by
  have hW : Wᵀ * W = 1 := mul_eq_one_comm.1 hR.1
  refine .of (m := 3) rfl rfl rfl (spinEntry W) (spin_orthogonal hW) ?_ ?_
  · intro h h' hM s s' r1 r2
    obtain ⟨v, v', e1, e2, _, e3⟩ := Rotated.attitude hM h1
    obtain ⟨_, _, xo, e4, e5⟩ := Rotated.origin hM h2
    obtain ⟨_, _, xa, e6, e7⟩ := Rotated.landmark hM h4
    have e8 := Rotated.still hM h3
    have e9 := Rotated.still hM h5
    obtain ⟨sv, bv, xb, k1, k2, k3, k4⟩ : ∃ sv bv xb, h sc = .generic sv ∧ h lb = .landmark bv ∧ sv.value.length ≠ 0 ∧
        Fac.vec3 bv.value = .ok xb := coordinateTransform_read (.inl ⟨s, r1⟩)
    simp only [Fac.coordinateTransform, e1, e2, e4, e5, e6, e7, e8, e9, k1, k2, k4, if_neg k3, vec3_toList, Res.andThen, Res.map] at r1 r2
    cases Res.ok.inj r1
    cases Res.ok.inj r2
    refine turned_list ?_
    rw [spinEntry_three, mulVec_smul, mulVec_sub, mulVec_sub, e3, ← Matrix.mul_smul, ← mulVec_mulVec]
    congr 1
    abel
  · intro h h' hM js js' r1 r2 k q B B' g3 g4 g5 g6
    obtain ⟨v, v', e1, e2, _, e3⟩ := Rotated.attitude hM h1
    obtain ⟨_, _, xo, e4, e5⟩ := Rotated.origin hM h2
    obtain ⟨_, _, xa, e6, e7⟩ := Rotated.landmark hM h4
    have e8 := Rotated.still hM h3
    have e9 := Rotated.still hM h5
    obtain ⟨sv, bv, xb, k1, k2, k3, k4⟩ : ∃ sv bv xb, h sc = .generic sv ∧ h lb = .landmark bv ∧ sv.value.length ≠ 0 ∧
        Fac.vec3 bv.value = .ok xb := coordinateTransform_read (.inr ⟨js, r1⟩)
    rw [coordinateTransform_write e1 e4 k1 e6 k2 k3 k4] at r1
    rw [coordinateTransform_write e2 e5 (e8.trans k1) e7 (e9.trans k2) k3 k4] at r2
    cases Res.ok.inj r1
    cases Res.ok.inj r2
    refine five_blocks (P := FitBlock W role h 3 (spinEntry W)) ?_ ?_ ?_ ?_ ?_ k q B B' g3 g5 g6 g4
    · refine FitBlock.threeSpun hM (attitude_size hM h1) (spin_attitude h1 _) ?_
      rw [e3, ← mulVec_mulVec, Matrix.smul_mul, turned_skew hR, Matrix.mul_smul]
    · exact FitBlock.threeSpun hM (origin_size hM h2) (spin_origin h2 _) (by simp)
    · refine FitBlock.rows hM (spin_still h3 _) ?_
      ext i j
      rw [e3, ← Matrix.mul_smul, ← mulVec_mulVec]
      rfl
    · exact FitBlock.threeSpun hM (landmark_size hM h4) (spin_place (.inl h4) _) (by simp)
    · refine FitBlock.rows hM (spin_still h5 _) ?_
      rw [e3, Matrix.mul_smul]

/-- A measurement in both frames. -/
theorem rotated_factor (hR : IsRotation W) {f f' : Factor ℝ RVar} (hf : RotatedFactor W a role f f') : FitFactor W a role f f' := by
  have hW : Wᵀ * W = 1 := mul_eq_one_comm.1 hR.1
  cases hf with
  | placePrior id r x w hr =>
    exact prior_fit hW (b := a) (spin_place hr) rfl fun h h' hM => Rotated.place hM hr
  | arrowPrior id r x w hr =>
    refine prior_fit hW (b := 0) (spin_arrow hr) (by rw [add_zero]) fun h h' hM => ?_
    obtain ⟨_, _, z, e1, e2⟩ := Rotated.arrow hM hr
    exact ⟨z, by rw [e1]; rfl, by rw [e2, add_zero]; rfl, arrow_size hM hr⟩
  | stillPrior id r prior w hr =>
    exact still_fit rfl hr (fun h h' e => by simp only [Factorama.genericPrior, e]) fun h h' e => by simp only [Factorama.genericPrior, e]
  | placesBetween id p q m w hp hq hm => exact placesBetween_fit hW id p q m w hp hq hm
  | posePositionPrior id p prior sigma hp => exact posePositionPrior_fit hW id p prior sigma hp
  | poseOrientationPrior id p R sigma hp h1 h2 h3 => exact poseOrientationPrior_fit hR id p R sigma hp h1 h2 h3
  | rotationPrior id r prior sigma hr =>
    exact still_fit rfl hr (fun h h' e => by simp only [Fac.rotationPrior, e]) fun h h' e => by simp only [Fac.rotationPrior, e]
  | posePositionBetween id p q m sigma hp hq hm => exact posePositionBetween_fit hW id p q m sigma hp hq hm
  | posePositionBetweenLocal id p q m sigma hp hq hm => exact posePositionBetweenLocal_fit hW id p q m sigma hp hq hm
  | poseOrientationBetween id p q c sigma hp hq hc => exact poseOrientationBetween_fit hW id p q c sigma hp hq hc
  | bearingObservation id p l bearing sigma hp hl => exact bearingObservation_fit hW id p l bearing sigma hp hl
  | bearingProjection id p l bearing sigma tol hp hl => exact bearingProjection_fit hW id p l bearing sigma tol hp hl
  | inverseRangeBearing id p r bearing sigma hp hr => exact inverseRangeBearing_fit hW id p r bearing sigma hp hr
  | plane id p l sigma hp hl => exact plane_fit hW id p l sigma hp hl
  | posesVelocity id p q vel dt sigma hp hq hm =>
    exact velocity_fit hW id p q vel dt sigma (fun h h' hM => rotated_segment_pose hM hp) (fun h h' hM => rotated_segment_pose hM hq)
      (spin_pose hp) (spin_pose hq) hm
  | placesVelocity id p q vel dt sigma hp hq hm =>
    exact velocity_fit hW id p q vel dt sigma (fun h h' hM => rotated_segment_place hM hp) (fun h h' hM => rotated_segment_place hM hq)
      (spin_place hp) (spin_place hq) hm
  | originPrior id r x w hr =>
    refine prior_fit hW (b := -a) (spin_origin hr) (by rw [sub_eq_add_neg]) fun h h' hM => ?_
    obtain ⟨_, _, z, e1, e2⟩ := Rotated.origin hM hr
    exact ⟨z, by rw [e1]; rfl, by rw [e2, ← sub_eq_add_neg]; rfl, origin_size hM hr⟩
  | coordinateTransform id rot org sc la lb sigma h1 h2 h3 h4 h5 =>
    exact coordinateTransform_fit hR id rot org sc la lb sigma h1 h2 h3 h4 h5

/-! ### Steps -/

theorem toList_read3 (d : List ℝ) (h : d.length = 3) : toList (read3 d 0) = d := by
  obtain ⟨x, y, z, rfl⟩ : ∃ x y z, d = [x, y, z] := by
    match d, h with
    | [x, y, z], _ => exact ⟨x, y, z, rfl⟩
  simp [toList, read3]

theorem add_lists (x y : V3) : List.zipWith (· + ·) (toList x) (toList y) = toList (x + y) := by
  simp [toList]

theorem spun_increment {n k : Nat} {d d' : List ℝ} (hk : k = 0 ∨ k = 3) (hn : k + 3 ≤ n)
    (hd : ∀ i : Fin n, d'.getD i 0 = ∑ a : Fin n, spinEntry W i a * d.getD a 0) (hn' : n = 3 ∨ n = 6) :
    read3 d' k = if k = 0 then W *ᵥ read3 d k else read3 d k := by
  have e : ∀ j : Fin 3, (read3 d' k) j = d'.getD (k + j) 0 := by intro j; fin_cases j <;> rfl
  funext j
  rw [e, show k + (j : Nat) = ((⟨k + j, by omega⟩ : Fin n) : Nat) from rfl, hd]
  rcases hn' with rfl | rfl
  · obtain rfl : k = 0 := by omega
    fin_cases j <;> simp [Fin.sum_univ_three, spinEntry, read3, mulVec, dotProduct]
  · rcases hk with rfl | rfl
    · fin_cases j <;> simp [Fin.sum_univ_six, Fin.sum_univ_three, spinEntry, sameEntry, read3, mulVec, dotProduct]
    · fin_cases j <;> simp [Fin.sum_univ_six, spinEntry, sameEntry, read3]

theorem unturned {n : Nat} {d d' : List ℝ} (l1 : d.length = n) (l2 : d'.length = n)
    (hd : ∀ i : Fin n, d'.getD i 0 = ∑ a : Fin n, sameEntry i a * d.getD a 0) : d' = d := by
  apply List.ext_getElem (by omega)
  intro i h3 h4
  have := hd ⟨i, by omega⟩
  simp only [sameEntry] at this
  rw [same_sum ⟨i, by omega⟩ fun k => d.getD k 0] at this
  simpa [List.getD_eq_getElem?_getD, h3, h4] using this

theorem landmark_step {id : Int} {c : Bool} {x : V3} {d : List ℝ} {w : RVar} (l1 : d.length = 3)
    (h : VarLike.applyIncr (RVar.landmark ⟨id, c, toList x⟩) d = .ok w) : w = .landmark ⟨id, c, toList (x + read3 d 0)⟩ := by
  have h1 : (toList x).length = 3 := by simp [toList]
  simp only [VarLike.applyIncr, LandmarkVar.applyIncr, l1, h1, ne_eq, not_true, if_false, Res.map] at h
  cases Res.ok.inj h
  rw [← add_lists, toList_read3 d l1]

theorem generic_step {id : Int} {c : Bool} {x : V3} {d : List ℝ} {w : RVar} (l1 : d.length = 3)
    (h : VarLike.applyIncr (RVar.generic ⟨id, c, toList x⟩) d = .ok w) : w = .generic ⟨id, c, toList (x + read3 d 0)⟩ := by
  have h1 : (toList x).length = 3 := by simp [toList]
  simp only [VarLike.applyIncr, GenVar.applyIncr, l1, h1, ne_eq, not_true, if_false, Res.map] at h
  cases Res.ok.inj h
  rw [← add_lists, toList_read3 d l1]

theorem rotated_orthogonal (hW : Wᵀ * W = 1) {r : VRef} {v v' : RVar} (hM : RotatedVar W a (role r) v v') :
    (Matrix.of fun i j : Fin (VarLike.size v) => spaceDirections W role r v i j)ᵀ *
      (Matrix.of fun i j : Fin (VarLike.size v) => spaceDirections W role r v i j) = 1 := by
  have o3 := spin_orthogonal hW
  have o6 := spinSix_orthogonal hW
  have l3 : ∀ x : V3, (toList x).length = 3 := by simp [toList]
  unfold spaceDirections
  generalize role r = b at hM
  cases hM
  · exact o6
  · exact o3
  · exact sameEntry_orthogonal _
  · exact sameEntry_orthogonal _
  · simp only [VarLike.size, l3]
    exact o3
  · simp only [VarLike.size, l3]
    exact o3
  · exact o3
  · simp only [VarLike.size, l3]
    exact o3
  · exact sameEntry_orthogonal _
  · exact sameEntry_orthogonal _
  · exact sameEntry_orthogonal _

theorem rotated_step (hR : IsRotation W) {r : VRef} {v v' : RVar} {d d' : List ℝ} {w w' : RVar} (hM : RotatedVar W a (role r) v v')
    (hc : VarLike.isConst v = false) (l1 : d.length = VarLike.size v) (l2 : d'.length = VarLike.size v)
    (hd : ∀ i : Fin (VarLike.size v), d'.getD i 0 = ∑ a : Fin (VarLike.size v), spaceDirections W role r v i a * d.getD a 0)
    (h1 : VarLike.applyIncr v d = .ok w) (h2 : VarLike.applyIncr v' d' = .ok w') (g1 : TurnsExactly v d w)
    (g2 : TurnsExactly v' d' w') : RotatedVar W a (role r) w w' := by
  have l3 : ∀ x : V3, (toList x).length = 3 := by simp [toList]
  unfold spaceDirections at hd
  generalize role r = b at hM hd ⊢
  cases hM with
  | pose v v' a1 a2 a3 a4 =>
    have l1 : d.length = 6 := l1
    have l2 : d'.length = 6 := l2
    have p1 := spun_increment (k := 0) (n := 6) (.inl rfl) (by omega) hd (.inr rfl)
    have p2 := spun_increment (k := 3) (n := 6) (.inr rfl) (by omega) hd (.inr rfl)
    rw [if_pos rfl] at p1
    rw [if_neg (by omega)] at p2
    simp only [VarLike.applyIncr, PoseVar.applyIncr, l1, l2, ne_eq, not_true, if_false, Res.map] at h1 h2
    obtain rfl := Res.ok.inj h1
    obtain rfl := Res.ok.inj h2
    simp only [TurnsExactly] at g1 g2
    refine .pose _ _ a1 a2 ?_ ?_
    · show v'.pos + read3 d' 0 = W *ᵥ (v.pos + read3 d 0) + a
      rw [p1, a3, mulVec_add]; abel
    · rw [g1, g2, p2, a4, Matrix.mul_assoc]
  | landmark id c x =>
    have l1 : d.length = 3 := l1
    have l2 : d'.length = 3 := l2
    have p1 := spun_increment (k := 0) (n := 3) (.inl rfl) (by omega) hd (.inl rfl)
    rw [if_pos rfl] at p1
    rw [landmark_step l1 h1, landmark_step l2 h2, p1, add_right_comm, ← mulVec_add]
    exact .landmark id c _
  | plane v hc' => exact absurd (hc'.symm.trans hc) (by decide)
  | ray v =>
    obtain rfl := unturned l1 l2 hd
    simp only [VarLike.applyIncr, InvRangeVar.applyIncr] at h1 h2
    split at h1
    · cases h1
    rename_i c1
    rw [if_neg c1] at h2
    split at h1
    · cases h1
    rename_i c2
    rw [if_neg c2] at h2
    cases Res.ok.inj h1
    cases Res.ok.inj h2
    exact .ray { v with inv := InvRangeVar.clip v.lo v.hi (v.inv + d'.getD 0 0) }
  | point id c x =>
    have l1 : d.length = 3 := l1.trans (l3 x)
    have l2 : d'.length = 3 := l2.trans (l3 x)
    simp only [VarLike.size, l3] at hd
    have p1 := spun_increment (k := 0) (n := 3) (.inl rfl) (by omega) hd (.inl rfl)
    rw [if_pos rfl] at p1
    rw [generic_step l1 h1, generic_step l2 h2, p1, add_right_comm, ← mulVec_add]
    exact .point id c _
  | arrow id c x =>
    have l1 : d.length = 3 := l1.trans (l3 x)
    have l2 : d'.length = 3 := l2.trans (l3 x)
    simp only [VarLike.size, l3] at hd
    have p1 := spun_increment (k := 0) (n := 3) (.inl rfl) (by omega) hd (.inl rfl)
    rw [if_pos rfl] at p1
    rw [generic_step l1 h1, generic_step l2 h2, p1, ← mulVec_add]
    exact .arrow id c _
  | attitude v v' a1 a2 a3 =>
    have l1 : d.length = 3 := l1
    have l2 : d'.length = 3 := l2
    have p1 := spun_increment (k := 0) (n := 3) (.inl rfl) (by omega) hd (.inl rfl)
    rw [if_pos rfl] at p1
    simp only [VarLike.applyIncr, RotationVar.applyIncr, l1, l2, ne_eq, not_true, if_false, Res.map] at h1 h2
    obtain rfl := Res.ok.inj h1
    obtain rfl := Res.ok.inj h2
    refine .attitude _ _ a1 a2 ?_
    show expSO3 (read3 d' 0) * v'.dcm = W * (expSO3 (read3 d 0) * v.dcm)
    rw [p1, a3, ← Matrix.mul_assoc, turned_exp hR, Matrix.mul_assoc]
  | origin id c x =>
    have l1 : d.length = 3 := l1.trans (l3 x)
    have l2 : d'.length = 3 := l2.trans (l3 x)
    simp only [VarLike.size, l3] at hd
    have p1 := spun_increment (k := 0) (n := 3) (.inl rfl) (by omega) hd (.inl rfl)
    rw [if_pos rfl] at p1
    rw [generic_step l1 h1, generic_step l2 h2, p1, sub_add_eq_add_sub, ← mulVec_add]
    exact .origin id c _
  | elsewhere v =>
    obtain rfl := unturned l1 l2 hd
    rw [h1] at h2
    obtain rfl := Res.ok.inj h2
    simp only [VarLike.applyIncr] at h1
    cases hw : v.applyIncr d' with
    | ok u =>
      rw [hw] at h1
      cases Res.ok.inj h1
      exact .elsewhere _
    | _ => simp [hw, Res.map] at h1
  | generic v =>
    obtain rfl := unturned l1 l2 hd
    rw [h1] at h2
    obtain rfl := Res.ok.inj h2
    simp only [VarLike.applyIncr, GenVar.applyIncr] at h1
    split at h1
    · simp [Res.map] at h1
    · cases Res.ok.inj h1
      exact .generic _
  | rotation v =>
    obtain rfl := unturned l1 l2 hd
    rw [h1] at h2
    obtain rfl := Res.ok.inj h2
    simp only [VarLike.applyIncr, RotationVar.applyIncr] at h1
    split at h1
    · simp [Res.map] at h1
    · cases Res.ok.inj h1
      exact .rotation _

/-- Turning the world frame gives a corresponding problem, while rotations are updated exactly. -/
theorem rotated_correspond (hR : IsRotation W) {facs facs' : List (Factor ℝ RVar)}
    (hf : List.Forall₂ (RotatedFactor W a role) facs facs') {vars : List VRef} (hnd : vars.Nodup) :
    CorrespondWhile TurnsExactly 1 (fun h h' => ∀ r, RotatedVar W a (role r) (h r) (h' r)) vars facs vars facs' :=
  turned_correspond_while (τ := spaceDirections W role) (M := fun r => RotatedVar W a (role r))
    (hf.imp fun _ _ h => rotated_factor hR h) hnd (fun _ _ _ h => rotatedVar_shape h)
    (fun _ _ _ hM _ => rotated_orthogonal (mul_eq_one_comm.1 hR.1) hM)
    fun _ _ _ _ _ _ _ hM hc l1 l2 hd h1 h2 g1 g2 => rotated_step hR hM hc l1 l2 hd h1 h2 g1 g2

/-- If all poses are known, turning the world frame gives a corresponding problem. -/
theorem rotated_known_correspond (hR : IsRotation W) {facs facs' : List (Factor ℝ RVar)}
    (hf : List.Forall₂ (RotatedFactor W a role) facs facs') {vars : List VRef} (hnd : vars.Nodup) :
    Correspond 1 (fun h h' => ∀ r, RotatedVar W a (role r) (h r) (h' r) ∧ (role r = .pose → VarLike.isConst (h r) = true))
      vars facs vars facs' := by
  have free : ∀ {r : VRef} {v v' : RVar}, RotatedVar W a (role r) v v' → role r ≠ .pose →
      (∀ d w, TurnsExactly v d w) ∧ ∀ d w, TurnsExactly v' d w := by
    intro r v v' hM hr
    generalize role r = b at hM hr
    cases hM with
    | pose => exact absurd rfl hr
    | _ => exact ⟨fun _ _ => trivial, fun _ _ => trivial⟩
  refine turned_correspond (τ := spaceDirections W role)
    (M := fun r v v' => RotatedVar W a (role r) v v' ∧ (role r = .pose → VarLike.isConst v = true))
    (hf.imp fun _ _ h => ?_) hnd (fun _ _ _ h => rotatedVar_shape h.1)
    (fun _ _ _ hM _ => rotated_orthogonal (mul_eq_one_comm.1 hR.1) hM.1) ?_
  · obtain ⟨h1, h2, Q, h3, h4⟩ := rotated_factor hR h
    exact ⟨h1, h2, Q, h3, fun h h' hM => h4 h h' fun r => (hM r).1⟩
  · intro r v v' d d' w w' hM hc l1 l2 hd h1 h2
    have hr : role r ≠ .pose := fun e => by rw [hM.2 e] at hc; cases hc
    exact ⟨rotated_step hR hM.1 hc l1 l2 hd h1 h2 ((free hM.1 hr).1 _ _) ((free hM.1 hr).2 _ _), fun e => absurd e hr⟩

end
end Factorama
