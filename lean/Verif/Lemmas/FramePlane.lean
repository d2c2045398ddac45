import Verif.Lemmas.FrameSpace
import Verif.Lemmas.Wrap
import Mathlib.Tactic.LinearCombination
import Mathlib.Tactic.IntervalCases

/-!
# Moving a planar world
-/

namespace Factorama
open Spec Matrix Geo

/-- The rotation of the plane on the first two of several numbers. -/
noncomputable def turnEntry (phi : ℝ) : Nat → Nat → ℝ
  | 0, 0 => Real.cos phi
  | 0, 1 => -Real.sin phi
  | 1, 0 => Real.sin phi
  | 1, 1 => Real.cos phi
  | i, j => if i = j then 1 else 0

noncomputable def sameEntry (i j : Nat) : ℝ := if i = j then 1 else 0

/-- How the directions of increments turn. -/
noncomputable def planeDirections (phi : ℝ) (role : VRef → PlaneRole) (r : VRef) (_ : RVar) : Nat → Nat → ℝ :=
  match role r with
  | .still => sameEntry
  | _ => turnEntry phi

theorem turnEntry_orthogonal (phi : ℝ) {n : Nat} (hn : n = 2 ∨ n = 3) :
    (Matrix.of fun i j : Fin n => turnEntry phi i j)ᵀ * (Matrix.of fun i j : Fin n => turnEntry phi i j) = 1 := by
  have h := Real.sin_sq_add_cos_sq phi
  rcases hn with rfl | rfl
  · ext i j
    fin_cases i <;> fin_cases j <;> simp [Matrix.mul_apply, Fin.sum_univ_two, turnEntry] <;> first | linear_combination h | ring1
  · ext i j
    fin_cases i <;> fin_cases j <;> simp [Matrix.mul_apply, Fin.sum_univ_three, turnEntry] <;> first | linear_combination h | ring1

theorem sameEntry_eq (n : Nat) : (Matrix.of fun i j : Fin n => sameEntry i j) = 1 := by
  ext i j
  simp [sameEntry, Matrix.one_apply, Fin.ext_iff]

theorem sameEntry_orthogonal (n : Nat) :
    (Matrix.of fun i j : Fin n => sameEntry i j)ᵀ * (Matrix.of fun i j : Fin n => sameEntry i j) = 1 := by
  rw [sameEntry_eq]; simp

/-- A block of the Jacobian in the two frames. -/
def BlockTurned (m n : Nat) (κ τ : Nat → Nat → ℝ) (B B' : Mat ℝ) : Prop :=
  ∀ i j, i < m → j < n → ∑ a ∈ Finset.range n, B'.entry i a * τ a j = ∑ b ∈ Finset.range m, κ i b * B.entry b j

theorem BlockTurned.diag (n : Nat) (τ : Nat → Nat → ℝ) (w : ℝ) : BlockTurned n n τ τ (Mat.diag n w) (Mat.diag n w) := by
  intro i j hi hj
  simp only [Mat.diag, ite_mul, zero_mul, mul_ite, mul_zero]
  rw [Finset.sum_ite_eq (Finset.range n) i, Finset.sum_ite_eq' (Finset.range n) j]
  simp [hi, hj, mul_comm]

/-- The requirements on a pair of factors, with numbered rows. -/
theorem TurnedFactor.of {τ : VRef → RVar → Nat → Nat → ℝ} {M : VRef → RVar → RVar → Prop} {f f' : Factor ℝ RVar} {m : Nat}
    (hm : f.residualSize = m) (hv : f'.variables = f.variables) (hs : f'.residualSize = f.residualSize) (κ : Nat → Nat → ℝ)
    (horth : (Matrix.of fun i j : Fin m => κ i j)ᵀ * (Matrix.of fun i j : Fin m => κ i j) = 1)
    (hres : ∀ h h', (∀ r, M r (h r) (h' r)) → ∀ s s', f.computeResidual h = .ok s → f'.computeResidual h' = .ok s' →
      ∀ i, i < m → s'.getD i 0 = ∑ b ∈ Finset.range m, κ i b * s.getD b 0)
    (hjac : ∀ h h', (∀ r, M r (h r) (h' r)) → ∀ js js', f.computeJacobians h [] = .ok js → f'.computeJacobians h' [] = .ok js' →
      ∀ (p : Nat) q (B B' : Mat ℝ), f.variables[p]? = some (some q) → VarLike.isConst (h q) = false → js[p]? = some B →
      js'[p]? = some B' → BlockTurned m (VarLike.size (h q)) κ (τ q (h q)) B B') : TurnedFactor τ M f f' := by
  subst hm
  refine ⟨hv, hs, Matrix.of fun i j => κ i j, horth, fun h h' hM => ⟨fun s s' h1 h2 i => ?_, ?_⟩⟩
  · rw [hres h h' hM s s' h1 h2 i i.2, Finset.sum_range]
    rfl
  · intro s s' js js' _ _ h1 h2 p q B B' h3 h4 h5 h6 i j
    have := hjac h h' hM js js' h1 h2 p q B B' h3 h4 h5 h6 i j i.2 j.2
    rwa [Finset.sum_range, Finset.sum_range] at this

theorem movedVar_shape {phi : ℝ} {a : V2} {role : PlaneRole} {v v' : RVar} (h : MovedVar phi a role v v') :
    VarLike.isConst v' = VarLike.isConst v ∧ VarLike.size v' = VarLike.size v := by
  cases h <;> exact ⟨rfl, rfl⟩

/-- The cosine and the sine of the heading after the turn, turned back. -/
theorem turned_heading (phi theta : ℝ) :
    Real.cos (wrapAngle (theta + phi)) * Real.cos phi + Real.sin (wrapAngle (theta + phi)) * Real.sin phi = Real.cos theta ∧
    Real.sin (wrapAngle (theta + phi)) * Real.cos phi - Real.cos (wrapAngle (theta + phi)) * Real.sin phi = Real.sin theta := by
  obtain ⟨h1, h2⟩ := wrap_trig (theta + phi)
  have h3 := Real.sin_sq_add_cos_sq phi
  rw [h1, h2, Real.cos_add, Real.sin_add]
  constructor
  · linear_combination Real.cos theta * h3
  · linear_combination Real.sin theta * h3

theorem turned_local {phi : ℝ} {a : V2} (v : Pose2DVar) (x : V2) :
    Fac.deltaLocal { v with pos := turn phi *ᵥ v.pos + a, theta := wrapAngle (v.theta + phi) } (turn phi *ᵥ x + a) =
      Fac.deltaLocal v x := by
  obtain ⟨h1, h2⟩ := turned_heading phi v.theta
  simp only [Fac.deltaLocal, Pose2DVar.dcm, turn, add_sub_add_right_eq_sub]
  funext i
  fin_cases i
  · simp [mulVec, dotProduct, Fin.sum_univ_two]
    linear_combination (x 0 - v.pos 0) * h1 + (x 1 - v.pos 1) * h2
  · simp [mulVec, dotProduct, Fin.sum_univ_two]
    linear_combination -(x 0 - v.pos 0) * h2 + (x 1 - v.pos 1) * h1

section factors
variable {phi : ℝ} {a : V2} {role : VRef → PlaneRole}

theorem directions_turned {r : VRef} (v : RVar) (h : role r ≠ .still) : planeDirections phi role r v = turnEntry phi := by
  unfold planeDirections
  cases e : role r <;> simp_all

theorem directions_still {r : VRef} (v : RVar) (h : role r = .still) : planeDirections phi role r v = sameEntry := by
  unfold planeDirections
  rw [h]

theorem moved_still {h h' : Heap RVar} (hM : ∀ r, MovedVar phi a (role r) (h r) (h' r)) {r : VRef} (hr : role r = .still) :
    h' r = h r := by
  have := hM r
  rw [hr] at this
  generalize h r = v, h' r = v' at this
  cases this; rfl

theorem moved_pose {h h' : Heap RVar} (hM : ∀ r, MovedVar phi a (role r) (h r) (h' r)) {r : VRef} (hr : role r = .pose) :
    ∃ v, h r = .pose2d v ∧ h' r = .pose2d { v with pos := turn phi *ᵥ v.pos + a, theta := wrapAngle (v.theta + phi) } := by
  have := hM r
  rw [hr] at this
  generalize h r = v, h' r = v' at this
  cases this; exact ⟨_, rfl, rfl⟩

theorem moved_point {h h' : Heap RVar} (hM : ∀ r, MovedVar phi a (role r) (h r) (h' r)) {r : VRef} (hr : role r = .point) :
    ∃ id c, ∃ x : V2, h r = .generic ⟨id, c, [x 0, x 1]⟩ ∧
      h' r = .generic ⟨id, c, [(turn phi *ᵥ x + a) 0, (turn phi *ᵥ x + a) 1]⟩ := by
  have := hM r
  rw [hr] at this
  generalize h r = v, h' r = v' at this
  cases this; exact ⟨_, _, _, rfl, rfl⟩

theorem moved_arrow {h h' : Heap RVar} (hM : ∀ r, MovedVar phi a (role r) (h r) (h' r)) {r : VRef} (hr : role r = .arrow) :
    ∃ id c, ∃ x : V2, h r = .generic ⟨id, c, [x 0, x 1]⟩ ∧ h' r = .generic ⟨id, c, [(turn phi *ᵥ x) 0, (turn phi *ᵥ x) 1]⟩ := by
  have := hM r
  rw [hr] at this
  generalize h r = v, h' r = v' at this
  cases this; exact ⟨_, _, _, rfl, rfl⟩

theorem moved_displacement {h h' : Heap RVar} (hM : ∀ r, MovedVar phi a (role r) (h r) (h' r)) {r : VRef}
    (hr : role r = .displacement) : ∃ id c, ∃ (x : V2) (t : ℝ), h r = .generic ⟨id, c, [x 0, x 1, t]⟩ ∧
      h' r = .generic ⟨id, c, [(turn phi *ᵥ x) 0, (turn phi *ᵥ x) 1, t]⟩ := by
  have := hM r
  rw [hr] at this
  generalize h r = v, h' r = v' at this
  cases this; exact ⟨_, _, _, _, rfl, rfl⟩

theorem turn_zero (phi : ℝ) (x : V2) : (turn phi *ᵥ x) 0 = Real.cos phi * x 0 - Real.sin phi * x 1 := by
  simp [turn, mulVec, dotProduct, Fin.sum_univ_two]; ring

theorem turn_one (phi : ℝ) (x : V2) : (turn phi *ᵥ x) 1 = Real.sin phi * x 0 + Real.cos phi * x 1 := by
  simp [turn, mulVec, dotProduct, Fin.sum_univ_two]

theorem one_block {P : VRef → Mat ℝ → Mat ℝ → Prop} {q0 : VRef} {A0 A0' : Mat ℝ} (h0 : P q0 A0 A0') (p : Nat) (q : VRef)
    (B B' : Mat ℝ) (h1 : [some q0][p]? = some (some q)) (h2 : [A0][p]? = some B) (h3 : [A0'][p]? = some B') : P q B B' := by
  rcases p with _ | p <;> simp at h1 h2 h3
  subst h1 h2 h3; exact h0

theorem two_blocks {P : VRef → Mat ℝ → Mat ℝ → Prop} {q0 q1 : VRef} {A0 A0' A1 A1' : Mat ℝ} (h0 : P q0 A0 A0') (h1 : P q1 A1 A1')
    (p : Nat) (q : VRef) (B B' : Mat ℝ) (h2 : [some q0, some q1][p]? = some (some q)) (h3 : [A0, A1][p]? = some B)
    (h4 : [A0', A1'][p]? = some B') : P q B B' := by
  rcases p with _ | _ | p <;> simp at h2 h3 h4 <;> subst h2 h3 h4 <;> assumption

theorem three_blocks {P : VRef → Mat ℝ → Mat ℝ → Prop} {q0 q1 q2 : VRef} {A0 A0' A1 A1' A2 A2' : Mat ℝ} (h0 : P q0 A0 A0')
    (h1 : P q1 A1 A1') (h2 : P q2 A2 A2')
    (p : Nat) (q : VRef) (B B' : Mat ℝ) (h3 : [some q0, some q1, some q2][p]? = some (some q)) (h4 : [A0, A1, A2][p]? = some B)
    (h5 : [A0', A1', A2'][p]? = some B') : P q B B' := by
  rcases p with _ | _ | _ | p <;> simp at h3 h4 h5 <;> subst h3 h4 h5 <;> assumption

theorem turnEntry_zero : turnEntry 0 = sameEntry := by
  funext i j
  unfold turnEntry
  split <;> simp [sameEntry]

theorem sum_sameEntry {n : Nat} (x : Nat → ℝ) (i : Nat) (hi : i < n) : ∑ b ∈ Finset.range n, sameEntry i b * x b = x i := by
  simp [sameEntry, hi]

/-- A block that is the same in both frames, of a variable whose directions stay. -/
theorem BlockTurned.same (m n : Nat) (B : Mat ℝ) : BlockTurned m n sameEntry sameEntry B B := by
  intro i j hi hj
  rw [sum_sameEntry (fun b => B.entry b j) i hi]
  simp [sameEntry, hj]

/-- The blocks of a variable in the two frames, if it is free. -/
def GoodBlock (phi : ℝ) (role : VRef → PlaneRole) (h : Heap RVar) (m : Nat) (κ : Nat → Nat → ℝ) (q : VRef) (B B' : Mat ℝ) : Prop :=
  VarLike.isConst (h q) = false → BlockTurned m (VarLike.size (h q)) κ (planeDirections phi role q (h q)) B B'

theorem genericPrior_turned {id : Int} {r : VRef} {x y : List ℝ} {w : ℝ} {n : Nat} {κ : Nat → Nat → ℝ} (hx : x.length = n)
    (hy : y.length = n) (horth : (Matrix.of fun i j : Fin n => κ i j)ᵀ * (Matrix.of fun i j : Fin n => κ i j) = 1)
    (hdir : ∀ v, planeDirections phi role r v = κ)
    (hres : ∀ h h' : Heap RVar, (∀ r, MovedVar phi a (role r) (h r) (h' r)) → ∀ s s', vecSub (VarLike.value (h r)) x = .ok s →
      vecSub (VarLike.value (h' r)) y = .ok s' → ∀ i, i < n → s'.getD i 0 = ∑ b ∈ Finset.range n, κ i b * s.getD b 0)
    (hsz : ∀ h h' : Heap RVar, (∀ r, MovedVar phi a (role r) (h r) (h' r)) → VarLike.size (h r) = n) :
    TurnedFactor (planeDirections phi role) (fun r => MovedVar phi a (role r)) (genericPrior id r x w) (genericPrior id r y w) := by
  refine .of (m := n) hx rfl (by simp [genericPrior, hx, hy]) κ horth ?_ ?_
  · intro h h' hM s s' h1 h2 i hi
    obtain ⟨d, e1, rfl⟩ : ∃ d, vecSub (VarLike.value (h r)) x = .ok d ∧ d.map (w * ·) = s := by
      simp only [genericPrior] at h1
      split at h1 <;> simp_all
    obtain ⟨d', e2, rfl⟩ : ∃ d, vecSub (VarLike.value (h' r)) y = .ok d ∧ d.map (w * ·) = s' := by
      simp only [genericPrior] at h2
      split at h2 <;> simp_all
    have := hres h h' hM d d' e1 e2 i hi
    have get : ∀ (l : List ℝ) b, (l.map (w * ·)).getD b 0 = w * l.getD b 0 := by
      intro l b
      by_cases hb : b < l.length <;> simp [List.getD_eq_getElem?_getD, hb]
    rw [get, this, Finset.mul_sum]
    exact Finset.sum_congr rfl fun b _ => by rw [get]; ring
  · intro h h' hM js js' h1 h2 p q B B' h3 h4 h5 h6
    have hc := (movedVar_shape (hM r)).1
    obtain ⟨rfl, rfl⟩ : p = 0 ∧ r = q := by
      rcases p with _ | p <;> simp_all [genericPrior]
    simp only [genericPrior, hc, h4] at h1 h2
    cases h1
    cases h2
    cases h5
    cases h6
    rw [hdir, hsz h h' hM, hx, hy]
    exact BlockTurned.diag n κ w

theorem point_eq (phi : ℝ) (a y : V2) :
    (![(turn phi *ᵥ y + a) 0, (turn phi *ᵥ y + a) 1] : V2) = turn phi *ᵥ ![y 0, y 1] + a := by
  funext i; fin_cases i <;> simp [turn_zero, turn_one]

theorem moved_size {h h' : Heap RVar} (hM : ∀ r, MovedVar phi a (role r) (h r) (h' r)) {r : VRef} :
    (role r = .pose → VarLike.size (h r) = 3) ∧ (role r = .point → VarLike.size (h r) = 2) ∧
    (role r = .arrow → VarLike.size (h r) = 2) ∧ (role r = .displacement → VarLike.size (h r) = 3) := by
  refine ⟨fun hr => ?_, fun hr => ?_, fun hr => ?_, fun hr => ?_⟩
  · obtain ⟨v, e, _⟩ := moved_pose hM hr
    rw [e]; rfl
  · obtain ⟨_, _, _, e, _⟩ := moved_point hM hr
    rw [e]; rfl
  · obtain ⟨_, _, _, e, _⟩ := moved_arrow hM hr
    rw [e]; rfl
  · obtain ⟨_, _, _, _, e, _⟩ := moved_displacement hM hr
    rw [e]; rfl

theorem bearing_turned (id p l obs sigma) (hp : role p = .pose) (hl : role l = .point) :
    TurnedFactor (planeDirections phi role) (fun r => MovedVar phi a (role r)) (Fac.bearing2D id p l obs sigma)
      (Fac.bearing2D id p l obs sigma) := by
  refine .of (m := 1) rfl rfl rfl sameEntry (sameEntry_orthogonal 1) ?_ ?_
  · intro h h' hM s s' h1 h2 i hi
    obtain ⟨v, e1, e2⟩ := moved_pose hM hp
    obtain ⟨id', c, y, e3, e4⟩ := moved_point hM hl
    simp only [Fac.bearing2D, e1, e2, e3, e4, VarLike.value, Fac.head2] at h1 h2
    simp only [List.length_cons, List.length_nil, zero_add, Nat.reduceAdd, le_refl, if_true, List.getD_cons_zero,
      List.getD_cons_succ, Res.map, point_eq, turned_local] at h1 h2
    rw [h1] at h2
    cases h2
    rw [sum_sameEntry (fun b => s.getD b 0) i hi]
  · intro h h' hM js js' h1 h2 k q B B' h3 h4 h5 h6
    obtain ⟨v, e1, e2⟩ := moved_pose hM hp
    obtain ⟨id', c, y, e3, e4⟩ := moved_point hM hl
    simp only [Fac.bearing2D, e1, e2, e3, e4, VarLike.value, Fac.head2] at h1 h2
    simp only [List.length_cons, List.length_nil, zero_add, Nat.reduceAdd, le_refl, if_true, List.getD_cons_zero,
      List.getD_cons_succ, Res.andThen, point_eq, turned_local] at h1 h2
    split at h1
    · cases h1
    · rename_i hn
      rw [if_neg hn] at h2
      rw [fillBlocks_ok (by rfl)] at h1 h2
      cases Res.ok.inj h1
      cases Res.ok.inj h2
      clear hn h1 h2
      obtain ⟨t1, t2⟩ := turned_heading phi v.theta
      have key := two_blocks (P := GoodBlock phi role h 1 sameEntry) ?_ ?_ k q B B' h3 h5 h6
      · exact key h4
      · intro c0
        rw [directions_turned _ (by rw [hp]; simp), (moved_size hM).1 hp]
        rw [e1] at c0
        have c0 : v.isConst = false := c0
        simp only [Fac.block, VarLike.isConst, c0]
        generalize Fac.deltaLocal v ![y 0, y 1] = d at *
        intro i j hi hj
        interval_cases i; interval_cases j <;> simp [Finset.sum_range_succ, turnEntry, sameEntry, Mat.ofMatrix] <;>
          rw [← t1, ← t2] <;> ring
      · intro c0
        rw [directions_turned _ (by rw [hl]; simp), (moved_size hM).2.1 hl]
        rw [e3] at c0
        have c0 : c = false := c0
        simp only [Fac.block, VarLike.isConst, c0]
        generalize Fac.deltaLocal v ![y 0, y 1] = d at *
        intro i j hi hj
        interval_cases i; interval_cases j <;> simp [Finset.sum_range_succ, turnEntry, sameEntry, Mat.ofMatrix] <;>
          rw [← t1, ← t2] <;> ring

theorem rangeBearing_turned (id p l range obs rs bs) (hp : role p = .pose) (hl : role l = .point) :
    TurnedFactor (planeDirections phi role) (fun r => MovedVar phi a (role r)) (Fac.rangeBearing2D id p l range obs rs bs)
      (Fac.rangeBearing2D id p l range obs rs bs) := by
  refine .of (m := 2) rfl rfl rfl sameEntry (sameEntry_orthogonal 2) ?_ ?_
  · intro h h' hM s s' h1 h2 i hi
    obtain ⟨v, e1, e2⟩ := moved_pose hM hp
    obtain ⟨id', c, y, e3, e4⟩ := moved_point hM hl
    simp only [Fac.rangeBearing2D, e1, e2, e3, e4, VarLike.value, Fac.head2] at h1 h2
    simp only [List.length_cons, List.length_nil, zero_add, Nat.reduceAdd, le_refl, if_true, List.getD_cons_zero,
      List.getD_cons_succ, Res.map, point_eq, turned_local] at h1 h2
    rw [h1] at h2
    cases h2
    rw [sum_sameEntry (fun b => s.getD b 0) i hi]
  · intro h h' hM js js' h1 h2 k q B B' h3 h4 h5 h6
    obtain ⟨v, e1, e2⟩ := moved_pose hM hp
    obtain ⟨id', c, y, e3, e4⟩ := moved_point hM hl
    simp only [Fac.rangeBearing2D, e1, e2, e3, e4, VarLike.value, Fac.head2] at h1 h2
    simp only [List.length_cons, List.length_nil, zero_add, Nat.reduceAdd, le_refl, if_true, List.getD_cons_zero,
      List.getD_cons_succ, Res.andThen, point_eq, turned_local] at h1 h2
    split at h1
    · cases h1
    · rename_i hn
      rw [if_neg hn] at h2
      rw [fillBlocks_ok (by rfl)] at h1 h2
      cases Res.ok.inj h1
      cases Res.ok.inj h2
      clear hn h1 h2
      obtain ⟨t1, t2⟩ := turned_heading phi v.theta
      have key := two_blocks (P := GoodBlock phi role h 2 sameEntry) ?_ ?_ k q B B' h3 h5 h6
      · exact key h4
      · intro c0
        rw [directions_turned _ (by rw [hp]; simp), (moved_size hM).1 hp]
        rw [e1] at c0
        have c0 : v.isConst = false := c0
        simp only [Fac.block, VarLike.isConst, c0]
        generalize Fac.deltaLocal v ![y 0, y 1] = d at *
        generalize √(d 0 * d 0 + d 1 * d 1) = rr at *
        intro i j hi hj
        interval_cases i <;> interval_cases j <;> simp [Finset.sum_range_succ, turnEntry, sameEntry, Mat.ofMatrix] <;>
          rw [← t1, ← t2] <;> ring
      · intro c0
        rw [directions_turned _ (by rw [hl]; simp), (moved_size hM).2.1 hl]
        rw [e3] at c0
        have c0 : c = false := c0
        simp only [Fac.block, VarLike.isConst, c0]
        generalize Fac.deltaLocal v ![y 0, y 1] = d at *
        generalize √(d 0 * d 0 + d 1 * d 1) = rr at *
        intro i j hi hj
        interval_cases i <;> interval_cases j <;> simp [Finset.sum_range_succ, turnEntry, sameEntry, Mat.ofMatrix] <;>
          rw [← t1, ← t2] <;> ring

theorem wrap_turned_sub (phi x t : ℝ) : wrapAngle (wrapAngle (x + phi) - (t + phi)) = wrapAngle (x - t) := by
  obtain ⟨n, hn⟩ := wrap_mod (x + phi)
  rw [hn, ← wrap_add_int (x - t) n]
  congr 1; ring

theorem wrap_turned_diff (phi x y t : ℝ) :
    wrapAngle (wrapAngle (x + phi) - wrapAngle (y + phi) - t) = wrapAngle (x - y - t) := by
  obtain ⟨n, hn⟩ := wrap_mod (x + phi)
  obtain ⟨m, hm⟩ := wrap_mod (y + phi)
  rw [hn, hm, ← wrap_add_int (x - y - t) (n - m)]
  congr 1; push_cast; ring

theorem posePrior_turned (id p) (x : V2) (t ps as) (hp : role p = .pose) :
    TurnedFactor (planeDirections phi role) (fun r => MovedVar phi a (role r)) (Fac.pose2DPrior id p ![x 0, x 1, t] ps as)
      (Fac.pose2DPrior id p ![(turn phi *ᵥ x + a) 0, (turn phi *ᵥ x + a) 1, t + phi] ps as) := by
  refine .of (m := 3) rfl rfl rfl (turnEntry phi) (turnEntry_orthogonal phi (.inr rfl)) ?_ ?_
  · intro h h' hM s s' h1 h2 i hi
    obtain ⟨v, e1, e2⟩ := moved_pose hM hp
    simp only [Fac.pose2DPrior, e1, e2] at h1 h2
    cases Res.ok.inj h1
    cases Res.ok.inj h2
    interval_cases i <;> simp [Finset.sum_range_succ, turnEntry, turn_zero, turn_one, wrap_turned_sub]
    all_goals ring
  · intro h h' hM js js' h1 h2 k q B B' h3 h4 h5 h6
    obtain ⟨v, e1, e2⟩ := moved_pose hM hp
    simp only [Fac.pose2DPrior, e1, e2] at h1 h2
    rw [fillBlocks_ok (by rfl)] at h1 h2
    cases Res.ok.inj h1
    cases Res.ok.inj h2
    clear h1 h2
    have key := one_block (P := GoodBlock phi role h 3 (turnEntry phi)) ?_ k q B B' h3 h5 h6
    · exact key h4
    · intro c0
      rw [directions_turned _ (by rw [hp]; simp), (moved_size hM).1 hp]
      rw [e1] at c0
      have c0 : v.isConst = false := c0
      simp only [Fac.block, VarLike.isConst, c0]
      intro i j hi hj
      interval_cases i <;> interval_cases j <;> simp [Finset.sum_range_succ, turnEntry, Mat.ofMatrix] <;> ring

theorem posesBetween_turned (id p q m ps as) (hp : role p = .pose) (hq : role q = .pose) (hm : role m = .displacement) :
    TurnedFactor (planeDirections phi role) (fun r => MovedVar phi a (role r)) (Fac.pose2DBetween id p q m ps as false)
      (Fac.pose2DBetween id p q m ps as false) := by
  refine .of (m := 3) rfl rfl rfl (turnEntry phi) (turnEntry_orthogonal phi (.inr rfl)) ?_ ?_
  · intro h h' hM s s' h1 h2 i hi
    obtain ⟨v, e1, e2⟩ := moved_pose hM hp
    obtain ⟨u, e3, e4⟩ := moved_pose hM hq
    obtain ⟨id', c, x, t, e5, e6⟩ := moved_displacement hM hm
    simp only [Fac.pose2DBetween, e1, e2, e3, e4, e5, e6, VarLike.value] at h1 h2
    rw [if_neg (by simp)] at h1 h2
    cases Res.ok.inj h1
    cases Res.ok.inj h2
    interval_cases i <;> simp [Finset.sum_range_succ, turnEntry, turn_zero, turn_one, wrap_turned_diff]
    all_goals ring
  · intro h h' hM js js' h1 h2 k z B B' h3 h4 h5 h6
    obtain ⟨v, e1, e2⟩ := moved_pose hM hp
    obtain ⟨u, e3, e4⟩ := moved_pose hM hq
    obtain ⟨id', c, x, t, e5, e6⟩ := moved_displacement hM hm
    simp only [Fac.pose2DBetween, e1, e2, e3, e4, e5, e6] at h1 h2
    rw [fillBlocks_ok (by rfl)] at h1 h2
    cases Res.ok.inj h1
    cases Res.ok.inj h2
    clear h1 h2
    have key := three_blocks (P := GoodBlock phi role h 3 (turnEntry phi)) ?_ ?_ ?_ k z B B' h3 h5 h6
    · exact key h4
    · intro c0
      rw [directions_turned _ (by rw [hp]; simp), (moved_size hM).1 hp]
      rw [e1] at c0
      have c0 : v.isConst = false := c0
      simp only [Fac.block, VarLike.isConst, c0]
      intro i j hi hj
      interval_cases i <;> interval_cases j <;> simp [Finset.sum_range_succ, turnEntry, Mat.ofMatrix] <;> ring
    · intro c0
      rw [directions_turned _ (by rw [hq]; simp), (moved_size hM).1 hq]
      rw [e3] at c0
      have c0 : u.isConst = false := c0
      simp only [Fac.block, VarLike.isConst, c0]
      intro i j hi hj
      interval_cases i <;> interval_cases j <;> simp [Finset.sum_range_succ, turnEntry, Mat.ofMatrix] <;> ring
    · intro c0
      rw [directions_turned _ (by rw [hm]; simp), (moved_size hM).2.2.2 hm]
      rw [e5] at c0
      have c0 : c = false := c0
      simp only [Fac.block, VarLike.isConst, c0]
      intro i j hi hj
      interval_cases i <;> interval_cases j <;> simp [Finset.sum_range_succ, turnEntry, Mat.ofMatrix] <;> ring

theorem turn_id : turn 0 = 1 := by
  ext i j
  fin_cases i <;> fin_cases j <;> simp [turn]

theorem planeDirections_zero (v : RVar) (r : VRef) : planeDirections 0 role r v = sameEntry := by
  unfold planeDirections
  cases role r <;> simp [turnEntry_zero]

theorem posesBetweenLocal_turned (id p q m ps as) (hp : role p = .pose) (hq : role q = .pose) (hm : role m = .still) :
    TurnedFactor (planeDirections 0 role) (fun r => MovedVar 0 a (role r)) (Fac.pose2DBetween id p q m ps as true)
      (Fac.pose2DBetween id p q m ps as true) := by
  have dcm : ∀ (v : Pose2DVar) (x : V2), Pose2DVar.dcm { v with pos := x, theta := wrapAngle (v.theta + 0) } = v.dcm := by
    intro v x
    obtain ⟨h1, h2⟩ := wrap_trig v.theta
    simp only [Pose2DVar.dcm, add_zero, h1, h2]
  refine .of (m := 3) rfl rfl rfl sameEntry (sameEntry_orthogonal 3) ?_ ?_
  · intro h h' hM s s' h1 h2 i hi
    obtain ⟨v, e1, e2⟩ := moved_pose hM hp
    obtain ⟨u, e3, e4⟩ := moved_pose hM hq
    have e5 := moved_still hM hm
    simp only [Fac.pose2DBetween, e1, e2, e3, e4, e5, dcm, turn_id, one_mulVec, add_sub_add_right_eq_sub, wrap_turned_diff] at h1 h2
    rw [h1] at h2
    cases h2
    rw [sum_sameEntry (fun b => s.getD b 0) i hi]
  · intro h h' hM js js' h1 h2 k z B B' h3 h4 h5 h6
    obtain ⟨v, e1, e2⟩ := moved_pose hM hp
    obtain ⟨u, e3, e4⟩ := moved_pose hM hq
    have e5 := moved_still hM hm
    simp only [Fac.pose2DBetween, e1, e2, e3, e4, e5, dcm, turn_id, one_mulVec, add_sub_add_right_eq_sub, Fac.block,
      VarLike.isConst] at h1 h2
    rw [h1] at h2
    obtain rfl := Res.ok.inj h2
    obtain rfl := Option.some.inj (h5.symm.trans h6)
    rw [planeDirections_zero]
    exact BlockTurned.same _ _ _

theorem pointsBetween_turned (id p q m w) (hp : role p = .point) (hq : role q = .point) (hm : role m = .arrow) :
    TurnedFactor (planeDirections phi role) (fun r => MovedVar phi a (role r)) (genericBetween id p q m 2 w)
      (genericBetween id p q m 2 w) := by
  refine .of (m := 2) rfl rfl rfl (turnEntry phi) (turnEntry_orthogonal phi (.inl rfl)) ?_ ?_
  · intro h h' hM s s' h1 h2 i hi
    obtain ⟨_, _, x, e1, e2⟩ := moved_point hM hp
    obtain ⟨_, _, y, e3, e4⟩ := moved_point hM hq
    obtain ⟨_, _, z, e5, e6⟩ := moved_arrow hM hm
    simp only [genericBetween, e1, e2, e3, e4, e5, e6, VarLike.value, vecSub] at h1 h2
    simp at h1 h2
    subst h1 h2
    interval_cases i <;> simp [Finset.sum_range_succ, turnEntry, turn_zero, turn_one] <;> ring
  · intro h h' hM js js' h1 h2 k z B B' h3 h4 h5 h6
    simp only [genericBetween, betweenBlock, (movedVar_shape (hM p)).1, (movedVar_shape (hM q)).1, (movedVar_shape (hM m)).1] at h1 h2
    cases Res.ok.inj h1
    cases Res.ok.inj h2
    clear h1 h2
    have key := three_blocks (P := GoodBlock phi role h 2 (turnEntry phi)) ?_ ?_ ?_ k z B B' h3 h5 h6
    · exact key h4
    · intro c0
      rw [directions_turned _ (by rw [hp]; simp), (moved_size hM).2.1 hp, c0]
      exact BlockTurned.diag 2 _ _
    · intro c0
      rw [directions_turned _ (by rw [hq]; simp), (moved_size hM).2.1 hq, c0]
      exact BlockTurned.diag 2 _ _
    · intro c0
      rw [directions_turned _ (by rw [hm]; simp), (moved_size hM).2.2.1 hm, c0]
      exact BlockTurned.diag 2 _ _

theorem offsetDiag_two {n : Nat} (hn : n = 2 ∨ n = 3) (w : ℝ) :
    Fac.offsetDiag 2 n 0 w = .ok ⟨2, n, fun a b => if b = 0 + a then w else 0⟩ := by
  rcases hn with rfl | rfl <;> simp [Fac.offsetDiag]

theorem BlockTurned.offset {n : Nat} (hn : n = 2 ∨ n = 3) (w : ℝ) : BlockTurned 2 n (turnEntry phi) (turnEntry phi)
    ⟨2, n, fun a b => if b = 0 + a then w else 0⟩ ⟨2, n, fun a b => if b = 0 + a then w else 0⟩ := by
  intro i j hi hj
  rcases hn with rfl | rfl <;> interval_cases i <;> interval_cases j <;> simp [Finset.sum_range_succ, turnEntry] <;> ring

/-- The first two values of a pose or of a point. -/
theorem moved_place {h h' : Heap RVar} (hM : ∀ r, MovedVar phi a (role r) (h r) (h' r)) {r : VRef}
    (hr : role r = .pose ∨ role r = .point) : ∃ x : V2, Fac.segmentOf (VarLike.value (h r)) 0 2 = .ok [x 0, x 1] ∧
      Fac.segmentOf (VarLike.value (h' r)) 0 2 = .ok [(turn phi *ᵥ x + a) 0, (turn phi *ᵥ x + a) 1] ∧
      (VarLike.size (h r) = 2 ∨ VarLike.size (h r) = 3) := by
  rcases hr with hr | hr
  · obtain ⟨v, e1, e2⟩ := moved_pose hM hr
    refine ⟨v.pos, ?_, ?_, .inr ((moved_size hM).1 hr)⟩
    · rw [e1]; simp [Fac.segmentOf, VarLike.value, Pose2DVar.value]
    · rw [e2]; simp [Fac.segmentOf, VarLike.value, Pose2DVar.value]
  · obtain ⟨_, _, x, e1, e2⟩ := moved_point hM hr
    refine ⟨x, ?_, ?_, .inl ((moved_size hM).2.1 hr)⟩
    · rw [e1]; simp [Fac.segmentOf, VarLike.value]
    · rw [e2]; simp [Fac.segmentOf, VarLike.value]

theorem velocity_turned (id p q vel dt sigma) (hp : role p = .pose ∨ role p = .point) (hq : role q = .pose ∨ role q = .point)
    (hm : role vel = .arrow) :
    TurnedFactor (planeDirections phi role) (fun r => MovedVar phi a (role r)) (Fac.linearVelocity id p q vel 2 dt sigma 0)
      (Fac.linearVelocity id p q vel 2 dt sigma 0) := by
  refine .of (m := 2) rfl rfl rfl (turnEntry phi) (turnEntry_orthogonal phi (.inl rfl)) ?_ ?_
  · intro h h' hM s s' h1 h2 i hi
    obtain ⟨x, e1, e2, _⟩ := moved_place hM hp
    obtain ⟨y, e3, e4, _⟩ := moved_place hM hq
    obtain ⟨_, _, z, e5, e6⟩ := moved_arrow hM hm
    simp only [Fac.linearVelocity, e1, e2, e3, e4, e5, e6, Res.andThen] at h1 h2
    simp [vecSub, VarLike.value, Res.andThen, Res.map] at h1 h2
    subst h1 h2
    interval_cases i <;> simp [Finset.sum_range_succ, turnEntry, turn_zero, turn_one] <;> ring
  · intro h h' hM js js' h1 h2 k z B B' h3 h4 h5 h6
    obtain ⟨_, _, _, n1⟩ := moved_place hM hp
    obtain ⟨_, _, _, n2⟩ := moved_place hM hq
    have t1 := directions_turned (phi := phi) (h p) (show role p ≠ .still by rcases hp with e | e <;> rw [e] <;> simp)
    have t2 := directions_turned (phi := phi) (h q) (show role q ≠ .still by rcases hq with e | e <;> rw [e] <;> simp)
    simp only [Fac.linearVelocity, (movedVar_shape (hM p)), (movedVar_shape (hM q)), (movedVar_shape (hM vel)).1,
      offsetDiag_two n1, offsetDiag_two n2] at h1 h2
    have same := h1.symm.trans h2
    obtain rfl := Res.ok.inj same
    obtain rfl := Option.some.inj (h5.symm.trans h6)
    have e : js = [if VarLike.isConst (h p) then Mat.empty else ⟨2, VarLike.size (h p), fun a b => if b = 0 + a then -(1 / sigma) else 0⟩,
        if VarLike.isConst (h q) then Mat.empty else ⟨2, VarLike.size (h q), fun a b => if b = 0 + a then (1 / sigma) else 0⟩,
        if VarLike.isConst (h vel) then Mat.empty else Mat.diag 2 (-(1 / sigma) * dt)] := by
      cases c1 : VarLike.isConst (h p) <;> cases c2 : VarLike.isConst (h q) <;>
        simp only [c1, c2, if_true, Bool.false_eq_true, if_false, Res.andThen] at h1 <;> rw [fillBlocks_ok (by rfl)] at h1 <;>
        exact (Res.ok.inj h1).symm
    subst e
    have key := three_blocks (P := GoodBlock phi role h 2 (turnEntry phi)) ?_ ?_ ?_ k z B B h3 h5 h5
    · exact key h4
    · intro c0
      rw [t1, c0]
      exact BlockTurned.offset n1 _
    · intro c0
      rw [t2, c0]
      exact BlockTurned.offset n2 _
    · intro c0
      rw [directions_turned _ (by rw [hm]; simp), (moved_size hM).2.2.1 hm, c0]
      exact BlockTurned.diag 2 _ _

theorem moved_factor {f f' : Factor ℝ RVar} (hf : MovedFactor phi a role f f') :
    TurnedFactor (planeDirections phi role) (fun r => MovedVar phi a (role r)) f f' := by
  have o2 := turnEntry_orthogonal phi (n := 2) (.inl rfl)
  have o3 := turnEntry_orthogonal phi (n := 3) (.inr rfl)
  cases hf with
  | pointPrior id r x w hr =>
    refine genericPrior_turned (n := 2) rfl rfl o2 (fun v => directions_turned v (by rw [hr]; simp)) ?_
      (fun h h' hM => (moved_size hM).2.1 hr)
    intro h h' hM s s' h1 h2 i hi
    obtain ⟨_, _, y, e1, e2⟩ := moved_point hM hr
    simp only [e1, e2, VarLike.value, vecSub] at h1 h2
    simp at h1 h2
    subst h1 h2
    interval_cases i <;> simp [Finset.sum_range_succ, turnEntry, turn_zero, turn_one] <;> ring
  | arrowPrior id r x w hr =>
    refine genericPrior_turned (n := 2) rfl rfl o2 (fun v => directions_turned v (by rw [hr]; simp)) ?_
      (fun h h' hM => (moved_size hM).2.2.1 hr)
    intro h h' hM s s' h1 h2 i hi
    obtain ⟨_, _, y, e1, e2⟩ := moved_arrow hM hr
    simp only [e1, e2, VarLike.value, vecSub] at h1 h2
    simp at h1 h2
    subst h1 h2
    interval_cases i <;> simp [Finset.sum_range_succ, turnEntry, turn_zero, turn_one] <;> ring
  | displacementPrior id r x t w hr =>
    refine genericPrior_turned (n := 3) rfl rfl o3 (fun v => directions_turned v (by rw [hr]; simp)) ?_
      (fun h h' hM => (moved_size hM).2.2.2 hr)
    intro h h' hM s s' h1 h2 i hi
    obtain ⟨_, _, y, _, e1, e2⟩ := moved_displacement hM hr
    simp only [e1, e2, VarLike.value, vecSub] at h1 h2
    simp at h1 h2
    subst h1 h2
    interval_cases i <;> simp [Finset.sum_range_succ, turnEntry, turn_zero, turn_one]
    all_goals ring
  | stillPrior id r prior w hr =>
    refine .of (m := prior.length) rfl rfl rfl sameEntry (sameEntry_orthogonal _) ?_ ?_
    · intro h h' hM s s' h1 h2 i hi
      simp only [genericPrior, moved_still hM hr] at h1 h2
      rw [h1] at h2
      cases h2
      rw [sum_sameEntry (fun b => s.getD b 0) i hi]
    · intro h h' hM js js' h1 h2 p q B B' h3 h4 h5 h6
      simp only [genericPrior, moved_still hM hr] at h1 h2
      rw [h1] at h2
      obtain rfl := Res.ok.inj h2
      obtain rfl := Option.some.inj (h5.symm.trans h6)
      obtain ⟨rfl, rfl⟩ : p = 0 ∧ r = q := by
        rcases p with _ | p <;> simp_all [genericPrior]
      rw [directions_still _ hr]
      exact BlockTurned.same _ _ _
  | pointsBetween id p q m w hp hq hm => exact pointsBetween_turned id p q m w hp hq hm
  | bearing id p l obs sigma hp hl => exact bearing_turned id p l obs sigma hp hl
  | rangeBearing id p l range obs rs bs hp hl => exact rangeBearing_turned id p l range obs rs bs hp hl
  | posePrior id p x t ps as hp => exact posePrior_turned id p x t ps as hp
  | posesBetween id p q m ps as hp hq hm => exact posesBetween_turned id p q m ps as hp hq hm
  | posesBetweenLocal id p q m ps as h0 hp hq hm => subst h0; exact posesBetweenLocal_turned id p q m ps as hp hq hm
  | posesVelocity id p q vel dt sigma hp hq hm => exact velocity_turned id p q vel dt sigma (.inl hp) (.inl hq) hm
  | pointsVelocity id p q vel dt sigma hp hq hm => exact velocity_turned id p q vel dt sigma (.inr hp) (.inr hq) hm

end factors

theorem two_long {d : List ℝ} (h : d.length = 2) : ∃ x y, d = [x, y] := by
  match d, h with
  | [x, y], _ => exact ⟨x, y, rfl⟩

theorem three_long {d : List ℝ} (h : d.length = 3) : ∃ x y t, d = [x, y, t] := by
  match d, h with
  | [x, y, t], _ => exact ⟨x, y, t, rfl⟩

theorem turned_two {phi x y x' y' : ℝ}
    (h : ∀ i : Fin 2, [x', y'].getD i 0 = ∑ a : Fin 2, turnEntry phi i a * [x, y].getD a 0) :
    x' = Real.cos phi * x - Real.sin phi * y ∧ y' = Real.sin phi * x + Real.cos phi * y := by
  have h0 := h 0
  have h1 := h 1
  simp [Fin.sum_univ_two, turnEntry] at h0 h1
  exact ⟨by rw [h0]; ring, h1⟩

theorem turned_three {phi x y t x' y' t' : ℝ}
    (h : ∀ i : Fin 3, [x', y', t'].getD i 0 = ∑ a : Fin 3, turnEntry phi i a * [x, y, t].getD a 0) :
    x' = Real.cos phi * x - Real.sin phi * y ∧ y' = Real.sin phi * x + Real.cos phi * y ∧ t' = t := by
  have h0 := h 0
  have h1 := h 1
  have h2 := h 2
  simp [Fin.sum_univ_three, turnEntry] at h0 h1 h2
  exact ⟨by rw [h0]; ring, h1, h2⟩

theorem pose_step {phi : ℝ} {a : V2} {v : Pose2DVar} {d d' : List ℝ} {w w' : RVar} (l1 : d.length = 3) (l2 : d'.length = 3)
    (hq : ∀ i : Fin 3, d'.getD i 0 = ∑ a : Fin 3, turnEntry phi i a * d.getD a 0)
    (h1 : VarLike.applyIncr (RVar.pose2d v) d = .ok w)
    (h2 : VarLike.applyIncr (RVar.pose2d { v with pos := turn phi *ᵥ v.pos + a, theta := wrapAngle (v.theta + phi) }) d' = .ok w') :
    MovedVar phi a .pose w w' := by
  obtain ⟨x, y, t, rfl⟩ := three_long l1
  obtain ⟨x', y', t', rfl⟩ := three_long l2
  obtain ⟨rfl, rfl, rfl⟩ := turned_three hq
  simp only [VarLike.applyIncr, Pose2DVar.applyIncr] at h1 h2
  rw [if_neg (by simp)] at h1 h2
  cases Res.ok.inj h1
  cases Res.ok.inj h2
  have := MovedVar.pose (phi := phi) (a := a)
    { v with pos := ![v.pos 0 + x, v.pos 1 + y], theta := wrapAngle (v.theta + t') }
  have e1 : (![(turn phi *ᵥ v.pos + a) 0 + (Real.cos phi * x - Real.sin phi * y),
      (turn phi *ᵥ v.pos + a) 1 + (Real.sin phi * x + Real.cos phi * y)] : V2) = turn phi *ᵥ ![v.pos 0 + x, v.pos 1 + y] + a := by
    funext i
    fin_cases i <;> simp [turn_zero, turn_one] <;> ring
  have e2 : wrapAngle (wrapAngle (v.theta + phi) + t') = wrapAngle (wrapAngle (v.theta + t') + phi) := by
    obtain ⟨n, hn⟩ := wrap_mod (v.theta + phi)
    obtain ⟨m, hm⟩ := wrap_mod (v.theta + t')
    rw [hn, hm, ← wrap_add_int _ m, ← wrap_add_int (v.theta + t' + m * (2 * Real.pi) + phi) n]
    congr 1; ring
  simp only [List.getD_cons_zero, List.getD_cons_succ, e1, e2]
  exact this

theorem generic_two_step {phi : ℝ} {id : Int} {c : Bool} {x b : V2} {d d' : List ℝ} {w w' : RVar} (l1 : d.length = 2)
    (l2 : d'.length = 2) (hq : ∀ i : Fin 2, d'.getD i 0 = ∑ a : Fin 2, turnEntry phi i a * d.getD a 0)
    (h1 : VarLike.applyIncr (RVar.generic ⟨id, c, [x 0, x 1]⟩) d = .ok w)
    (h2 : VarLike.applyIncr (RVar.generic ⟨id, c, [(turn phi *ᵥ x + b) 0, (turn phi *ᵥ x + b) 1]⟩) d' = .ok w') :
    ∃ y : V2, w = .generic ⟨id, c, [y 0, y 1]⟩ ∧ w' = .generic ⟨id, c, [(turn phi *ᵥ y + b) 0, (turn phi *ᵥ y + b) 1]⟩ := by
  obtain ⟨y, z, rfl⟩ := two_long l1
  obtain ⟨y', z', rfl⟩ := two_long l2
  obtain ⟨rfl, rfl⟩ := turned_two hq
  simp only [VarLike.applyIncr, GenVar.applyIncr] at h1 h2
  rw [if_neg (by simp)] at h1 h2
  cases Res.ok.inj h1
  cases Res.ok.inj h2
  refine ⟨![x 0 + y, x 1 + z], by simp, ?_⟩
  simp [turn_zero, turn_one]
  constructor <;> ring

theorem generic_three_step {phi : ℝ} {a : V2} {id : Int} {c : Bool} {x : V2} {t : ℝ} {d d' : List ℝ} {w w' : RVar}
    (l1 : d.length = 3) (l2 : d'.length = 3) (hq : ∀ i : Fin 3, d'.getD i 0 = ∑ a : Fin 3, turnEntry phi i a * d.getD a 0)
    (h1 : VarLike.applyIncr (RVar.generic ⟨id, c, [x 0, x 1, t]⟩) d = .ok w)
    (h2 : VarLike.applyIncr (RVar.generic ⟨id, c, [(turn phi *ᵥ x) 0, (turn phi *ᵥ x) 1, t]⟩) d' = .ok w') :
    MovedVar phi a .displacement w w' := by
  obtain ⟨y, z, u, rfl⟩ := three_long l1
  obtain ⟨y', z', u', rfl⟩ := three_long l2
  obtain ⟨rfl, rfl, rfl⟩ := turned_three hq
  simp only [VarLike.applyIncr, GenVar.applyIncr] at h1 h2
  rw [if_neg (by simp)] at h1 h2
  cases Res.ok.inj h1
  cases Res.ok.inj h2
  have := MovedVar.displacement (phi := phi) (a := a) id c ![x 0 + y, x 1 + z] (t + u')
  have e1 : (turn phi *ᵥ ![x 0 + y, x 1 + z]) 0 = (turn phi *ᵥ x) 0 + (Real.cos phi * y - Real.sin phi * z) := by
    simp [turn_zero]; ring
  have e2 : (turn phi *ᵥ ![x 0 + y, x 1 + z]) 1 = (turn phi *ᵥ x) 1 + (Real.sin phi * y + Real.cos phi * z) := by
    simp [turn_one]; ring
  rw [e1, e2] at this
  exact this

theorem moved_orthogonal {phi : ℝ} {a : V2} {role : VRef → PlaneRole} {r : VRef} {v v' : RVar} (hM : MovedVar phi a (role r) v v') :
    (Matrix.of fun i j : Fin (VarLike.size v) => planeDirections phi role r v i j)ᵀ *
      (Matrix.of fun i j : Fin (VarLike.size v) => planeDirections phi role r v i j) = 1 := by
  have o2 := turnEntry_orthogonal phi (n := 2) (.inl rfl)
  have o3 := turnEntry_orthogonal phi (n := 3) (.inr rfl)
  unfold planeDirections
  generalize role r = b at hM
  cases hM
  · exact o3
  · exact o2
  · exact o2
  · exact o3
  · exact sameEntry_orthogonal _

/-- Moving a planar world gives a corresponding problem. -/
theorem moved_correspond {phi : ℝ} {a : V2} {role : VRef → PlaneRole} {facs facs' : List (Factor ℝ RVar)}
    (hf : List.Forall₂ (MovedFactor phi a role) facs facs') {vars : List VRef} (hnd : vars.Nodup) :
    Correspond 1 (fun h h' => ∀ r, MovedVar phi a (role r) (h r) (h' r)) vars facs vars facs' := by
  refine turned_correspond (τ := planeDirections phi role) (M := fun r => MovedVar phi a (role r))
    (hf.imp fun f f' h => moved_factor h) hnd (fun r v v' h => movedVar_shape h) ?_ ?_
  · exact fun r v v' hM _ => moved_orthogonal hM
  · intro r v v' d d' w w' hM _ l1 l2 hd h1 h2
    unfold planeDirections at hd
    generalize role r = b at hM hd ⊢
    cases hM with
    | pose v => exact pose_step l1 l2 hd h1 h2
    | point id c x =>
      obtain ⟨y, rfl, rfl⟩ := generic_two_step l1 l2 hd h1 h2
      exact .point id c y
    | arrow id c x =>
      have h2 : VarLike.applyIncr (RVar.generic ⟨id, c, [(turn phi *ᵥ x + 0) 0, (turn phi *ᵥ x + 0) 1]⟩) d' = .ok w' := by
        rw [add_zero]; exact h2
      obtain ⟨y, rfl, rfl⟩ := generic_two_step l1 l2 hd h1 h2
      rw [add_zero]
      exact .arrow id c y
    | displacement id c x t => exact generic_three_step l1 l2 hd h1 h2
    | still v =>
      have e : d' = d := by
        apply List.ext_getElem (by omega)
        intro i h3 h4
        have := hd ⟨i, by omega⟩
        simp only [sameEntry] at this
        rw [same_sum ⟨i, by omega⟩ fun k => d.getD k 0] at this
        simpa [List.getD_eq_getElem?_getD, h3, h4] using this
      subst e
      rw [h1] at h2
      obtain rfl := Res.ok.inj h2
      simp only [VarLike.applyIncr, GenVar.applyIncr] at h1
      split at h1
      · simp [Res.map] at h1
      · cases Res.ok.inj h1
        exact .still _

end Factorama
