import Verif.Lemmas.Plot
import Verif.Props.FactorsPlanar
import Mathlib.LinearAlgebra.Matrix.PosDef
import Mathlib.Analysis.Real.Pi.Bounds

/-!
# Lemmas about ellipses and ellipsoids
-/

namespace Factorama.Plot
open Matrix Geo Spec

section
variable {n : Nat} {E : Eigh} {C : Matrix (Fin n) (Fin n) ℝ}

theorem eigen_mul (hE : Diagonalizes E) (hs : C.IsSymm) : E.vectors C * (E.vectors C)ᵀ = 1 :=
  mul_eq_one_comm.mp (hE.orthonormal C hs)

theorem values_pos (hE : Diagonalizes E) (hs : C.IsSymm) (hp : C.PosDef) (k : Fin n) : 0 < E.values C k := by
  have ho := hE.orthonormal C hs
  have hx : E.vectors C *ᵥ Pi.single k 1 ≠ 0 := by
    intro h
    have : (E.vectors C)ᵀ *ᵥ (E.vectors C *ᵥ Pi.single k 1) = 0 := by rw [h, mulVec_zero]
    rw [mulVec_mulVec, ho, one_mulVec] at this
    have := congrFun this k
    simp at this
  have h := hp.dotProduct_mulVec_pos hx
  have hd : (E.vectors C)ᵀ * C * E.vectors C = diagonal (E.values C) := by
    have he := hE.eigen C hs
    generalize E.vectors C = Q at *
    generalize E.values C = l at *
    calc Qᵀ * C * Q = (Qᵀ * Q) * diagonal l * (Qᵀ * Q) := by rw [he]; simp only [Matrix.mul_assoc]
      _ = diagonal l := by rw [ho, Matrix.one_mul, Matrix.mul_one]
  have e : star (E.vectors C *ᵥ Pi.single k 1) ⬝ᵥ (C *ᵥ (E.vectors C *ᵥ Pi.single k 1)) = E.values C k := by
    rw [star_trivial, dotProduct_comm, dotProduct_mulVec, ← mulVec_transpose, mulVec_mulVec, mulVec_mulVec, hd]
    simp
  rwa [e] at h

theorem inverse_eq (hE : Diagonalizes E) (hs : C.IsSymm) (hp : C.PosDef) :
    C⁻¹ = E.vectors C * diagonal (fun k => (E.values C k)⁻¹) * (E.vectors C)ᵀ := by
  refine inv_eq_right_inv ?_
  have ho := hE.orthonormal C hs
  have ho' := eigen_mul hE hs
  have he := hE.eigen C hs
  have hd : diagonal (E.values C) * diagonal (fun k => (E.values C k)⁻¹) = 1 := by
    rw [diagonal_mul_diagonal, ← diagonal_one]
    congr 1
    funext k
    exact mul_inv_cancel₀ (values_pos hE hs hp k).ne'
  generalize E.vectors C = Q at *
  generalize E.values C = l at *
  calc C * (Q * diagonal (fun k => (l k)⁻¹) * Qᵀ) = Q * (diagonal l * (Qᵀ * Q) * diagonal (fun k => (l k)⁻¹)) * Qᵀ := by
        rw [he]; simp only [Matrix.mul_assoc]
    _ = 1 := by rw [ho, Matrix.mul_one, hd, Matrix.mul_one, ho']

/-- The squared distance in units of the standard deviation, along the eigenvectors. -/
theorem sigmas_eq (hE : Diagonalizes E) (hs : C.IsSymm) (hp : C.PosDef) (c x : Fin n → ℝ) :
    sigmas C c x = ∑ k, (((E.vectors C)ᵀ *ᵥ (x - c)) k) ^ 2 / E.values C k := by
  unfold sigmas
  rw [inverse_eq hE hs hp, ← mulVec_mulVec, ← mulVec_mulVec, dotProduct_mulVec, ← mulVec_transpose]
  simp only [dotProduct, mulVec_diagonal]
  refine Finset.sum_congr rfl fun k _ => ?_
  rw [div_eq_mul_inv]
  ring
end

/-- Every point of the unit circle has an angle. -/
theorem circle_angle {x y : ℝ} (h : x ^ 2 + y ^ 2 = 1) : ∃ t, x = Real.cos t ∧ y = Real.sin t := by
  obtain ⟨h0, h1⟩ := Props.vnorm_polar ![x, y]
  have hn : vnorm ![x, y] = 1 := by
    rw [Props.vnorm2]
    simp only [cons_val_zero, cons_val_one]
    rw [← sq, ← sq, h, Real.sqrt_one]
  rw [hn, one_mul] at h0 h1
  exact ⟨_, by simpa using h0, by simpa using h1⟩

/-- The outline of the ellipse drawn for a covariance. -/
theorem ellipse_outline {E : Eigh} {C : Matrix (Fin 2) (Fin 2) ℝ} (hE : Diagonalizes E) (hs : C.IsSymm) (hp : C.PosDef)
    (c x : V2) : Outline c (2 * √(E.values C 1)) (2 * √(E.values C 0)) (atan2 (E.vectors C 1 1) (E.vectors C 0 1)) x ↔
      sigmas C c x = 1 := by
  have ho := hE.orthonormal C hs
  have ho' := eigen_mul hE hs
  have h0 := values_pos hE hs hp 0
  have h1 := values_pos hE hs hp 1
  rw [sigmas_eq hE hs hp]
  generalize E.vectors C = Q at *
  generalize E.values C = l at *
  have o00 : Q 0 0 ^ 2 + Q 1 0 ^ 2 = 1 := by
    have := congrFun (congrFun ho 0) 0
    simp [Matrix.mul_apply, Fin.sum_univ_two] at this
    linarith
  have o11 : Q 0 1 ^ 2 + Q 1 1 ^ 2 = 1 := by
    have := congrFun (congrFun ho 1) 1
    simp [Matrix.mul_apply, Fin.sum_univ_two] at this
    linarith
  have o01 : Q 0 0 * Q 0 1 + Q 1 0 * Q 1 1 = 0 := by
    have := congrFun (congrFun ho 0) 1
    simpa [Matrix.mul_apply, Fin.sum_univ_two] using this
  obtain ⟨hc, hsn⟩ := Props.vnorm_polar ![Q 0 1, Q 1 1]
  have hn : vnorm ![Q 0 1, Q 1 1] = 1 := by
    rw [Props.vnorm2]
    simp only [cons_val_zero, cons_val_one]
    rw [← sq, ← sq, o11, Real.sqrt_one]
  rw [hn, one_mul] at hc hsn
  simp only [cons_val_zero, cons_val_one] at hc hsn
  generalize atan2 (Q 1 1) (Q 0 1) = α at *
  have hs0 : √(l 0) ^ 2 = l 0 := Real.sq_sqrt h0.le
  have hs1 : √(l 1) ^ 2 = l 1 := Real.sq_sqrt h1.le
  have p0 : 0 < √(l 0) := Real.sqrt_pos.mpr h0
  have p1 : 0 < √(l 1) := Real.sqrt_pos.mpr h1
  -- the other eigenvector is at a right angle
  have perp : ∀ d : V2, (Q 0 0 * d 0 + Q 1 0 * d 1) ^ 2 = (Real.cos α * d 1 - Real.sin α * d 0) ^ 2 := by
    intro d
    rw [← hc, ← hsn]
    have h2 := congrFun (congrFun ho' 0) 0
    have h3 := congrFun (congrFun ho' 0) 1
    have h4 := congrFun (congrFun ho' 1) 1
    simp [Matrix.mul_apply, Fin.sum_univ_two] at h2 h3 h4
    linear_combination d 0 ^ 2 * h2 + 2 * d 0 * d 1 * h3 + d 1 ^ 2 * h4 - (d 0 ^ 2 + d 1 ^ 2) * o11
  have hsum : ∑ k, ((Qᵀ *ᵥ (x - c)) k) ^ 2 / l k =
      ((Real.cos α * (x - c) 0 + Real.sin α * (x - c) 1) / √(l 1)) ^ 2 +
      ((Real.cos α * (x - c) 1 - Real.sin α * (x - c) 0) / √(l 0)) ^ 2 := by
    rw [Fin.sum_univ_two, div_pow, div_pow, hs0, hs1, ← perp, ← hc, ← hsn]
    simp [Matrix.mulVec, dotProduct, Fin.sum_univ_two]
    ring
  rw [hsum]
  have hcs := Real.sin_sq_add_cos_sq α
  constructor
  · rintro ⟨t, rfl⟩
    have hts := Real.sin_sq_add_cos_sq t
    simp only [add_sub_cancel_left, cons_val_zero, cons_val_one]
    have e1 : (Real.cos α * (Real.cos α * (2 * √(l 1) / 2 * Real.cos t) - Real.sin α * (2 * √(l 0) / 2 * Real.sin t)) +
        Real.sin α * (Real.sin α * (2 * √(l 1) / 2 * Real.cos t) + Real.cos α * (2 * √(l 0) / 2 * Real.sin t))) / √(l 1) =
        Real.cos t := by
      rw [div_eq_iff p1.ne']
      linear_combination √(l 1) * Real.cos t * hcs
    have e2 : (Real.cos α * (Real.sin α * (2 * √(l 1) / 2 * Real.cos t) + Real.cos α * (2 * √(l 0) / 2 * Real.sin t)) -
        Real.sin α * (Real.cos α * (2 * √(l 1) / 2 * Real.cos t) - Real.sin α * (2 * √(l 0) / 2 * Real.sin t))) / √(l 0) =
        Real.sin t := by
      rw [div_eq_iff p0.ne']
      linear_combination √(l 0) * Real.sin t * hcs
    rw [e1, e2]
    linarith
  · intro h
    obtain ⟨t, ht, ht'⟩ := circle_angle h
    rw [div_eq_iff p1.ne'] at ht
    rw [div_eq_iff p0.ne'] at ht'
    refine ⟨t, ?_⟩
    simp only [Pi.sub_apply] at ht ht'
    funext i
    fin_cases i
    · show x 0 = c 0 + (Real.cos α * (2 * √(l 1) / 2 * Real.cos t) - Real.sin α * (2 * √(l 0) / 2 * Real.sin t))
      linear_combination Real.cos α * ht - Real.sin α * ht' - (x 0 - c 0) * hcs
    · show x 1 = c 1 + (Real.sin α * (2 * √(l 1) / 2 * Real.cos t) + Real.cos α * (2 * √(l 0) / 2 * Real.sin t))
      linear_combination Real.sin α * ht + Real.cos α * ht' - (x 1 - c 1) * hcs

/-- A point of the unit sphere by its angles. -/
noncomputable def sphere (u w : ℝ) : V3 := ![Real.cos u * Real.sin w, Real.sin u * Real.sin w, Real.cos w]

theorem mem_mesh {E : Eigh} {c : V3} {C : M3} {x : V3} : x ∈ ellipsoidMesh E c C ↔ ∃ i < 20, ∃ j < 20,
    x = E.vectors C *ᵥ (fun k => √(E.values C k) * sphere ((i : Nat) * (2 * Real.pi / 19)) ((j : Nat) * (Real.pi / 19)) k) + c := by
  simp only [ellipsoidMesh, List.mem_flatMap, List.mem_map, List.mem_range, sphere]
  constructor
  · rintro ⟨i, hi, j, hj, rfl⟩; exact ⟨i, hi, j, hj, rfl⟩
  · rintro ⟨i, hi, j, hj, rfl⟩; exact ⟨i, hi, j, hj, rfl⟩

theorem sigmas_point {E : Eigh} {C : M3} (hE : Diagonalizes E) (hs : C.IsSymm) (hp : C.PosDef) (a b : V3) (c : V3) :
    sigmas C (E.vectors C *ᵥ (fun k => √(E.values C k) * b k) + c) (E.vectors C *ᵥ (fun k => √(E.values C k) * a k) + c) =
      ∑ k, (a k - b k) ^ 2 := by
  rw [sigmas_eq hE hs hp]
  refine Finset.sum_congr rfl fun k _ => ?_
  rw [add_sub_add_right_eq_sub, ← mulVec_sub, mulVec_mulVec, hE.orthonormal C hs, one_mulVec, div_eq_iff
    (values_pos hE hs hp k).ne', Pi.sub_apply, ← mul_sub, mul_pow, Real.sq_sqrt (values_pos hE hs hp k).le, mul_comm]

theorem sphere_dist (u w u' w' : ℝ) (hw : 0 ≤ Real.sin w * Real.sin w') :
    ∑ k, (sphere u w k - sphere u' w' k) ^ 2 ≤ (u - u') ^ 2 + (w - w') ^ 2 := by
  have e : ∑ k, (sphere u w k - sphere u' w' k) ^ 2 =
      2 * (1 - Real.cos (w - w')) + 2 * (Real.sin w * Real.sin w') * (1 - Real.cos (u - u')) := by
    rw [Real.cos_sub, Real.cos_sub]
    simp only [sphere, Fin.sum_univ_three, cons_val_zero, cons_val_one, cons_val]
    have h1 := Real.sin_sq_add_cos_sq u
    have h2 := Real.sin_sq_add_cos_sq u'
    have h3 := Real.sin_sq_add_cos_sq w
    have h4 := Real.sin_sq_add_cos_sq w'
    linear_combination Real.sin w ^ 2 * h1 + Real.sin w' ^ 2 * h2 + h3 + h4
  rw [e]
  have h1 := Real.one_sub_sq_div_two_le_cos (x := w - w')
  have h2 := Real.one_sub_sq_div_two_le_cos (x := u - u')
  have h3 : Real.sin w * Real.sin w' ≤ 1 := by
    nlinarith [Real.sin_sq_add_cos_sq w, Real.sin_sq_add_cos_sq w', sq_nonneg (Real.sin w - Real.sin w'),
      sq_nonneg (Real.cos w), sq_nonneg (Real.cos w')]
  have h4 := Real.cos_le_one (u - u')
  nlinarith

/-- Every point of the unit sphere has angles in the ranges of the mesh. -/
theorem sphere_angles {a : V3} (h : ∑ k, a k ^ 2 = 1) : ∃ u w, 0 ≤ u ∧ u ≤ 2 * Real.pi ∧ 0 ≤ w ∧ w ≤ Real.pi ∧ a = sphere u w := by
  rw [Fin.sum_univ_three] at h
  have hz : -1 ≤ a 2 ∧ a 2 ≤ 1 := abs_le.mp (by rw [← sq_le_one_iff_abs_le_one]; nlinarith [sq_nonneg (a 0), sq_nonneg (a 1)])
  obtain ⟨h0, h1⟩ := Props.vnorm_polar ![a 0, a 1]
  have hn : vnorm ![a 0, a 1] = Real.sin (Real.arccos (a 2)) := by
    rw [Props.vnorm2, Real.sin_arccos]
    simp only [cons_val_zero, cons_val_one]
    congr 1
    linarith
  rw [hn] at h0 h1
  simp only [cons_val_zero, cons_val_one] at h0 h1
  have hr : -Real.pi < atan2 (a 1) (a 0) ∧ atan2 (a 1) (a 0) ≤ Real.pi := ⟨Complex.neg_pi_lt_arg _, Complex.arg_le_pi _⟩
  generalize atan2 (a 1) (a 0) = α at *
  by_cases hα : 0 ≤ α
  · refine ⟨α, Real.arccos (a 2), hα, by linarith, Real.arccos_nonneg _, Real.arccos_le_pi _, ?_⟩
    funext k
    fin_cases k
    · show a 0 = Real.cos α * Real.sin (Real.arccos (a 2)); rw [mul_comm]; exact h0
    · show a 1 = Real.sin α * Real.sin (Real.arccos (a 2)); rw [mul_comm]; exact h1
    · exact (Real.cos_arccos hz.1 hz.2).symm
  · refine ⟨α + 2 * Real.pi, Real.arccos (a 2), by linarith [hr.1], by linarith, Real.arccos_nonneg _, Real.arccos_le_pi _, ?_⟩
    funext k
    fin_cases k
    · show a 0 = Real.cos (α + 2 * Real.pi) * Real.sin (Real.arccos (a 2)); rw [mul_comm, Real.cos_add_two_pi]; exact h0
    · show a 1 = Real.sin (α + 2 * Real.pi) * Real.sin (Real.arccos (a 2)); rw [mul_comm, Real.sin_add_two_pi]; exact h1
    · exact (Real.cos_arccos hz.1 hz.2).symm

/-- A multiple of the step close to a number. -/
theorem near_step {t step : ℝ} (hs : 0 < step) (h0 : 0 ≤ t) (h1 : t ≤ 19 * step) : ∃ i : Nat, i < 20 ∧ |t - i * step| ≤ step / 2 := by
  refine ⟨⌊t / step + 1 / 2⌋₊, ?_, ?_⟩
  · rw [Nat.floor_lt (by positivity)]
    have : t / step ≤ 19 := by rw [div_le_iff₀ hs]; exact h1
    push_cast
    linarith
  · have ha := Nat.floor_le (show 0 ≤ t / step + 1 / 2 by positivity)
    have hb := Nat.lt_floor_add_one (t / step + 1 / 2)
    generalize (⌊t / step + 1 / 2⌋₊ : ℝ) = m at *
    have e : t - m * step = (t / step - m) * step := by field_simp
    rw [e, abs_mul, abs_of_pos hs, show step / 2 = 2⁻¹ * step by ring]
    refine mul_le_mul_of_nonneg_right ?_ hs.le
    rw [abs_le]
    constructor <;> norm_num <;> linarith

/-- The points of the mesh are on the ellipsoid, and every point of the ellipsoid is close to one of them. -/
theorem mesh_spec {E : Eigh} {C : M3} (hE : Diagonalizes E) (hs : C.IsSymm) (hp : C.PosDef) (c : V3) :
    (∀ x ∈ ellipsoidMesh E c C, sigmas C c x = 1) ∧
    ∀ y, sigmas C c y = 1 → ∃ x ∈ ellipsoidMesh E c C, sigmas C y x ≤ 1 / 25 := by
  have hc : E.vectors C *ᵥ (fun k => √(E.values C k) * (0 : V3) k) + c = c := by
    have : (fun k => √(E.values C k) * (0 : V3) k) = 0 := by funext k; simp
    rw [this, mulVec_zero, zero_add]
  constructor
  · intro x hx
    obtain ⟨i, _, j, _, rfl⟩ := mem_mesh.mp hx
    have := sigmas_point hE hs hp (sphere ((i : ℝ) * (2 * Real.pi / 19)) ((j : ℝ) * (Real.pi / 19))) 0 c
    rw [hc] at this
    rw [this, Fin.sum_univ_three]
    generalize (i : ℝ) * (2 * Real.pi / 19) = u
    generalize (j : ℝ) * (Real.pi / 19) = w
    have h1 := Real.sin_sq_add_cos_sq u
    have h2 := Real.sin_sq_add_cos_sq w
    simp only [sphere, Pi.zero_apply, sub_zero, cons_val_zero, cons_val_one, cons_val]
    linear_combination Real.sin w ^ 2 * h1 + h2
  · intro y hy
    -- the point of the unit sphere that belongs to `y`
    obtain ⟨a, rfl⟩ : ∃ a : V3, y = E.vectors C *ᵥ (fun k => √(E.values C k) * a k) + c := by
      refine ⟨fun k => ((E.vectors C)ᵀ *ᵥ (y - c)) k / √(E.values C k), ?_⟩
      have : (fun k => √(E.values C k) * (((E.vectors C)ᵀ *ᵥ (y - c)) k / √(E.values C k))) = (E.vectors C)ᵀ *ᵥ (y - c) := by
        funext k
        rw [mul_div_cancel₀ _ (Real.sqrt_pos.mpr (values_pos hE hs hp k)).ne']
      rw [this, mulVec_mulVec, eigen_mul hE hs, one_mulVec, sub_add_cancel]
    have h1 := sigmas_point hE hs hp a 0 c
    rw [hc, hy] at h1
    obtain ⟨u, w, u0, u1, w0, w1, rfl⟩ := sphere_angles (a := a) (by simpa using h1.symm)
    have hpi := Real.pi_pos
    obtain ⟨i, hi, hu⟩ := near_step (t := u) (step := 2 * Real.pi / 19) (by positivity) u0 (by linarith)
    obtain ⟨j, hj, hw⟩ := near_step (t := w) (step := Real.pi / 19) (by positivity) w0 (by linarith)
    refine ⟨_, mem_mesh.mpr ⟨i, hi, j, hj, rfl⟩, ?_⟩
    rw [sigmas_point hE hs hp]
    have hj' : (j : ℝ) ≤ 19 := by exact_mod_cast Nat.le_of_lt_succ hj
    have hjw : (j : ℝ) * (Real.pi / 19) ≤ Real.pi := by
      calc (j : ℝ) * (Real.pi / 19) ≤ 19 * (Real.pi / 19) := mul_le_mul_of_nonneg_right hj' (by positivity)
        _ = Real.pi := by ring
    have hsin := mul_nonneg (Real.sin_nonneg_of_nonneg_of_le_pi (by positivity) hjw) (Real.sin_nonneg_of_nonneg_of_le_pi w0 w1)
    refine (sphere_dist _ _ u w hsin).trans ?_
    have q1 : ((i : ℝ) * (2 * Real.pi / 19) - u) ^ 2 ≤ (2 * Real.pi / 19 / 2) ^ 2 := by
      rw [← sq_abs, abs_sub_comm]
      exact pow_le_pow_left₀ (abs_nonneg _) hu 2
    have q2 : ((j : ℝ) * (Real.pi / 19) - w) ^ 2 ≤ (Real.pi / 19 / 2) ^ 2 := by
      rw [← sq_abs, abs_sub_comm]
      exact pow_le_pow_left₀ (abs_nonneg _) hw 2
    have hp2 : Real.pi ^ 2 ≤ 3.15 ^ 2 := pow_le_pow_left₀ hpi.le Real.pi_lt_d2.le 2
    norm_num at hp2
    nlinarith

end Factorama.Plot
