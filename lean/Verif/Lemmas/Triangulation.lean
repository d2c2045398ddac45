import Verif.Spec.Triangulation
import Verif.Props.FactorsBearing
import Verif.Props.FactorsPlanar
import Verif.Props.Undetermined
import Verif.Lemmas.GraphDerivative

/-!
# Sightings and the columns of a landmark
-/

namespace Factorama
open Spec Opt Graph Matrix Geo Props

/-- A sum whose terms vanish outside a window. -/
theorem sum_window {N s n : Nat} (hle : s + n ≤ N) {g : Nat → ℝ} (hz : ∀ c, c < N → (c < s ∨ s + n ≤ c) → g c = 0) :
    ∑ c ∈ Finset.range N, g c = ∑ j ∈ Finset.range n, g (s + j) := by
  have h1 : ∑ c ∈ Finset.range N, g c = ∑ c ∈ Finset.Ico s (s + n), g c := by
    refine (Finset.sum_subset (fun c hc => ?_) fun c hc hn => ?_).symm
    · simp only [Finset.mem_Ico, Finset.mem_range] at hc ⊢
      omega
    · simp only [Finset.mem_Ico, Finset.mem_range, not_and, not_lt] at hc hn
      exact hz c hc (by by_cases h : c < s; exacts [.inl h, .inr (hn (not_lt.1 h))])
  rw [h1, Finset.sum_Ico_eq_sum_range, Nat.add_sub_cancel_left]

section
variable {V : Type} [VarLike ℝ V]

/-- The rows of a factor with a single free variable, times a vector. -/
theorem single_row {h : Heap V} {vars : List VRef} {facs : List (Factor ℝ V)} (hn : vars.Nodup) {r : List ℝ} {J : SpMat ℝ}
    (hlin : Linearised h vars facs r J) {k : Nat} {f : Factor ℝ V} (hk : facs[k]? = some f) {slot : Nat} {l : VRef}
    (hslot : f.variables[slot]? = some (some l)) (hl : l ∈ vars) (hc : VarLike.isConst (h l) = false)
    (honly : ∀ q ∈ vars, VarLike.isConst (h q) = false → some q ∈ f.variables → q = l) {bs : List (Mat ℝ)} {M : Mat ℝ}
    (hbs : f.computeJacobians h [] = .ok bs) (hM : bs[slot]? = some M) {i : Nat} (hi : i < f.residualSize) (x : Nat → ℝ) :
    ∑ c ∈ Finset.range J.columns.length, J.coeff (rowStart facs k + i) c * x c =
      ∑ j ∈ Finset.range (VarLike.size (h l)), M.entry i j * x (colStart h vars l + j) := by
  obtain ⟨B, hB, hS⟩ := hlin.jacobian
  obtain ⟨e1, _⟩ := hB k f hk
  rw [hbs] at e1
  obtain rfl := Res.ok.inj e1
  have hcol := colStart_le h hl
  rw [freeSize, hc, ← hlin.columns] at hcol
  simp only [Bool.false_eq_true, if_false] at hcol
  rw [sum_window hcol fun c hcN hout => ?_]
  · exact Finset.sum_congr rfl fun j hj => by
      rw [(hS k f hk i hi).1 slot l M hslot hc hM j (by simpa using hj)]
  · rw [hlin.columns] at hcN
    obtain ⟨q, hq, hqc, j, hj, rfl⟩ := exists_column h hn hcN
    have hne : q ≠ l := by
      rintro rfl
      omega
    rw [(hS k f hk i hi).2 q hq hqc (fun hm => hne (honly q hq hqc hm)) j hj, zero_mul]

/-- A vector in the columns of one variable that all its blocks map to zero. -/
theorem column_kernel {h : Heap V} {vars : List VRef} {facs : List (Factor ℝ V)} {r : List ℝ} {J : SpMat ℝ}
    (hlin : Linearised h vars facs r J) {l : VRef} (hl : l ∈ vars) (hc : VarLike.isConst (h l) = false) {w : Nat → ℝ}
    (hw : ∃ j, j < VarLike.size (h l) ∧ w j ≠ 0)
    (hker : ∀ f ∈ facs, some l ∈ f.variables → ∀ bs, f.computeJacobians h [] = .ok bs → ∃ (slot : Nat) (M : Mat ℝ),
      f.variables[slot]? = some (some l) ∧ bs[slot]? = some M ∧
        ∀ i, i < f.residualSize → ∑ j ∈ Finset.range (VarLike.size (h l)), M.entry i j * w j = 0) : Undetermined J := by
  have hcol := colStart_le h hl
  rw [freeSize, hc, ← hlin.columns] at hcol
  simp only [Bool.false_eq_true, if_false] at hcol
  obtain ⟨B, hB, hS⟩ := hlin.jacobian
  let x : Nat → ℝ := fun c => if colStart h vars l ≤ c ∧ c < colStart h vars l + VarLike.size (h l) then w (c - colStart h vars l) else 0
  have hx : ∀ j, j < VarLike.size (h l) → x (colStart h vars l + j) = w j := by
    intro j hj
    simp only [x]
    rw [if_pos ⟨by omega, by omega⟩, Nat.add_sub_cancel_left]
  obtain ⟨j0, hj0, hw0⟩ := hw
  refine ⟨fun c => x c, fun e => hw0 ?_, ?_⟩
  · have := congrFun e ⟨colStart h vars l + j0, by omega⟩
    rw [← hx j0 hj0]
    exact this
  · funext a
    obtain ⟨k, f, i, hk, hi, ha⟩ := exists_row (a := a) (by rw [← hlin.rows]; exact a.2)
    have e1 : (jacobianMatrix J *ᵥ fun c : Fin J.columns.length => x c) a =
        ∑ c ∈ Finset.range J.columns.length, J.coeff (rowStart facs k + i) c * x c := by
      rw [mulVec, dotProduct, ← ha, ← Fin.sum_univ_eq_sum_range (fun c => J.coeff a c * x c)]
      rfl
    rw [e1, sum_window hcol fun c _ hout => ?_]
    · by_cases hm : some l ∈ f.variables
      · obtain ⟨slot, M, h1, h2, h3⟩ := hker f (List.mem_of_getElem? hk) hm _ (hB k f hk).1
        refine Eq.trans (Finset.sum_congr rfl fun j hj => ?_) (h3 i hi)
        have hj : j < VarLike.size (h l) := by simpa using hj
        rw [(hS k f hk i hi).1 slot l M h1 hc h2 j hj, hx j hj]
      · exact Finset.sum_eq_zero fun j hj => by
          rw [(hS k f hk i hi).2 l hl hc hm j (by simpa using hj), zero_mul]
    · simp only [x]
      rw [if_neg (by omega), mul_zero]

end

theorem ofMatrix_entry {m n : Nat} (A : Matrix (Fin m) (Fin n) ℝ) (i : Fin m) (w : Nat → ℝ) :
    ∑ j ∈ Finset.range n, (Mat.ofMatrix A).entry i j * w j = (A *ᵥ fun j => w j) i := by
  rw [mulVec, dotProduct, Finset.sum_range]
  refine Finset.sum_congr rfl fun j _ => ?_
  have : (Mat.ofMatrix A).entry i j = A i j := by
    simp [Mat.ofMatrix]
  rw [this]

/-- The projection along a unit vector vanishes on its multiples only. -/
theorem projection_zero {n : Nat} {b w : Fin n → ℝ} (hb : b ⬝ᵥ b = 1) :
    (-vecMulVec b b + 1 : Matrix (Fin n) (Fin n) ℝ) *ᵥ w = 0 ↔ ∃ a : ℝ, w = a • b := by
  rw [add_mulVec, one_mulVec, neg_mulVec, vecMulVec_mulVec, neg_add_eq_zero]
  constructor
  · exact fun e => ⟨b ⬝ᵥ w, by rw [← e]; simp [hb]⟩
  · rintro ⟨a, rfl⟩
    simp [hb]

theorem along_iff {n : Nat} (y : Fin n → ℝ) (w : Nat → ℝ) :
    Along n (fun j => (toList y).getD j 0) w ↔ ∃ a : ℝ, (fun j : Fin n => w j) = a • y := by
  have e : ∀ j : Fin n, (toList y).getD j 0 = y j := fun j => by simp [toList]
  refine exists_congr fun a => ⟨fun h => funext fun j => ?_, fun h j hj => ?_⟩
  · exact (h j j.2).trans (congrArg (a * ·) (e j))
  · have := congrFun h ⟨j, hj⟩
    exact this.trans (congrArg (a * ·) (e ⟨j, hj⟩)).symm

theorem block_kernel {m n : Nat} (A : Matrix (Fin m) (Fin n) ℝ) (w : Nat → ℝ) :
    (∀ i, i < m → ∑ j ∈ Finset.range n, (Mat.ofMatrix A).entry i j * w j = 0) ↔ A *ᵥ (fun j : Fin n => w j) = 0 := by
  constructor
  · intro h
    funext i
    rw [← ofMatrix_entry, h i i.2]
    rfl
  · intro h i hi
    rw [ofMatrix_entry A ⟨i, hi⟩, h]
    rfl

/-- The Jacobian of a direction in space, with respect to the point. -/
theorem direction_kernel {R : M3} (hR : IsRotation R) {y w : V3} {c : ℝ} (hc : c ≠ 0) (h0 : vnorm (R *ᵥ y) ≠ 0) :
    ((c • (-vecMulVec (vdiv (R *ᵥ y) (vnorm (R *ᵥ y))) (vdiv (R *ᵥ y) (vnorm (R *ᵥ y))) + 1 : M3)) * R) *ᵥ w = 0 ↔
      ∃ a : ℝ, w = a • y := by
  have hv : vdiv (R *ᵥ y) (vnorm (R *ᵥ y)) = (vnorm (R *ᵥ y))⁻¹ • (R *ᵥ y) := by
    funext i
    simp [vdiv, div_eq_inv_mul]
  have hsq : vnorm (R *ᵥ y) ^ 2 = (R *ᵥ y) ⬝ᵥ (R *ᵥ y) := Real.sq_sqrt (sq_nonneg_dot _)
  have hb : vdiv (R *ᵥ y) (vnorm (R *ᵥ y)) ⬝ᵥ vdiv (R *ᵥ y) (vnorm (R *ᵥ y)) = 1 := by
    rw [hv, smul_dotProduct, dotProduct_smul, ← hsq, smul_eq_mul, smul_eq_mul]
    field_simp
  rw [← mulVec_mulVec, smul_mulVec, smul_eq_zero, or_iff_right hc, projection_zero hb, hv]
  constructor
  · rintro ⟨a, e⟩
    refine ⟨a * (vnorm (R *ᵥ y))⁻¹, ?_⟩
    have e2 := congrArg (Rᵀ *ᵥ ·) e
    simp only [mulVec_smul, mulVec_mulVec, IsRotation.transpose_mul hR, one_mulVec] at e2
    rw [e2, smul_smul]
  · rintro ⟨a, rfl⟩
    refine ⟨a * vnorm (R *ᵥ y), ?_⟩
    rw [mulVec_smul, smul_smul, mul_assoc, mul_inv_cancel₀ h0, mul_one]

/-- The Jacobian of a planar direction, with respect to the point. -/
theorem planar_kernel (v : Pose2DVar) (x w : V2) {g : ℝ} (hg : g ≠ 0)
    (h0 : Fac.deltaLocal v x 0 * Fac.deltaLocal v x 0 + Fac.deltaLocal v x 1 * Fac.deltaLocal v x 1 ≠ 0) :
    (!![-g * (Fac.deltaLocal v x 1 * Real.cos v.theta + Fac.deltaLocal v x 0 * Real.sin v.theta) /
          (Fac.deltaLocal v x 0 * Fac.deltaLocal v x 0 + Fac.deltaLocal v x 1 * Fac.deltaLocal v x 1),
        -g * (Fac.deltaLocal v x 1 * Real.sin v.theta - Fac.deltaLocal v x 0 * Real.cos v.theta) /
          (Fac.deltaLocal v x 0 * Fac.deltaLocal v x 0 + Fac.deltaLocal v x 1 * Fac.deltaLocal v x 1)] : Matrix (Fin 1) (Fin 2) ℝ) *ᵥ w = 0 ↔
      ∃ a : ℝ, w = a • (x - v.pos) := by
  have hcs := Real.sin_sq_add_cos_sq v.theta
  rw [deltaLocal_eq] at *
  simp only [cons_val_zero, cons_val_one] at *
  generalize Real.sin v.theta = s at *
  generalize Real.cos v.theta = c at *
  obtain ⟨p, hp⟩ : ∃ p, p = x 0 - v.pos 0 := ⟨_, rfl⟩
  obtain ⟨q, hq⟩ : ∃ q, q = x 1 - v.pos 1 := ⟨_, rfl⟩
  rw [← hp, ← hq] at h0
  rw [← hp, ← hq]
  have e1 : (-(s * p) + c * q) * c + (c * p + s * q) * s = q := by linear_combination q * hcs
  have e2 : (-(s * p) + c * q) * s - (c * p + s * q) * c = -p := by linear_combination -p * hcs
  have e3 : (c * p + s * q) * (c * p + s * q) + (-(s * p) + c * q) * (-(s * p) + c * q) = p * p + q * q := by
    linear_combination (p * p + q * q) * hcs
  rw [e3] at h0
  rw [e1, e2, e3]
  generalize hN : p * p + q * q = N at *
  have key : (!![-g * q / N, -g * -p / N] : Matrix (Fin 1) (Fin 2) ℝ) *ᵥ w = 0 ↔ p * w 1 = q * w 0 := by
    have e : ((!![-g * q / N, -g * -p / N] : Matrix (Fin 1) (Fin 2) ℝ) *ᵥ w) 0 = g / N * (p * w 1 - q * w 0) := by
      simp only [mulVec, dotProduct, Fin.sum_univ_two]
      simp
      ring
    constructor
    · intro h
      rw [h] at e
      rcases mul_eq_zero.1 e.symm with h1 | h1
      · exact absurd h1 (div_ne_zero hg h0)
      · linarith
    · intro h
      funext i
      fin_cases i
      exact e.trans (by rw [h]; simp)
  rw [key]
  constructor
  · intro e
    refine ⟨(p * w 0 + q * w 1) / N, ?_⟩
    funext i
    fin_cases i
    · show w 0 = _ * (x 0 - v.pos 0)
      rw [← hp]
      rw [div_mul_eq_mul_div, eq_div_iff h0, ← hN]
      linear_combination (-q) * e
    · show w 1 = _ * (x 1 - v.pos 1)
      rw [← hq]
      rw [div_mul_eq_mul_div, eq_div_iff h0, ← hN]
      linear_combination p * e
  · rintro ⟨a, rfl⟩
    show p * (a * (x 1 - v.pos 1)) = q * (a * (x 0 - v.pos 0))
    rw [← hp, ← hq]
    ring

/-- What the Jacobian block of a sighted landmark maps to zero: the way from the pose to the landmark. -/
theorem Spec.Sight.kernel {h : Heap RVar} {f : Factor ℝ RVar} {p l : VRef} {y : Nat → ℝ} (hs : Sight h f p l y)
    (hc : VarLike.isConst (F := ℝ) (h l) = false) {bs : List (Mat ℝ)} (hbs : f.computeJacobians h [] = .ok bs) :
    f.variables = [some p, some l] ∧ p ≠ l ∧ (∃ j, j < VarLike.size (F := ℝ) (h l) ∧ y j ≠ 0) ∧
    ∃ M, bs[1]? = some M ∧ ∀ w : Nat → ℝ,
      (∀ i, i < f.residualSize → ∑ j ∈ Finset.range (VarLike.size (F := ℝ) (h l)), M.entry i j * w j = 0) ↔
        Along (VarLike.size (F := ℝ) (h l)) y w := by
  have nonzero : ∀ {n : Nat} {y : Fin n → ℝ}, y ≠ 0 → ∃ j, j < n ∧ (toList y).getD j 0 ≠ 0 := by
    intro n y hy
    obtain ⟨j, hj⟩ := Function.ne_iff.1 hy
    exact ⟨j, j.2, by simpa [toList] using hj⟩
  cases hs with
  | @space id p l bearing sigma v x pw hs hp hR hl hx =>
    have hsz : VarLike.size (F := ℝ) (h l) = 3 := by rw [hl]; rfl
    rw [hsz]
    refine ⟨rfl, pose_ne_landmark hp hl, ?_⟩
    have hcl : VarLike.isConst (F := ℝ) (RVar.landmark x) = false := by rw [← hl]; exact hc
    simp only [Fac.bearingObservation, hp, hl, posW_of hx, Res.andThen] at hbs
    split at hbs
    · cases hbs
    · rename_i hfar
      have h0 : vnorm (v.dcm *ᵥ (pw - v.pos)) ≠ 0 := by
        intro e
        rw [e] at hfar
        norm_num at hfar
      obtain rfl := Res.ok.inj ((fillBlocks_ok rfl).symm.trans hbs)
      refine ⟨nonzero fun e => h0 ?_, _, rfl, fun w => ?_⟩
      · rw [e]; simp [vnorm]
      · rw [Fac.block, hcl, if_neg Bool.false_ne_true]
        rw [along_iff, ← direction_kernel hR (c := 1 / sigma / vnorm (v.dcm *ᵥ (pw - v.pos))) (by positivity) h0]
        exact block_kernel _ w
  | @planar id p l obs sigma v x hs hp hl =>
    have hsz : VarLike.size (F := ℝ) (h l) = 2 := (vector_value hl).2
    rw [hsz]
    refine ⟨rfl, pose2d_ne_vector hp hl, ?_⟩
    simp only [Fac.bearing2D, hp, (vector_value hl).1, head2_toList, Res.andThen] at hbs
    split at hbs
    · cases hbs
    · rename_i hfar
      have h0 : Fac.deltaLocal v x 0 * Fac.deltaLocal v x 0 + Fac.deltaLocal v x 1 * Fac.deltaLocal v x 1 ≠ 0 := by
        intro e
        rw [e] at hfar
        norm_num at hfar
      obtain rfl := Res.ok.inj ((fillBlocks_ok rfl).symm.trans hbs)
      refine ⟨nonzero fun e => h0 ?_, _, rfl, fun w => ?_⟩
      · simp [Fac.deltaLocal, e]
      · rw [Fac.block, hc, if_neg Bool.false_ne_true]
        rw [along_iff, ← planar_kernel v x _ (one_div_ne_zero hs) h0]
        exact block_kernel _ w

end Factorama
