import Verif.Spec.Resection
import Verif.Lemmas.Triangulation

/-!
# Factors with a single free variable, and sightings from a planar pose
-/

namespace Factorama
open Spec Opt Graph Matrix Geo Props

section
variable {V : Type} [VarLike ℝ V]

/-- If no factor mentions two free variables, the problem is undetermined exactly if the blocks of some variable have a common
kernel. -/
theorem single_undetermined {h : Heap V} {vars : List VRef} {facs : List (Factor ℝ V)} (hn : vars.Nodup) {r : List ℝ} {J : SpMat ℝ}
    (hlin : Linearised h vars facs r J)
    (hone : ∀ f ∈ facs, ∀ p ∈ vars, VarLike.isConst (F := ℝ) (h p) = false → some p ∈ f.variables →
      ∀ q ∈ vars, VarLike.isConst (F := ℝ) (h q) = false → some q ∈ f.variables → q = p) :
    Undetermined J ↔ ∃ l ∈ vars, VarLike.isConst (F := ℝ) (h l) = false ∧ ∃ w : Nat → ℝ,
      (∃ j, j < VarLike.size (F := ℝ) (h l) ∧ w j ≠ 0) ∧ ∀ f ∈ facs, some l ∈ f.variables → ∀ bs, f.computeJacobians h [] = .ok bs →
        ∃ (slot : Nat) (M : Mat ℝ), f.variables[slot]? = some (some l) ∧ bs[slot]? = some M ∧
          ∀ i, i < f.residualSize → ∑ j ∈ Finset.range (VarLike.size (F := ℝ) (h l)), M.entry i j * w j = 0 := by
  constructor
  · rintro ⟨x, hx, hker⟩
    obtain ⟨c, hcne⟩ := Function.ne_iff.1 hx
    obtain ⟨l, hl, hc, j, hj, hcl⟩ := exists_column h hn (c := c) (by rw [← hlin.columns]; exact c.2)
    let X : Nat → ℝ := fun c => if hc : c < J.columns.length then x ⟨c, hc⟩ else 0
    refine ⟨l, hl, hc, fun j => X (colStart h vars l + j), ⟨j, hj, ?_⟩, fun f hf hm bs hbs => ?_⟩
    · simp only [X, ← hcl, c.2, dif_pos]
      exact hcne
    obtain ⟨k, hk⟩ := List.getElem?_of_mem hf
    obtain ⟨B, hB, _⟩ := hlin.jacobian
    obtain ⟨slot, hslot⟩ := List.getElem?_of_mem hm
    obtain ⟨e, hproper⟩ := hB k f hk
    obtain rfl := Res.ok.inj (hbs.symm.trans e)
    obtain ⟨M, hM, _⟩ := hproper slot l hslot
    refine ⟨slot, M, hslot, hM, fun i hi => ?_⟩
    rw [← single_row hn hlin hk hslot hl hc (hone f hf l hl hc hm) e hM hi X]
    have hrow : rowStart facs k + i < J.rows := by rw [hlin.rows]; exact row_lt hk hi
    have e := congrFun hker ⟨_, hrow⟩
    rw [← Fin.sum_univ_eq_sum_range (fun c => J.coeff (rowStart facs k + i) c * X c)]
    refine Eq.trans (Finset.sum_congr rfl fun c _ => ?_) e
    simp only [X, c.2, dif_pos]
    rfl
  · rintro ⟨l, hl, hc, w, hw, hk⟩
    exact column_kernel hlin hl hc hw hk

end

/-- The way from the pose to the landmark, turned into the frame of the pose, and back. -/
theorem deltaLocal_back (v : Pose2DVar) (x : V2) :
    Fac.deltaLocal v x 1 * Real.cos v.theta + Fac.deltaLocal v x 0 * Real.sin v.theta = x 1 - v.pos 1 ∧
    Fac.deltaLocal v x 1 * Real.sin v.theta - Fac.deltaLocal v x 0 * Real.cos v.theta = -(x 0 - v.pos 0) ∧
    Fac.deltaLocal v x 0 * Real.cos v.theta - Fac.deltaLocal v x 1 * Real.sin v.theta = x 0 - v.pos 0 ∧
    Fac.deltaLocal v x 0 * Real.sin v.theta + Fac.deltaLocal v x 1 * Real.cos v.theta = x 1 - v.pos 1 ∧
    Fac.deltaLocal v x 0 * Fac.deltaLocal v x 0 + Fac.deltaLocal v x 1 * Fac.deltaLocal v x 1 =
      (x 0 - v.pos 0) ^ 2 + (x 1 - v.pos 1) ^ 2 := by
  have hcs := Real.sin_sq_add_cos_sq v.theta
  rw [deltaLocal_eq]
  simp only [cons_val_zero, cons_val_one]
  generalize Real.sin v.theta = s at *
  generalize Real.cos v.theta = c at *
  generalize x 0 - v.pos 0 = p
  generalize x 1 - v.pos 1 = q
  refine ⟨?_, ?_, ?_, ?_, ?_⟩
  · linear_combination q * hcs
  · linear_combination -p * hcs
  · linear_combination p * hcs
  · linear_combination q * hcs
  · linear_combination (p ^ 2 + q ^ 2) * hcs

theorem Spec.SeesDirection.variables {h : Heap RVar} {f : Factor ℝ RVar} {p : VRef} {c x : V2} (hs : SeesDirection h f p c x) :
    ∃ l, f.variables = [some p, some l] ∧ VarLike.isConst (F := ℝ) (h l) = true ∧ IsVector (h l) x := by
  cases hs with | mk _ _ hl hc => exact ⟨_, rfl, hc, hl⟩

theorem Spec.SeesPlace.variables {h : Heap RVar} {f : Factor ℝ RVar} {p : VRef} {c x : V2} (hs : SeesPlace h f p c x) :
    ∃ l, f.variables = [some p, some l] ∧ VarLike.isConst (F := ℝ) (h l) = true ∧ IsVector (h l) x := by
  cases hs with | mk _ _ _ hl hc => exact ⟨_, rfl, hc, hl⟩

theorem Spec.SeesDirection.kernel {h : Heap RVar} {f : Factor ℝ RVar} {p : VRef} {c x : V2} (hs : SeesDirection h f p c x)
    (hc : VarLike.isConst (F := ℝ) (h p) = false) {bs : List (Mat ℝ)} (hbs : f.computeJacobians h [] = .ok bs) :
    ∃ M, bs[0]? = some M ∧ ∀ w : Nat → ℝ,
      (∀ i, i < f.residualSize → ∑ j ∈ Finset.range 3, M.entry i j * w j = 0) ↔ OnCurve (w 2) ![w 1, -w 0] c x := by
  cases hs with
  | @mk id _ l obs sigma v _ hs hp hl hcl =>
    have hcp : VarLike.isConst (F := ℝ) (RVar.pose2d v) = false := by rw [← hp]; exact hc
    obtain ⟨e1, e2, _, _, e5⟩ := deltaLocal_back v x
    simp only [Fac.bearing2D, hp, (vector_value hl).1, head2_toList, Res.andThen] at hbs
    split at hbs
    · cases hbs
    · rename_i hfar
      obtain rfl := Res.ok.inj ((fillBlocks_ok rfl).symm.trans hbs)
      refine ⟨_, rfl, fun w => ?_⟩
      rw [Fac.block, hcp, if_neg Bool.false_ne_true]
      refine (block_kernel _ w).trans ?_
      rw [e5] at hfar
      rw [e1, e2, e5, OnCurve]
      generalize x 0 - v.pos 0 = a at *
      generalize x 1 - v.pos 1 = b at *
      have hN : a ^ 2 + b ^ 2 ≠ 0 := fun e => by rw [e] at hfar; norm_num at hfar
      generalize a ^ 2 + b ^ 2 = N at *
      have hg : (1 : ℝ) / sigma ≠ 0 := one_div_ne_zero hs
      generalize (1 : ℝ) / sigma = g at *
      have e : ((!![g * b / N, g * -a / N, -g] : Matrix (Fin 1) (Fin 3) ℝ) *ᵥ fun j : Fin 3 => w j) 0 =
          -(g / N) * (w 2 * N + w 1 * a + -w 0 * b) := by
        simp only [mulVec, dotProduct, Fin.sum_univ_three]
        simp
        field_simp
        ring
      constructor
      · intro h0
        have e : -(g / N) * (w 2 * N + w 1 * a + -w 0 * b) = 0 := e.symm.trans (congrFun h0 (0 : Fin 1))
        exact (mul_eq_zero.1 e).resolve_left (neg_ne_zero.2 (div_ne_zero hg hN))
      · intro h0
        funext i
        fin_cases i
        refine e.trans ?_
        have h0 : w 2 * N + w 1 * a + -w 0 * b = 0 := h0
        rw [h0, mul_zero]
        rfl

theorem Spec.SeesPlace.kernel {h : Heap RVar} {f : Factor ℝ RVar} {p : VRef} {c x : V2} (hs : SeesPlace h f p c x)
    (hc : VarLike.isConst (F := ℝ) (h p) = false) {bs : List (Mat ℝ)} (hbs : f.computeJacobians h [] = .ok bs) :
    ∃ M, bs[0]? = some M ∧ ∀ w : Nat → ℝ,
      (∀ i, i < f.residualSize → ∑ j ∈ Finset.range 3, M.entry i j * w j = 0) ↔
        w 0 = w 2 * (x 1 - c 1) ∧ w 1 = -(w 2 * (x 0 - c 0)) := by
  cases hs with
  | @mk id _ l range obs rs bs' v _ hr hb hp hl hcl =>
    have hcp : VarLike.isConst (F := ℝ) (RVar.pose2d v) = false := by rw [← hp]; exact hc
    obtain ⟨e1, e2, e3, e4, e5⟩ := deltaLocal_back v x
    simp only [Fac.rangeBearing2D, hp, (vector_value hl).1, head2_toList, Res.andThen] at hbs
    split at hbs
    · cases hbs
    · rename_i hfar
      obtain rfl := Res.ok.inj ((fillBlocks_ok rfl).symm.trans hbs)
      refine ⟨_, rfl, fun w => ?_⟩
      rw [Fac.block, hcp, if_neg Bool.false_ne_true]
      refine (block_kernel _ w).trans ?_
      rw [e5] at hfar
      rw [e1, e2, e3, e4, e5]
      generalize x 0 - v.pos 0 = a at *
      generalize x 1 - v.pos 1 = b at *
      have hN : a ^ 2 + b ^ 2 ≠ 0 := fun e => by rw [e] at hfar; norm_num at hfar
      have hR : √(a ^ 2 + b ^ 2) ≠ 0 := fun e => by rw [e] at hfar; norm_num at hfar
      generalize √(a ^ 2 + b ^ 2) = R at *
      have hg : (1 : ℝ) / rs ≠ 0 := one_div_ne_zero hr
      have hk : (1 : ℝ) / bs' ≠ 0 := one_div_ne_zero hb
      generalize (1 : ℝ) / rs = g at *
      generalize (1 : ℝ) / bs' = k at *
      generalize hNe : a ^ 2 + b ^ 2 = N at *
      have f1 : ((!![-g * a / R, -g * b / R, 0; k * b / N, k * -a / N, -k] : Matrix (Fin 2) (Fin 3) ℝ) *ᵥ fun j : Fin 3 => w j) 0 =
          -(g / R) * (a * w 0 + b * w 1) := by
        simp only [mulVec, dotProduct, Fin.sum_univ_three]
        simp
        field_simp
        ring
      have f2 : ((!![-g * a / R, -g * b / R, 0; k * b / N, k * -a / N, -k] : Matrix (Fin 2) (Fin 3) ℝ) *ᵥ fun j : Fin 3 => w j) 1 =
          k / N * (b * w 0 - a * w 1 - N * w 2) := by
        simp only [mulVec, dotProduct, Fin.sum_univ_three]
        simp
        field_simp
        ring
      constructor
      · intro h0
        have f1 : -(g / R) * (a * w 0 + b * w 1) = 0 := f1.symm.trans (congrFun h0 (0 : Fin 2))
        have f2 : k / N * (b * w 0 - a * w 1 - N * w 2) = 0 := f2.symm.trans (congrFun h0 (1 : Fin 2))
        have g1 : a * w 0 + b * w 1 = 0 := (mul_eq_zero.1 f1).resolve_left (neg_ne_zero.2 (div_ne_zero hg hR))
        have g2 : b * w 0 - a * w 1 - N * w 2 = 0 := (mul_eq_zero.1 f2).resolve_left (div_ne_zero hk hN)
        refine ⟨mul_left_cancel₀ hN ?_, mul_left_cancel₀ hN ?_⟩
        · rw [← hNe] at g2 ⊢
          linear_combination a * g1 + b * g2
        · rw [← hNe] at g2 ⊢
          linear_combination b * g1 - a * g2
      · rintro ⟨h0, h1⟩
        funext i
        fin_cases i
        · refine f1.trans ?_
          rw [h0, h1]
          show _ = (0 : ℝ)
          ring
        · refine f2.trans ?_
          rw [h0, h1, ← hNe]
          show _ = (0 : ℝ)
          ring

end Factorama
