import Verif.Spec.SolvableLinear
import Verif.Lemmas.AffineStep
import Verif.Lemmas.Repeats
import Verif.Lemmas.Columns

/-! Helper lemmas: what is defined in a linear problem that can always be evaluated. -/

namespace Factorama
open Spec Graph Opt Matrix
variable {V : Type} [VarLike ℝ V]

theorem SameButFree.trans {h h' h'' : Heap V} {vars : List VRef} (h1 : SameButFree h h' vars) (h2 : SameButFree h' h'' vars) :
    SameButFree h h'' vars := by
  refine ⟨fun q => ⟨(h2.1 q).1.trans (h1.1 q).1, (h2.1 q).2.1.trans (h1.1 q).2.1, (h2.1 q).2.2.trans (h1.1 q).2.2⟩, fun q hq => ?_⟩
  rw [← h1.2 q hq]
  exact h2.2 q (by rw [(h1.1 q).2.1]; exact hq)

/-- The linearisation of an affine problem is the same for all values. -/
theorem affine_linearised {h0 h : Heap V} {vars : List VRef} {facs : List (Factor ℝ V)}
    (hproper : ∀ h, SameShape h0 h → ∀ f ∈ facs, ∀ js, f.computeJacobians h [] = .ok js → ProperBlocks h f js)
    (haff : ∀ f ∈ facs, ∃ B, AffineFactor h0 f B) (hev : AlwaysEvaluates h0 vars facs) (hb : SameButFree h0 h vars)
    {r0 : List ℝ} {J : SpMat ℝ} (hlin : Linearised h0 vars facs r0 J) : ∃ r, Linearised h vars facs r J := by
  obtain ⟨r, hr⟩ := exists_isResidual (hev.residual h hb)
  obtain ⟨blocks, hbl, hst⟩ := hlin.jacobian
  refine ⟨r, hr, hlin.rows, hlin.columns.trans (hb.1.freeTotal_eq vars).symm, blocks, fun k f hk => ?_, fun k f hk i hi => ?_⟩
  · have hf := List.mem_of_getElem? hk
    obtain ⟨js, hj⟩ := hev.jacobians h hb f hf
    obtain ⟨B, hB⟩ := haff f hf
    have e1 := hB.jacobian h hb.1 js hj
    have e2 := hB.jacobian h0 (fun _ => ⟨rfl, rfl, rfl⟩) _ (hbl k f hk).1
    rw [e2, ← e1]
    exact ⟨hj, hproper h hb.1 f hf js hj⟩
  · obtain ⟨h1, h2⟩ := hst k f hk i hi
    refine ⟨fun p q B hp hc hB j hj => ?_, fun q hq hc hn j hj => ?_⟩
    · rw [hb.1.colStart_eq]
      exact h1 p q B hp ((hb.1 q).2.1.symm.trans hc) hB j (by rw [← (hb.1 q).2.2]; exact hj)
    · rw [hb.1.colStart_eq]
      exact h2 q hq ((hb.1 q).2.1.symm.trans hc) hn j (by rw [← (hb.1 q).2.2]; exact hj)

theorem exists_stepped {h0 h : Heap V} {vars : List VRef} {facs : List (Factor ℝ V)} (hev : AlwaysEvaluates h0 vars facs)
    (hb : SameButFree h0 h vars) {d : List ℝ} (hd : d.length = freeTotal h vars) : ∃ h', Stepped h h' vars d := by
  have key : ∀ q, ∃ v, (q ∈ vars ∧ VarLike.isConst (h q) = false → VarLike.applyIncr (h q) (partOf h vars d q) = .ok v) ∧
      (¬ (q ∈ vars ∧ VarLike.isConst (h q) = false) → v = h q) := by
    intro q
    by_cases hq : q ∈ vars ∧ VarLike.isConst (h q) = false
    · obtain ⟨v, hv⟩ := hev.increments h hb q hq.1 ((hb.1 q).2.1.symm.trans hq.2) (partOf h vars d q)
        ((partOf_length hd hq.1 hq.2).trans (hb.1 q).2.2)
      exact ⟨v, fun _ => hv, fun hn => absurd hq hn⟩
    · exact ⟨h q, fun hn => absurd hn hq, fun _ => rfl⟩
  exact ⟨fun q => (key q).choose, fun q => (key q).choose_spec⟩

/-- If a column of the Jacobian is not zero, some factor uses a free variable. -/
theorem free_of_between {h : Heap V} {vars : List VRef} {facs : List (Factor ℝ V)} (hn : vars.Nodup) {r : List ℝ} {J : SpMat ℝ}
    (hlin : Linearised h vars facs r J) {low high : ℝ} (hlow : 0 < low) (hb : Between J low high) (hfree : 0 < freeTotal h vars) :
    ∃ f ∈ facs, ∃ q, some q ∈ f.variables ∧ VarLike.isConst (h q) = false := by
  by_contra hne
  push Not at hne
  have hz : jacobianMatrix J = 0 := by
    funext a c
    have ha : a.1 < rowTotal facs := by rw [← hlin.rows]; exact a.2
    have hcl : c.1 < freeTotal h vars := by rw [← hlin.columns]; exact c.2
    obtain ⟨k, f, i, hk, hi, e1⟩ := exists_row ha
    obtain ⟨q, hq, hcq, j, hj, e⟩ := exists_column h hn hcl
    obtain ⟨B, _, hS⟩ := hlin.jacobian
    show J.coeff a c = 0
    rw [e, e1, (hS k f hk i hi).2 q hq hcq (fun hm => hne f (List.mem_of_getElem? hk) q hm hcq) j hj]
  have h1 := (hb fun _ => 1).1
  rw [hz, zero_mulVec, zero_dotProduct] at h1
  have h2 : (0 : ℝ) < (fun _ : Fin J.columns.length => (1 : ℝ)) ⬝ᵥ fun _ => 1 := by
    simp only [dotProduct, mul_one, Finset.sum_const, Finset.card_univ, Fintype.card_fin, nsmul_eq_mul]
    rw [hlin.columns]
    exact_mod_cast hfree
  nlinarith

/-- A part `η` of the full step of an affine problem, `0 ≤ η ≤ 2`, does not raise the sum of squares. -/
theorem partial_step_cost {m n : Nat} (A : Matrix (Fin m) (Fin n) ℝ) (r r' : Fin m → ℝ) (d : Fin n → ℝ) {η : ℝ} (h0 : 0 ≤ η) (h2 : η ≤ 2)
    (hd : (Aᵀ * A) *ᵥ d = -(Aᵀ *ᵥ r)) (hr : r' = r + A *ᵥ (η • d)) : r' ⬝ᵥ r' ≤ r ⬝ᵥ r := by
  have e1 : (A *ᵥ d) ⬝ᵥ (A *ᵥ d) = -(r ⬝ᵥ (A *ᵥ d)) := by
    have : d ⬝ᵥ ((Aᵀ * A) *ᵥ d) = d ⬝ᵥ -(Aᵀ *ᵥ r) := by rw [hd]
    rw [← mulVec_mulVec, dotProduct_mulVec, vecMul_transpose, dotProduct_neg, dotProduct_mulVec d, vecMul_transpose] at this
    rw [dotProduct_comm r, ← this]
  have e2 : r' ⬝ᵥ r' = r ⬝ᵥ r - η * (2 - η) * ((A *ᵥ d) ⬝ᵥ (A *ᵥ d)) := by
    rw [hr, mulVec_smul, add_dotProduct, dotProduct_add, dotProduct_add, smul_dotProduct, smul_dotProduct, dotProduct_smul,
      dotProduct_smul, dotProduct_comm (A *ᵥ d) r]
    simp only [smul_eq_mul]
    linear_combination (2 * η) * e1
  have e3 : 0 ≤ (A *ᵥ d) ⬝ᵥ (A *ᵥ d) := Finset.sum_nonneg fun i _ => mul_self_nonneg _
  rw [e2]
  have := mul_nonneg (mul_nonneg h0 (sub_nonneg.2 h2)) e3
  linarith

end Factorama
