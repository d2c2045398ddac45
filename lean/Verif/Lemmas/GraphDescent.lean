import Verif.Lemmas.GraphJoint
import Verif.Lemmas.OptLoop
import Verif.Lemmas.AffineStep
import Verif.Lemmas.Descent
import Verif.Lemmas.Pivots

/-!
# Steps of the optimizer near a point of differentiability
-/

namespace Factorama
open Spec Graph Opt Geo Matrix Topology Filter

section
variable {F V Fact : Type} [Zero F] [VarLike F V]

theorem stepped_unique {h h1 h2 : Heap V} {vars : List VRef} {dx : List F} (e1 : Stepped h h1 vars dx)
    (e2 : Stepped h h2 vars dx) : h1 = h2 := by
  funext r
  by_cases hr : r ∈ vars ∧ VarLike.isConst (h r) = false
  · exact Res.ok.inj (((e1 r).1 hr).symm.trans ((e2 r).1 hr))
  · rw [(e1 r).2 hr, (e2 r).2 hr]

theorem solved_unique {A : Arith F} {L : LinAlg F Fact} {H : Mat F} {b d d' : List F} (h1 : SystemSolved A L H b d)
    (h2 : SystemSolved A L H b d') : d = d' := by
  obtain ⟨f, a1, _, _, a2⟩ := h1
  obtain ⟨f', b1, _, _, b2⟩ := h2
  obtain rfl := Option.some.inj (a1.symm.trans b1)
  exact Option.some.inj (a2.symm.trans b2)

end

/-- The linearisation is determined by the point. -/
theorem linearised_unique {V : Type} [VarLike ℝ V] {h : Heap V} {vars : List VRef} {facs : List (Factor ℝ V)} (hnd : vars.Nodup)
    {r r' : List ℝ} {J J' : SpMat ℝ} (h1 : Linearised h vars facs r J) (h2 : Linearised h vars facs r' J') :
    r' = r ∧ ∀ P : ∀ N R : Nat, Matrix (Fin R) (Fin N) ℝ → Prop, P _ _ (jacobianMatrix J') → P _ _ (jacobianMatrix J) := by
  refine ⟨isResidual_unique h2.residual h1.residual, fun P hP => ?_⟩
  have hco : ∀ i, i < rowTotal facs → ∀ j, j < freeTotal h vars → J'.coeff i j = J.coeff i j := by
    intro i hi j hj
    obtain ⟨k, f, i', hk, hi', rfl⟩ := exists_row hi
    obtain ⟨q, hq, hc, j', hj', rfl⟩ := exists_column h hnd hj
    obtain ⟨B, hB, hS⟩ := h1.jacobian
    obtain ⟨B', hB', hS'⟩ := h2.jacobian
    by_cases hm : some q ∈ f.variables
    · obtain ⟨p, hp⟩ := List.mem_iff_getElem?.1 hm
      obtain ⟨M, hM, _⟩ := (hB k f hk).2 p q hp
      have e : B' k = B k := Res.ok.inj ((hB' k f hk).1.symm.trans (hB k f hk).1)
      rw [(hS k f hk i' hi').1 p q M hp hc hM j' hj', (hS' k f hk i' hi').1 p q M hp hc (e ▸ hM) j' hj']
    · rw [(hS k f hk i' hi').2 q hq hc hm j' hj', (hS' k f hk i' hi').2 q hq hc hm j' hj']
  have key : ∀ (N R N' R' : Nat) (c c' : Nat → Nat → ℝ), N' = N → R' = R → (∀ i, i < R → ∀ j, j < N → c' i j = c i j) →
      P N' R' (Matrix.of fun i j => c' i j) → P N R (Matrix.of fun i j => c i j) := by
    rintro N R N' R' c c' rfl rfl hc hP
    have : (Matrix.of fun (i : Fin R') (j : Fin N') => c' i j) = Matrix.of fun (i : Fin R') (j : Fin N') => c i j := by
      ext i j; exact hc i i.2 j j.2
    rwa [← this]
  exact key _ _ _ _ J.coeff J'.coeff (h2.columns.trans h1.columns.symm) (h2.rows.trans h1.rows.symm)
    (fun i hi j hj => hco i (h1.rows ▸ hi) j (h1.columns ▸ hj)) hP

theorem scale_ofFn {n : Nat} {d : List ℝ} (hd : d.length = n) (t : ℝ) :
    realArith.scale t d = List.ofFn (t • asVec n d) := by
  subst hd
  apply List.ext_getElem (by simp [Arith.scale])
  intro i h1 h2
  have h3 : i < d.length := by simpa using h2
  simp [Arith.scale, asVec, realArith, List.getElem?_eq_getElem h3, mul_comm]

/-- With large damping the damped system is found usable. -/
theorem damped_solved {Fact : Type} {L : LinAlg ℝ Fact} (hL : ExactLinAlg L) (hP : ExactPivots L) (J : SpMat ℝ)
    (hne : 0 < J.columns.length) (lambda : ℝ) (hl : ∑ i, ((jacobianMatrix J)ᵀ * jacobianMatrix J) i i + 1 ≤ lambda) (r : List ℝ) :
    ∃ d, SystemSolved realArith L (damped realArith (L.gram J) lambda) (L.rhs J r) d ∧ d.length = J.columns.length ∧
      ((jacobianMatrix J)ᵀ * jacobianMatrix J + lambda • 1) *ᵥ asVec J.columns.length d = -gradient J r := by
  set A := jacobianMatrix J
  set C := ∑ i, (Aᵀ * A) i i
  have hii : ∀ i, 0 ≤ (Aᵀ * A) i i := fun i => by
    rw [mul_apply]; exact Finset.sum_nonneg fun k _ => mul_self_nonneg _
  have hC : ∀ i, (Aᵀ * A) i i ≤ C := fun i => Finset.single_le_sum (f := fun i => (Aᵀ * A) i i) (fun i _ => hii i) (Finset.mem_univ i)
  have hC0 : 0 ≤ C := Finset.sum_nonneg fun i _ => hii i
  have hl0 : 0 < lambda := by linarith
  have hsz := hL.gram_size J
  have hrows : (damped realArith (L.gram J) lambda).rows = J.columns.length := hsz.1
  have hcols : (damped realArith (L.gram J) lambda).cols = (damped realArith (L.gram J) lambda).rows := hsz.2.trans hsz.1.symm
  have hpd : (square J.columns.length (damped realArith (L.gram J) lambda)).PosDef := by
    rw [square_damped hL]; exact damped_posDef _ hl0
  obtain ⟨f, hf⟩ := hL.succeeds _ hcols (by rw [hrows]; exact hpd)
  have hsym : (square J.columns.length (damped realArith (L.gram J) lambda)).IsSymm := by
    have := hpd.isHermitian
    rwa [IsHermitian, conjTranspose_eq_transpose_of_trivial] at this
  obtain ⟨d, h1, h2, h3⟩ := hL.solve _ f (L.rhs J r) hcols (by rw [hrows]; exact hsym) hf
    ((hL.rhs_size J r).trans hrows.symm)
  have hldl := hP _ f hcols (by rw [hrows]; exact hsym) hf
  rw [hrows] at h2 h3 hldl
  rw [square_damped hL] at h3 hldl
  rw [hL.rhs] at h3
  have hb := pivot_bounds (low := lambda) (high := 2 * lambda) hldl hl0 (fun x => by
      rw [add_mulVec, smul_mulVec, one_mulVec, dotProduct_add, dotProduct_smul, smul_eq_mul, quad_gram]
      have := sq_nonneg_dot (jacobianMatrix J *ᵥ x)
      linarith) (fun i => by
      rw [Matrix.add_apply, Matrix.smul_apply, one_apply_eq, smul_eq_mul, mul_one]
      have := hC i
      linarith)
  have hDne : L.vectorD f ≠ [] := by
    intro e
    have := hldl.1
    rw [e] at this
    simp at this
    omega
  have hacc := pivots_accepted hDne (by linarith) hb
  exact ⟨d, ⟨f, hf, hacc.1, hacc.2, h1⟩, h2, h3⟩

end Factorama
