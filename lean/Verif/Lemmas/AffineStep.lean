import Verif.Lemmas.StackedProduct
import Verif.Lemmas.ResidualRows

/-!
# Affine problems
-/

namespace Factorama
open Spec Graph Matrix
variable {V : Type} [VarLike ℝ V]

/-- A vector with given parts. -/
theorem exists_stacked (h : Heap V) (vars : List VRef) (hn : vars.Nodup) (D : VRef → Nat → ℝ) :
    ∃ x : Nat → ℝ, ∀ r ∈ vars, ∀ j, j < freeSize (h r) → x (colStart h vars r + j) = D r j := by
  induction vars with
  | nil => exact ⟨fun _ => 0, by simp⟩
  | cons y vars ih =>
    obtain ⟨hy, hn'⟩ := List.nodup_cons.1 hn
    obtain ⟨x, hx⟩ := ih hn'
    refine ⟨fun c => if c < freeSize (h y) then D y c else x (c - freeSize (h y)), fun r hr j hj => ?_⟩
    by_cases hry : y = r
    · subst hry
      simp [colStart, freeTotal, hj]
    · have hr' : r ∈ vars := by
        rcases List.mem_cons.1 hr with e | e
        · exact absurd e.symm hry
        · exact e
      have e : colStart h (y :: vars) r = freeSize (h y) + colStart h vars r := by simp [colStart, freeTotal, hry]
      rw [e, ← hx r hr' j hj]
      simp only []
      rw [if_neg (by omega)]
      congr 1
      omega

theorem contribution_congr {h h' : Heap V} {f : Factor ℝ V} {B : List (Mat ℝ)} {d d' : VRef → Nat → ℝ} (hs : SameShape h h')
    (hd : ∀ r, some r ∈ f.variables → VarLike.isConst (h r) = false → ∀ j, j < VarLike.size (h r) → d r j = d' r j) (i p : Nat) :
    contribution h f B d i p = contribution h' f B d' i p := by
  simp only [contribution]
  cases hp : f.variables[p]? with
  | none => rfl
  | some o =>
    cases o with
    | none => rfl
    | some r =>
      simp only []
      rw [(hs r).2.1, (hs r).2.2]
      cases hc : VarLike.isConst (h r) with
      | true => rfl
      | false =>
        simp only [Bool.false_eq_true, if_false]
        refine Finset.sum_congr rfl fun j hj => ?_
        rw [hd r (List.mem_of_getElem? hp) hc j (by simpa using hj)]

/-- The residual of an affine problem at two points. -/
theorem affine_residual {h0 h h' : Heap V} {vars : List VRef} {facs : List (Factor ℝ V)} (hn : vars.Nodup)
    (hmem : ∀ f ∈ facs, ∀ r, some r ∈ f.variables → VarLike.isConst (h0 r) = false → r ∈ vars)
    (hnr : NoRepeats facs) (haff : ∀ f ∈ facs, ∃ B, AffineFactor h0 f B)
    (hs : SameShape h0 h) (hb : SameButFree h h' vars) {r r' : List ℝ} {J : SpMat ℝ} (hlin : Linearised h vars facs r J)
    (hr' : IsResidual h' facs r') {x : Nat → ℝ}
    (hx : ∀ q ∈ vars, VarLike.isConst (h q) = false → ∀ j, j < VarLike.size (h q) →
      x (colStart h vars q + j) = component (h' q) j - component (h q) j) {a : Nat} (ha : a < rowTotal facs) :
    r'.getD a 0 = r.getD a 0 + ∑ c ∈ Finset.range (freeTotal h vars), J.coeff a c * x c := by
  obtain ⟨blocks, hbl, hst⟩ := hlin.jacobian
  obtain ⟨k, f, i, hk, hi, rfl⟩ := exists_row ha
  have hf : f ∈ facs := List.mem_of_getElem? hk
  obtain ⟨B, hB⟩ := haff f hf
  obtain ⟨hj, hp⟩ := hbl k f hk
  have eB := hB.jacobian h hs _ hj
  obtain ⟨s, h1, h2, h3⟩ := isResidual_row hlin.residual hk
  obtain ⟨s', h1', h2', h3'⟩ := isResidual_row hr' hk
  have hs' : SameShape h0 h' := fun q => ⟨(hb.1 q).1.trans (hs q).1, (hb.1 q).2.1.trans (hs q).2.1, (hb.1 q).2.2.trans (hs q).2.2⟩
  have hm : ∀ q, some q ∈ f.variables → VarLike.isConst (h q) = false → q ∈ vars :=
    fun q hq hc => hmem f hf q hq ((hs q).2.1.symm.trans hc)
  rw [stacked_mulVec hn hst hk hp (hnr f hf) hm hi x]
  have e := hB.residual h h' s s' hs hs' (fun q hq hc => hb.2 q fun ⟨_, hc'⟩ => by
    rw [(hs q).2.1, hc] at hc'; simp at hc') h1 h1' i hi
  simp only [List.getD_eq_getElem?_getD] at e ⊢
  rw [h3 i hi, h3' i hi, e]
  congr 1
  refine Finset.sum_congr rfl fun p _ => ?_
  rw [eB]
  refine contribution_congr hs (fun q hq hc j hj => ?_) i p
  have hc' := (hs q).2.1.trans hc
  exact (hx q (hm q hq hc') hc' j (by rw [(hs q).2.2]; exact hj)).symm

/-- The Jacobian of an affine problem is the same everywhere. -/
theorem affine_coeff {h0 h h' : Heap V} {vars : List VRef} {facs : List (Factor ℝ V)} (hn : vars.Nodup)
    (hmem : ∀ f ∈ facs, ∀ r, some r ∈ f.variables → VarLike.isConst (h0 r) = false → r ∈ vars)
    (hnr : NoRepeats facs) (haff : ∀ f ∈ facs, ∃ B, AffineFactor h0 f B)
    (hs : SameShape h0 h) (hs' : SameShape h0 h') {r r' : List ℝ} {J J' : SpMat ℝ} (hlin : Linearised h vars facs r J)
    (hlin' : Linearised h' vars facs r' J') {a c : Nat} (ha : a < rowTotal facs) (hc : c < freeTotal h vars) :
    J'.coeff a c = J.coeff a c := by
  obtain ⟨blocks, hbl, hst⟩ := hlin.jacobian
  obtain ⟨blocks', hbl', hst'⟩ := hlin'.jacobian
  obtain ⟨k, f, i, hk, hi, rfl⟩ := exists_row ha
  have hf : f ∈ facs := List.mem_of_getElem? hk
  obtain ⟨B, hB⟩ := haff f hf
  have eB := hB.jacobian h hs _ (hbl k f hk).1
  have eB' := hB.jacobian h' hs' _ (hbl' k f hk).1
  have hss : SameShape h h' := fun q => ⟨(hs' q).1.trans (hs q).1.symm, (hs' q).2.1.trans (hs q).2.1.symm,
    (hs' q).2.2.trans (hs q).2.2.symm⟩
  have hm : ∀ q, some q ∈ f.variables → VarLike.isConst (h q) = false → q ∈ vars :=
    fun q hq hc => hmem f hf q hq ((hs q).2.1.symm.trans hc)
  have hm' : ∀ q, some q ∈ f.variables → VarLike.isConst (h' q) = false → q ∈ vars :=
    fun q hq hc => hmem f hf q hq ((hs' q).2.1.symm.trans hc)
  have e1 := stacked_mulVec hn hst hk (hbl k f hk).2 (hnr f hf) hm hi (fun c' => if c' = c then 1 else 0)
  have e2 := stacked_mulVec hn hst' hk (hbl' k f hk).2 (hnr f hf) hm' hi (fun c' => if c' = c then 1 else 0)
  have ht : freeTotal h' vars = freeTotal h vars := hss.freeTotal_eq vars
  have hcs : ∀ q, colStart h' vars q = colStart h vars q := fun q => hss.freeTotal_eq _
  simp only [mul_ite, mul_one, mul_zero, Finset.sum_ite_eq', Finset.mem_range, ht, hc, if_true] at e1 e2
  rw [e1, e2, eB, eB']
  refine Finset.sum_congr rfl fun p _ => ?_
  refine (contribution_congr hss (fun q _ _ j _ => ?_) i p).symm
  rw [hcs]

/-- The gradient entry by entry. -/
theorem gradient_apply (J : SpMat ℝ) (r : List ℝ) (c : Fin J.columns.length) :
    gradient J r c = ∑ a ∈ Finset.range J.rows, J.coeff a c * r.getD a 0 := by
  rw [gradient, mulVec, dotProduct, Finset.sum_range]
  rfl

/-- The residual after a full step in an affine problem is orthogonal to the columns, and nothing shorter can be reached. -/
theorem affine_minimum {m n : Nat} (A : Matrix (Fin m) (Fin n) ℝ) (r r' : Fin m → ℝ) (d : Fin n → ℝ)
    (hd : (Aᵀ * A) *ᵥ d = -(Aᵀ *ᵥ r)) (hr' : r' = r + A *ᵥ d) :
    Aᵀ *ᵥ r' = 0 ∧ ∀ y : Fin n → ℝ, r' ⬝ᵥ r' ≤ (r + A *ᵥ y) ⬝ᵥ (r + A *ᵥ y) := by
  have h0 : Aᵀ *ᵥ r' = 0 := by
    rw [hr', mulVec_add, mulVec_mulVec, hd, add_neg_cancel]
  refine ⟨h0, fun y => ?_⟩
  have e : r + A *ᵥ y = r' + A *ᵥ (y - d) := by
    rw [hr', mulVec_sub]
    abel
  have e2 : r' ⬝ᵥ (A *ᵥ (y - d)) = 0 := by
    rw [dotProduct_mulVec, ← mulVec_transpose, h0, zero_dotProduct]
  rw [e, add_dotProduct, dotProduct_add, dotProduct_add, dotProduct_comm (A *ᵥ (y - d)) r', e2]
  have := sq_nonneg_dot (A *ᵥ (y - d))
  linarith

theorem sqNorm_eq {n : Nat} {r : List ℝ} (hl : r.length = n) : realArith.sqNorm r = asVec n r ⬝ᵥ asVec n r := by
  subst hl
  show (r.map fun x => x * x).sum = _
  rw [dotProduct, ← List.sum_ofFn]
  congr 1
  refine List.ext_getElem (by simp) fun i h1 h2 => ?_
  have h3 : i < r.length := by simpa using h1
  simp [asVec, List.getD_eq_getElem?_getD, h3]

end Factorama
