import Verif.Lemmas.Stationary
import Verif.Lemmas.Moved
import Verif.Props.AffineProblems

/-!
# Damped steps of affine problems
-/

namespace Factorama
open Spec Graph Opt Matrix Props

section vectors
variable {m n : Nat}

/-- A damped step towards a solution of the normal equations. -/
theorem damped_contracts {A : Matrix (Fin m) (Fin n) ℝ} {rs r : Fin m → ℝ} {e d : Fin n → ℝ} {l μ : ℝ} (hs : Aᵀ *ᵥ rs = 0)
    (hr : r = rs + A *ᵥ e) (hd : (Aᵀ * A) *ᵥ d + l • d = -(Aᵀ *ᵥ r)) (hl : 0 < l) (hμ0 : 0 ≤ μ)
    (hμ : ∀ v : Fin n → ℝ, μ * (v ⬝ᵥ v) ≤ (A *ᵥ v) ⬝ᵥ (A *ᵥ v)) :
    (l + μ) ^ 2 * ((e + d) ⬝ᵥ (e + d)) ≤ l ^ 2 * (e ⬝ᵥ e) := by
  have h1 : (Aᵀ * A) *ᵥ (e + d) + l • (e + d) = l • e := by
    have : Aᵀ *ᵥ r = (Aᵀ * A) *ᵥ e := by rw [hr, mulVec_add, hs, zero_add, mulVec_mulVec]
    rw [this] at hd
    rw [mulVec_add, smul_add]
    have : (Aᵀ * A) *ᵥ e + (Aᵀ * A) *ᵥ d + (l • e + l • d) = (Aᵀ * A) *ᵥ e + ((Aᵀ * A) *ᵥ d + l • d) + l • e := by abel
    rw [this, hd, add_neg_cancel, zero_add]
  generalize e + d = y at h1
  have h2 := congrArg (y ⬝ᵥ ·) h1
  simp only [dotProduct_add, dotProduct_smul, smul_eq_mul, ← mulVec_mulVec] at h2
  rw [dotProduct_mulVec, vecMul_transpose] at h2
  have h3 := hμ y
  have h4 := dot_le_euclidean y e
  have h5 := euclidean_sq y
  have h6 := euclidean_sq e
  have n1 := euclidean_nonneg y
  have n2 := euclidean_nonneg e
  rw [← h5, ← h6]
  have key : (l + μ) * euclidean y ^ 2 ≤ l * (euclidean y * euclidean e) := by
    have := mul_le_mul_of_nonneg_left h4 hl.le
    rw [h5]
    linarith
  have key2 : (l + μ) * euclidean y ≤ l * euclidean e := by
    rcases n1.eq_or_lt with h0 | h0
    · rw [← h0, mul_zero]; positivity
    · refine le_of_mul_le_mul_right ?_ h0
      calc (l + μ) * euclidean y * euclidean y = (l + μ) * euclidean y ^ 2 := by ring
        _ ≤ _ := key
        _ = _ := by ring
  have hn : 0 ≤ (l + μ) * euclidean y := mul_nonneg (by linarith) n1
  calc (l + μ) ^ 2 * euclidean y ^ 2 = ((l + μ) * euclidean y) ^ 2 := by ring
    _ ≤ (l * euclidean e) ^ 2 := pow_le_pow_left₀ hn key2 2
    _ = _ := by ring

/-- What a damped step gains in an affine problem. -/
theorem damped_gain {A : Matrix (Fin m) (Fin n) ℝ} {r : Fin m → ℝ} {d : Fin n → ℝ} {l : ℝ}
    (hd : (Aᵀ * A) *ᵥ d + l • d = -(Aᵀ *ᵥ r)) :
    (r + A *ᵥ d) ⬝ᵥ (r + A *ᵥ d) = r ⬝ᵥ r - (A *ᵥ d) ⬝ᵥ (A *ᵥ d) - 2 * l * (d ⬝ᵥ d) := by
  have h2 := congrArg (d ⬝ᵥ ·) hd
  simp only [dotProduct_add, dotProduct_smul, smul_eq_mul, ← mulVec_mulVec, dotProduct_neg] at h2
  rw [dotProduct_mulVec d Aᵀ, vecMul_transpose, dotProduct_mulVec d Aᵀ, vecMul_transpose] at h2
  rw [add_dotProduct, dotProduct_add, dotProduct_add, dotProduct_comm r (A *ᵥ d)]
  linarith

end vectors

variable {V Fact : Type} [VarLike ℝ V] [LawfulVar ℝ V] {L : LinAlg ℝ Fact}

/-- The distance of two heaps from the stacked vector of differences. -/
theorem apart_eq {h0 h h' : Heap V} {vars : List VRef} (hn : vars.Nodup) {x : Nat → ℝ}
    (hx : ∀ q ∈ vars, VarLike.isConst (h0 q) = false → ∀ j, j < VarLike.size (h0 q) →
      x (colStart h0 vars q + j) = component (h q) j - component (h' q) j) :
    apart h0 vars h h' = ∑ c : Fin (freeTotal h0 vars), x c ^ 2 := by
  obtain ⟨e, he⟩ := exists_columns h0 hn
  rw [← e.sum_comp, Fintype.sum_sigma, apart]
  have hl : (vars.filter fun r => !VarLike.isConst (h0 r)).Nodup := hn.filter _
  rw [← List.sum_toFinset _ hl, ← Finset.sum_coe_sort]
  refine Fintype.sum_equiv (Equiv.subtypeEquivRight fun r => by simp) _ _ fun k => ?_
  rw [Finset.sum_range]
  have hk := k.2
  simp only [List.mem_toFinset, List.mem_filter, Bool.not_eq_true'] at hk
  refine Finset.sum_congr rfl fun j _ => ?_
  exact ((congrArg (fun c => x c ^ 2) (he _ _)).trans (congrArg (· ^ 2) (hx k.1 hk.1 (by simpa using hk.2) j j.2))).symm

/-- The situation of a step in an affine problem, seen from a solution: matrix, residuals, differences. -/
theorem affine_view {h0 h hs : Heap V} {vars : List VRef} {facs : List (Factor ℝ V)}
    (hn : vars.Nodup) (hmem : ∀ f ∈ facs, ∀ r, some r ∈ f.variables → VarLike.isConst (h0 r) = false → r ∈ vars)
    (hnr : NoRepeats facs) (haff : ∀ f ∈ facs, ∃ B, AffineFactor h0 f B)
    (hsh : SameButFree h0 h vars) (hss : SameButFree h0 hs vars) (hsol : Solution hs vars facs) {r : List ℝ} {J : SpMat ℝ}
    (hlin : Linearised h vars facs r J) :
    ∃ (rs : Fin J.rows → ℝ) (x : Nat → ℝ), (jacobianMatrix J)ᵀ *ᵥ rs = 0 ∧
      asVec J.rows r = rs + jacobianMatrix J *ᵥ (fun c : Fin J.columns.length => x c) ∧
      ∀ q ∈ vars, VarLike.isConst (h0 q) = false → ∀ j, j < VarLike.size (h0 q) →
        x (colStart h0 vars q + j) = component (h q) j - component (hs q) j := by
  obtain ⟨rs, Js, hlins, hgs⟩ := hsol
  have hb : SameButFree h hs vars := by
    refine ⟨fun q => ⟨(hss.1 q).1.trans (hsh.1 q).1.symm, (hss.1 q).2.1.trans (hsh.1 q).2.1.symm,
      (hss.1 q).2.2.trans (hsh.1 q).2.2.symm⟩, fun q hq => ?_⟩
    rw [(hsh.1 q).2.1] at hq
    rw [hss.2 q hq, hsh.2 q hq]
  have hcs : ∀ q, colStart h vars q = colStart h0 vars q := fun q => hsh.1.freeTotal_eq _
  obtain ⟨x, hx⟩ := exists_stacked h0 vars hn (fun q j => component (h q) j - component (hs q) j)
  have hx' : ∀ q ∈ vars, VarLike.isConst (h0 q) = false → ∀ j, j < VarLike.size (h0 q) →
      x (colStart h0 vars q + j) = component (h q) j - component (hs q) j := fun q hq hc j hj => hx q hq j (by
    rw [freeSize_of_nonconst hc]; exact hj)
  have hres : asVec J.rows rs = asVec J.rows r + jacobianMatrix J *ᵥ fun c : Fin J.columns.length => -x c := by
    funext a
    rw [Pi.add_apply, asVec, affine_residual hn hmem hnr haff hsh.1 hb hlin hlins.residual (x := fun c => -x c) ?_
      (hlin.rows ▸ a.2), asVec, mulVec, dotProduct, ← hlin.columns, Finset.sum_range]
    · rfl
    · intro q hq hc j hj
      rw [hcs, hx' q hq ((hsh.1 q).2.1.symm.trans hc) j (by rw [← (hsh.1 q).2.2]; exact hj), neg_sub]
  refine ⟨asVec J.rows rs, x, ?_, ?_, hx'⟩
  · funext c
    have hc2 : (c : Nat) < Js.columns.length := by
      have := c.2
      have e : Js.columns.length = J.columns.length := by rw [hlins.columns, hb.1.freeTotal_eq, ← hlin.columns]
      omega
    have e := congrFun hgs ⟨c, hc2⟩
    rw [gradient_apply, Pi.zero_apply] at e
    rw [Pi.zero_apply, ← e]
    show ∑ a : Fin J.rows, J.coeff a c * rs.getD a 0 = _
    rw [hlins.rows, ← hlin.rows, Finset.sum_range]
    refine Finset.sum_congr rfl fun a _ => ?_
    rw [affine_coeff hn hmem hnr haff hsh.1 hss.1 hlin hlins (hlin.rows ▸ a.2) (hlin.columns ▸ c.2)]
  · rw [hres]
    have : (fun c : Fin J.columns.length => -x c) = -fun c : Fin J.columns.length => x c := rfl
    rw [this, mulVec_neg]
    abel

/-- The residual after a step in an affine problem. -/
theorem affine_after {h0 h h' : Heap V} {vars : List VRef} {facs : List (Factor ℝ V)}
    (hn : vars.Nodup) (hmem : ∀ f ∈ facs, ∀ r, some r ∈ f.variables → VarLike.isConst (h0 r) = false → r ∈ vars)
    (hnr : NoRepeats facs) (haff : ∀ f ∈ facs, ∃ B, AffineFactor h0 f B) (hadd : AdditiveIncrements h0 vars)
    (hs : SameShape h0 h) {r r' d : List ℝ} {J : SpMat ℝ} (hlin : Linearised h vars facs r J)
    (hst : Stepped h h' vars (realArith.scale 1 d)) (hr' : IsResidual h' facs r') :
    (asVec J.rows r' = asVec J.rows r + jacobianMatrix J *ᵥ asVec J.columns.length d) ∧
    ∀ q ∈ vars, VarLike.isConst (h0 q) = false → ∀ j, j < VarLike.size (h0 q) →
      component (h' q) j = component (h q) j + d.getD (colStart h0 vars q + j) 0 := by
  have hd1 : realArith.scale 1 d = d := by simp [Arith.scale, realArith]
  rw [hd1] at hst
  have hb' : SameButFree h h' vars := ⟨stepped_shape hst, fun q hq => (hst q).2 hq⟩
  have hcs : ∀ q, colStart h vars q = colStart h0 vars q := fun q => hs.freeTotal_eq _
  have hmove : ∀ q ∈ vars, VarLike.isConst (h0 q) = false → ∀ j, j < VarLike.size (h0 q) →
      component (h' q) j = component (h q) j + d.getD (colStart h0 vars q + j) 0 := by
    intro q hq hc j hj
    rw [hadd h hs q hq hc _ _ ((hst q).1 ⟨hq, (hs q).2.1.trans hc⟩) j hj]
    simp only [partOf, List.getD_eq_getElem?_getD, List.getElem?_take, List.getElem?_drop]
    rw [if_pos (by rw [(hs q).2.2]; exact hj), hcs]
  refine ⟨?_, hmove⟩
  funext a
  rw [Pi.add_apply, asVec, affine_residual hn hmem hnr haff hs hb' hlin hr' (x := fun c => d.getD c 0) ?_
    (hlin.rows ▸ a.2), asVec, mulVec, dotProduct, ← hlin.columns, Finset.sum_range]
  · rfl
  · intro q hq hc j hj
    rw [hmove q hq ((hs q).2.1.symm.trans hc) j (by rw [← (hs q).2.2]; exact hj), hcs, add_sub_cancel_left]

/-- The distance from a solution as the length of the vector of differences. -/
theorem apart_view {h0 h hs : Heap V} {vars : List VRef} (hn : vars.Nodup) {N : Nat} (hN : N = freeTotal h0 vars) {x : Nat → ℝ}
    (hx : ∀ q ∈ vars, VarLike.isConst (h0 q) = false → ∀ j, j < VarLike.size (h0 q) →
      x (colStart h0 vars q + j) = component (h q) j - component (hs q) j) :
    apart h0 vars h hs = (fun c : Fin N => x c) ⬝ᵥ fun c : Fin N => x c := by
  subst hN
  rw [apart_eq hn hx, dot_sq]

/-- A damped step of an affine problem brings the values nearer to every solution. -/
theorem affine_closer (hL : ExactLinAlg L) {h0 h h' hs : Heap V} {vars : List VRef} {facs : List (Factor ℝ V)}
    (hn : vars.Nodup) (hmem : ∀ f ∈ facs, ∀ r, some r ∈ f.variables → VarLike.isConst (h0 r) = false → r ∈ vars)
    (hnr : NoRepeats facs) (haff : ∀ f ∈ facs, ∃ B, AffineFactor h0 f B) (hadd : AdditiveIncrements h0 vars)
    (hsh : SameButFree h0 h vars) (hss : SameButFree h0 hs vars) (hsol : Solution hs vars facs) {r r' d : List ℝ} {J : SpMat ℝ}
    (hlin : Linearised h vars facs r J) {l μ : ℝ} (hl : 0 < l) (hμ0 : 0 ≤ μ) (hμ : Determines μ J)
    (hd : SystemSolved realArith L (damped realArith (L.gram J) l) (L.rhs J r) d)
    (hst : Stepped h h' vars (realArith.scale 1 d)) (hr' : IsResidual h' facs r') :
    (l + μ) ^ 2 * apart h0 vars h' hs ≤ l ^ 2 * apart h0 vars h hs := by
  obtain ⟨rs, x, h1, h2, hx⟩ := affine_view hn hmem hnr haff hsh hss hsol hlin
  obtain ⟨_, hmove⟩ := affine_after hn hmem hnr haff hadd hsh.1 hlin hst hr'
  obtain ⟨hlen, heq⟩ := damped_solution hL hl hd
  have hN : J.columns.length = freeTotal h0 vars := hlin.columns.trans (hsh.1.freeTotal_eq _)
  rw [apart_view hn hN hx, apart_view hn hN (x := fun c => x c + d.getD c 0) fun q hq hc j hj => by
    rw [hmove q hq hc j hj, hx q hq hc j hj]; ring]
  exact damped_contracts (A := jacobianMatrix J) (d := asVec J.columns.length d) h1 h2 heq hl hμ0 hμ

/-- A damped step of an affine problem lowers the cost unless the gradient is zero. -/
theorem affine_gain (hL : ExactLinAlg L) {h0 h h' : Heap V} {vars : List VRef} {facs : List (Factor ℝ V)}
    (hn : vars.Nodup) (hmem : ∀ f ∈ facs, ∀ r, some r ∈ f.variables → VarLike.isConst (h0 r) = false → r ∈ vars)
    (hnr : NoRepeats facs) (haff : ∀ f ∈ facs, ∃ B, AffineFactor h0 f B) (hadd : AdditiveIncrements h0 vars)
    (hs : SameShape h0 h) {r r' d : List ℝ} {J : SpMat ℝ} (hlin : Linearised h vars facs r J) {l : ℝ} (hl : 0 < l)
    (hd : SystemSolved realArith L (damped realArith (L.gram J) l) (L.rhs J r) d)
    (hst : Stepped h h' vars (realArith.scale 1 d)) (hr' : IsResidual h' facs r') :
    realArith.sqNorm r' < realArith.sqNorm r ↔ gradient J r ≠ 0 := by
  obtain ⟨hres, _⟩ := affine_after hn hmem hnr haff hadd hs hlin hst hr'
  obtain ⟨hlen, heq⟩ := damped_solution hL hl hd
  rw [sqNorm_eq ((isResidual_length hr').trans hlin.rows.symm), sqNorm_eq ((isResidual_length hlin.residual).trans hlin.rows.symm),
    hres, damped_gain (l := l) heq]
  have n1 := sq_nonneg_dot (jacobianMatrix J *ᵥ asVec J.columns.length d)
  constructor
  · rintro hlt hg
    have hz : asVec J.columns.length d = 0 := by
      obtain ⟨f, d', h1, h2, _, _, _, h3⟩ := C25_damped hL J r l hl
      obtain ⟨f', hf', _, _, hs⟩ := hd
      obtain rfl : f = f' := Option.some.inj (h1.symm.trans hf')
      obtain rfl : d' = d := Option.some.inj (h2.symm.trans hs)
      exact h3.2 hg
    rw [hz] at hlt
    simp at hlt
  · intro hg
    have hne : asVec J.columns.length d ≠ 0 := by
      intro hz
      rw [hz] at heq
      apply hg
      simpa using heq.symm
    have := mul_pos hl (sq_pos_dot hne)
    linarith

end Factorama
