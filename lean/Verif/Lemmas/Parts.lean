import Verif.Lemmas.Held
import Verif.Lemmas.Convergence
import Verif.Lemmas.Columns
import Verif.Lemmas.AffineStep
import Verif.Spec.Parts

/-!
# Independent parts of a graph: their linear systems are blocks of the whole
-/

namespace Factorama
open Spec Opt Graph Matrix
variable {V : Type} [VarLike ℝ V]

/-- Sums to which only the rows of the part contribute. -/
theorem part_sum {facs facs' : List (Factor ℝ V)} {at_ : Fin facs'.length → Fin facs.length} (hinj : Function.Injective at_)
    (he : ∀ k, facs[at_ k] = facs'[k]) (g g' : Nat → ℝ)
    (h1 : ∀ (k : Fin facs'.length) i, i < facs'[k].residualSize → g' (rowStart facs' k + i) = g (rowStart facs (at_ k) + i))
    (h2 : ∀ k : Fin facs.length, (∀ k', at_ k' ≠ k) → ∀ i, i < facs[k].residualSize → g (rowStart facs k + i) = 0) :
    ∑ i ∈ Finset.range (rowTotal facs'), g' i = ∑ i ∈ Finset.range (rowTotal facs), g i := by
  rw [sum_rows, sum_rows]
  refine Fintype.sum_of_injective at_ hinj _ _ (fun k hk => ?_) fun k => ?_
  · refine Finset.sum_eq_zero fun i hi => h2 k (fun k' e => hk ⟨k', e⟩) i (by simpa using hi)
  · rw [he]
    exact Finset.sum_congr rfl fun i hi => h1 k i (by simpa using hi)

/-- The linear system of a part inside that of the whole graph. -/
theorem part_systems {x x' : Heap V} {vars vars' : List VRef} {facs facs' : List (Factor ℝ V)} (hn : vars.Nodup) (hn' : vars'.Nodup)
    (hp : IndependentPart x vars facs vars' facs') (hx : SamePart vars' facs' x x')
    (hclosed : ∀ f ∈ facs', ∀ q, some q ∈ f.variables → VarLike.isConst (x q) = false → q ∈ vars')
    (hown : ∀ f ∈ facs', LooksAtOwn f) {r r' : List ℝ} {J J' : SpMat ℝ} (h1 : Linearised x vars facs r J)
    (h2 : Linearised x' vars' facs' r' J') :
    ∃ σ : Nat → Nat, (∀ j, j < freeTotal x' vars' → σ j < freeTotal x vars) ∧
      (∀ j l, j < freeTotal x' vars' → l < freeTotal x' vars' → σ j = σ l → j = l) ∧
      (∀ q ∈ vars', VarLike.isConst (x q) = false → ∀ i, i < VarLike.size (x q) →
        σ (colStart x' vars' q + i) = colStart x vars q + i) ∧
      (∀ a b, a < freeTotal x' vars' → b < freeTotal x' vars' →
        ∑ i ∈ Finset.range (rowTotal facs'), J'.coeff i a * J'.coeff i b =
          ∑ i ∈ Finset.range (rowTotal facs), J.coeff i (σ a) * J.coeff i (σ b)) ∧
      (∀ a m, a < freeTotal x' vars' → m < freeTotal x vars → (∀ j, j < freeTotal x' vars' → σ j ≠ m) →
        ∑ i ∈ Finset.range (rowTotal facs), J.coeff i (σ a) * J.coeff i m = 0) ∧
      ∀ a, a < freeTotal x' vars' → ∑ i ∈ Finset.range (rowTotal facs'), J'.coeff i a * r'.getD i 0 =
        ∑ i ∈ Finset.range (rowTotal facs), J.coeff i (σ a) * r.getD i 0 := by
  obtain ⟨at_, hinj, he, hother⟩ := hp.factors
  have same : ∀ q ∈ vars', x' q = x q := fun q hq => hx q (.inl hq)
  have eval : ∀ f ∈ facs', f.computeResidual x' = f.computeResidual x ∧ f.computeJacobians x' [] = f.computeJacobians x [] :=
    fun f hf => (hown f hf x x' fun q hq => hx q (.inr ⟨f, hf, hq⟩)).imp_right fun h => h []
  have key : ∀ j, ∃ m, j < freeTotal x' vars' → ∃ q ∈ vars', VarLike.isConst (x q) = false ∧ ∃ i, i < VarLike.size (x q) ∧
      j = colStart x' vars' q + i ∧ m = colStart x vars q + i := by
    intro j
    by_cases hj : j < freeTotal x' vars'
    · obtain ⟨q, hq, hc, i, hi, e⟩ := exists_column x' hn' hj
      rw [same q hq] at hc hi
      exact ⟨colStart x vars q + i, fun _ => ⟨q, hq, hc, i, hi, e, rfl⟩⟩
    · exact ⟨0, fun h => absurd h hj⟩
  obtain ⟨σ, hσ⟩ := Classical.axiomOfChoice key
  have place : ∀ q ∈ vars', VarLike.isConst (x q) = false → ∀ i, i < VarLike.size (x q) →
      colStart x' vars' q + i < freeTotal x' vars' ∧ σ (colStart x' vars' q + i) = colStart x vars q + i := by
    intro q hq hc i hi
    have hb := colStart_le x' hq
    rw [same q hq, freeSize_of_nonconst hc] at hb
    have hlt : colStart x' vars' q + i < freeTotal x' vars' := by omega
    refine ⟨hlt, ?_⟩
    obtain ⟨q', hq', hc', l, hl, e1, e2⟩ := hσ _ hlt
    by_cases hqq : q' = q
    · subst hqq
      omega
    · have d2 := colStart_disjoint x' hqq hq hq' (j := l) (by rwa [same q' hq', freeSize_of_nonconst hc'])
      rw [same q hq, freeSize_of_nonconst hc] at d2
      omega
  obtain ⟨B, hB, hS⟩ := h1.jacobian
  obtain ⟨B', hB', hS'⟩ := h2.jacobian
  -- The rows of the part.
  have get : ∀ k : Fin facs'.length, facs'[(k : Nat)]? = some facs'[k] ∧ facs[((at_ k : Fin facs.length) : Nat)]? = some facs'[k] := by
    intro k
    refine ⟨List.getElem?_eq_getElem k.2, ?_⟩
    rw [← he k]
    exact List.getElem?_eq_getElem (at_ k).2
  have inside : ∀ (k : Fin facs'.length) i j, i < facs'[k].residualSize → j < freeTotal x' vars' →
      J'.coeff (rowStart facs' k + i) j = J.coeff (rowStart facs (at_ k) + i) (σ j) := by
    intro k i j hi hj
    obtain ⟨q, hq, hc, l, hl, e1, e2⟩ := hσ j hj
    rw [e1, ← e1, e2, e1]
    have hc' : VarLike.isConst (x' q) = false := by rwa [same q hq]
    have hl' : l < VarLike.size (x' q) := by rwa [same q hq]
    have eB : B' k = B (at_ k) := by
      have := (hB' k _ (get k).1).1
      rw [(eval facs'[k] (List.getElem_mem k.2)).2] at this
      exact Res.ok.inj (this.symm.trans (hB _ _ (get k).2).1)
    by_cases hm : some q ∈ facs'[k].variables
    · obtain ⟨p, hp⟩ := List.mem_iff_getElem?.1 hm
      obtain ⟨M, hM, _⟩ := (hB' k _ (get k).1).2 p q hp
      rw [(hS' k _ (get k).1 i hi).1 p q M hp hc' hM l hl', (hS _ _ (get k).2 i hi).1 p q M hp hc (eB ▸ hM) l hl]
    · rw [(hS' k _ (get k).1 i hi).2 q hq hc' hm l hl', (hS _ _ (get k).2 i hi).2 q (hp.variables q hq) hc hm l hl]
  -- The other rows.
  have outside : ∀ k : Fin facs.length, (∀ k', at_ k' ≠ k) → ∀ i, i < facs[k].residualSize → ∀ j, j < freeTotal x' vars' →
      J.coeff (rowStart facs k + i) (σ j) = 0 := by
    intro k hk i hi j hj
    obtain ⟨q, hq, hc, l, hl, e1, e2⟩ := hσ j hj
    rw [e2]
    exact (hS k facs[k] (List.getElem?_eq_getElem k.2) i hi).2 q (hp.variables q hq) hc (hother k hk q hq hc) l hl
  -- The other columns.
  have apart : ∀ (k : Fin facs'.length) i, i < facs'[k].residualSize → ∀ m, m < freeTotal x vars →
      (∀ j, j < freeTotal x' vars' → σ j ≠ m) → J.coeff (rowStart facs (at_ k) + i) m = 0 := by
    intro k i hi m hm hno
    obtain ⟨q, hq, hc, l, hl, rfl⟩ := exists_column x hn hm
    refine (hS _ _ (get k).2 i hi).2 q hq hc (fun hv => ?_) l hl
    have hq' := hclosed _ (List.getElem_mem k.2) q hv hc
    obtain ⟨p1, p2⟩ := place q hq' hc l hl
    exact hno _ p1 p2
  have hres : ∀ (k : Fin facs'.length) i, i < facs'[k].residualSize →
      r'.getD (rowStart facs' k + i) 0 = r.getD (rowStart facs (at_ k) + i) 0 := by
    intro k i hi
    obtain ⟨s, a1, a2, a3⟩ := isResidual_row h1.residual (get k).2
    obtain ⟨s', b1, b2, b3⟩ := isResidual_row h2.residual (get k).1
    rw [(eval facs'[k] (List.getElem_mem k.2)).1, a1] at b1
    obtain rfl := Res.ok.inj b1
    rw [List.getD_eq_getElem?_getD, List.getD_eq_getElem?_getD, a3 i hi, b3 i hi]
  refine ⟨σ, fun j hj => ?_, fun j l hj hl e => ?_, fun q hq hc i hi => (place q hq hc i hi).2, fun a b ha hb => ?_,
    fun a m ha hm hno => ?_, fun a ha => ?_⟩
  · obtain ⟨q, hq, hc, i, hi, _, e⟩ := hσ j hj
    have := colStart_le x (hp.variables q hq)
    rw [freeSize_of_nonconst hc] at this
    omega
  · obtain ⟨q, hq, hc, i, hi, e1, e2⟩ := hσ j hj
    obtain ⟨q', hq', hc', i', hi', e1', e2'⟩ := hσ l hl
    by_cases hqq : q' = q
    · subst hqq
      omega
    · have d := colStart_disjoint x hqq (hp.variables q hq) (hp.variables q' hq') (j := i') (by rwa [freeSize_of_nonconst hc'])
      rw [freeSize_of_nonconst hc] at d
      omega
  · refine part_sum hinj he (fun i => J.coeff i (σ a) * J.coeff i (σ b)) (fun i => J'.coeff i a * J'.coeff i b)
      (fun k i hi => ?_) fun k hk i hi => ?_
    · rw [inside k i a hi ha, inside k i b hi hb]
    · rw [outside k hk i hi a ha, zero_mul]
  · rw [sum_rows]
    refine Finset.sum_eq_zero fun k _ => Finset.sum_eq_zero fun i hi => ?_
    have hi : i < facs[k].residualSize := by simpa using hi
    by_cases hk : ∃ k', at_ k' = k
    · obtain ⟨k', rfl⟩ := hk
      rw [apart k' i (by rwa [← he]) m hm hno, mul_zero]
    · rw [outside k (fun k' e => hk ⟨k', e⟩) i hi a ha, zero_mul]
  · refine part_sum hinj he (fun i => J.coeff i (σ a) * r.getD i 0) (fun i => J'.coeff i a * r'.getD i 0)
      (fun k i hi => ?_) fun k hk i hi => ?_
    · rw [inside k i a hi ha, hres k i hi]
    · rw [outside k hk i hi a ha, zero_mul]

/-- A diagonal block of a matrix and the corresponding block of the inverse. -/
theorem inverse_block {n n' : Nat} {A : Matrix (Fin n) (Fin n) ℝ} {B : Matrix (Fin n') (Fin n') ℝ} (σ : Fin n' → Fin n)
    (hinj : Function.Injective σ) (hB : ∀ i j, B i j = A (σ i) (σ j)) (h0 : ∀ i m, (∀ j, σ j ≠ m) → A (σ i) m = 0)
    (hu : IsUnit A) (i j : Fin n') : B⁻¹ i j = A⁻¹ (σ i) (σ j) := by
  have hd := (Matrix.isUnit_iff_isUnit_det _).1 hu
  have e : B * A⁻¹.submatrix σ σ = 1 := by
    ext a b
    have h1 : (A * A⁻¹) (σ a) (σ b) = (1 : Matrix (Fin n') (Fin n') ℝ) a b := by
      rw [mul_nonsing_inv _ hd, Matrix.one_apply, Matrix.one_apply]
      simp [hinj.eq_iff]
    rw [← h1, Matrix.mul_apply, Matrix.mul_apply]
    refine Fintype.sum_of_injective σ hinj _ _ (fun m hm => ?_) fun l => ?_
    · rw [h0 a m fun l e => hm ⟨l, e⟩, zero_mul]
    · rw [hB, Matrix.submatrix_apply]
  rw [Matrix.inv_eq_right_inv e, Matrix.submatrix_apply]

/-- A diagonal block of a system of equations. -/
theorem mulVec_block {n n' : Nat} {A : Matrix (Fin n) (Fin n) ℝ} {B : Matrix (Fin n') (Fin n') ℝ} (σ : Fin n' → Fin n)
    (hinj : Function.Injective σ) (hB : ∀ i j, B i j = A (σ i) (σ j)) (h0 : ∀ i m, (∀ j, σ j ≠ m) → A (σ i) m = 0)
    (y : Fin n → ℝ) (i : Fin n') : (B *ᵥ fun j => y (σ j)) i = (A *ᵥ y) (σ i) := by
  rw [mulVec, mulVec, dotProduct, dotProduct]
  refine Fintype.sum_of_injective σ hinj _ _ (fun m hm => ?_) fun l => ?_
  · rw [h0 i m fun l e => hm ⟨l, e⟩, zero_mul]
  · rw [hB]

/-- Index form of the normal matrix. -/
theorem normal_sum (J : SpMat ℝ) (a b : Fin J.columns.length) :
    ((jacobianMatrix J)ᵀ * jacobianMatrix J) a b = ∑ i ∈ Finset.range J.rows, J.coeff i a * J.coeff i b := by
  rw [Matrix.mul_apply, ← Fin.sum_univ_eq_sum_range (fun i => J.coeff i a * J.coeff i b)]
  rfl

variable {Fact : Type} {L : LinAlg ℝ Fact}

/-- A Gauss-Newton step of the whole graph moves the variables of a part as a step of the part alone does. -/
theorem part_step (hL : ExactLinAlg L) {x x' y y' : Heap V} {vars vars' : List VRef} {facs facs' : List (Factor ℝ V)}
    (hn : vars.Nodup) (hn' : vars'.Nodup) (hp : IndependentPart x vars facs vars' facs') (hx : SamePart vars' facs' x x')
    (hclosed : ∀ f ∈ facs', ∀ q, some q ∈ f.variables → VarLike.isConst (x q) = false → q ∈ vars')
    (hown : ∀ f ∈ facs', LooksAtOwn f) {r r' d d' : List ℝ} {J J' : SpMat ℝ} (h1 : Linearised x vars facs r J)
    (h2 : Linearised x' vars' facs' r' J') (hs : SystemSolved realArith L (L.gram J) (L.rhs J r) d)
    (hs' : SystemSolved realArith L (L.gram J') (L.rhs J' r') d') {c : ℝ} (hst : Stepped x y vars (realArith.scale c d))
    (hst' : Stepped x' y' vars' (realArith.scale c d')) : SamePart vars' facs' y y' := by
  obtain ⟨f, hf, _, _, hd⟩ := hs
  obtain ⟨d0, e1, l1, u1, _⟩ := Props.C25_gauss_newton hL J r f hf
  rw [hd] at e1
  obtain rfl := Option.some.inj e1
  obtain ⟨f', hf', _, _, hd'⟩ := hs'
  obtain ⟨d0', e1', l1', u1', _⟩ := Props.C25_gauss_newton hL J' r' f' hf'
  rw [hd'] at e1'
  obtain rfl := Option.some.inj e1'
  obtain ⟨σ, k1, k2, k3, k4, k5, k6⟩ := part_systems hn hn' hp hx hclosed hown h1 h2
  rw [← h2.columns, ← h1.columns] at k1 k5
  rw [← h2.columns] at k2 k4 k6
  rw [← h1.rows] at k4 k5 k6
  rw [← h2.rows] at k4 k6
  have hσ : Function.Injective fun j : Fin J'.columns.length => (⟨σ j, k1 j j.2⟩ : Fin J.columns.length) :=
    fun j l e => Fin.ext (k2 j l j.2 l.2 (congrArg Fin.val e))
  have sol := (u1 _).2 rfl
  have key := (u1' fun j => asVec J.columns.length d ⟨σ j, k1 j j.2⟩).1 (by
    funext i
    rw [mulVec_block (fun j => ⟨σ j, k1 j j.2⟩) hσ (A := (jacobianMatrix J)ᵀ * jacobianMatrix J), sol, Pi.neg_apply, Pi.neg_apply,
      gradient_apply, gradient_apply, k6 i i.2]
    · intro a b
      rw [normal_sum, normal_sum, k4 a b a.2 b.2]
    · intro a m hm
      rw [normal_sum]
      exact k5 a m a.2 m.2 fun j hj e => hm ⟨j, hj⟩ (Fin.ext e))
  intro q hq
  by_cases hfree : q ∈ vars' ∧ VarLike.isConst (x q) = false
  · obtain ⟨hq', hc⟩ := hfree
    have ex := hx q hq
    have hc' : VarLike.isConst (x' q) = false := by rwa [ex]
    have s1 := (hst q).1 ⟨hp.variables q hq', hc⟩
    have s2 := (hst' q).1 ⟨hq', hc'⟩
    have ed : partOf x' vars' (realArith.scale c d') q = partOf x vars (realArith.scale c d) q := by
      have z1 := partOf_length (x := realArith.scale c d) (by simp [Arith.scale, l1, h1.columns]) (hp.variables q hq') hc
      have z2 := partOf_length (x := realArith.scale c d') (by simp [Arith.scale, l1', h2.columns]) hq' hc'
      rw [ex] at z2
      refine List.ext_getElem (z2.trans z1.symm) fun i hi hi' => ?_
      rw [z2] at hi
      have g1 := partOf_getD x vars (realArith.scale c d) q hi
      have g2 := partOf_getD x' vars' (realArith.scale c d') q (by rwa [ex])
      have scale : ∀ (l : List ℝ) n, (realArith.scale c l).getD n 0 = l.getD n 0 * c := by
        intro l n
        rw [List.getD_eq_getElem?_getD, List.getD_eq_getElem?_getD, Arith.scale, List.getElem?_map]
        cases l[n]? <;> simp [realArith]
      rw [scale] at g1 g2
      have hb := colStart_le x' hq'
      rw [freeSize_of_nonconst hc', ex] at hb
      have hlt : colStart x' vars' q + i < J'.columns.length := by rw [h2.columns]; omega
      have := congrFun key ⟨_, hlt⟩
      simp only [asVec] at this
      rw [k3 q hq' hc i hi] at this
      rw [← this, ← g1, List.getD_eq_getElem?_getD, List.getD_eq_getElem?_getD, List.getElem?_eq_getElem (by rwa [z2]),
        List.getElem?_eq_getElem (by rwa [z1])] at g2
      exact g2
    rw [ed, ex, s1] at s2
    exact (Res.ok.inj s2).symm
  · have hcst : ¬ (q ∈ vars ∧ VarLike.isConst (x q) = false) := by
      rintro ⟨_, hc⟩
      rcases hq with hq | ⟨f, hf, hv⟩
      · exact hfree ⟨hq, hc⟩
      · exact hfree ⟨hclosed f hf q hv hc, hc⟩
    have hcst' : ¬ (q ∈ vars' ∧ VarLike.isConst (x' q) = false) := by
      rw [hx q hq]; exact hfree
    rw [(hst q).2 hcst, (hst' q).2 hcst', hx q hq]

end Factorama
