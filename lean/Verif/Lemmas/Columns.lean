import Verif.Lemmas.StackedProduct
import Verif.Lemmas.Order
import Verif.Lemmas.AffineStep
import Verif.Props.NormalEquations

/-! Helper lemmas: the same graph with its variables, and so the columns of its Jacobian, in another order. -/

namespace Factorama
open Spec Matrix
variable {V Fact : Type} [VarLike ℝ V] {L : LinAlg ℝ Fact}

/-- Two vectors that consist of the same increments, for two orders of the variables. -/
def Matching (h : Heap V) (vars vars' : List VRef) (x x' : Nat → ℝ) : Prop :=
  ∀ r ∈ vars, VarLike.isConst (h r) = false → ∀ j < VarLike.size (h r),
    x (colStart h vars r + j) = x' (colStart h vars' r + j)

omit [VarLike ℝ V] in
theorem sum_range_list (n : Nat) (φ : Nat → ℝ) : ∑ a ∈ Finset.range n, φ a = ((List.range n).map φ).sum := rfl

theorem freeTotal_perm (h : Heap V) {vars vars' : List VRef} (hp : vars.Perm vars') : freeTotal h vars = freeTotal h vars' :=
  (hp.map _).sum_nat

theorem Matching.symm {h : Heap V} {vars vars' : List VRef} {x x' : Nat → ℝ} (hp : vars.Perm vars')
    (hm : Matching h vars vars' x x') : Matching h vars' vars x' x :=
  fun r hr hc j hj => (hm r (hp.mem_iff.2 hr) hc j hj).symm

/-- Inner products do not depend on the order. -/
theorem Matching.dot {h : Heap V} {vars vars' : List VRef} (hp : vars.Perm vars') (hn : vars.Nodup) {x x' y y' : Nat → ℝ}
    (hx : Matching h vars vars' x x') (hy : Matching h vars vars' y y') :
    ∑ c ∈ Finset.range (freeTotal h vars), y c * x c = ∑ c ∈ Finset.range (freeTotal h vars'), y' c * x' c := by
  rw [sum_columns h vars hn, sum_columns h vars' (hp.nodup_iff.1 hn), List.toFinset_eq_of_perm _ _ hp]
  refine Finset.sum_congr rfl fun r hr => Finset.sum_congr rfl fun j hj => ?_
  have hr' : r ∈ vars := hp.mem_iff.2 (by simpa using hr)
  have hj' : j < freeSize (h r) := by simpa using hj
  have hc := Graph.nonconst_of_freeSize hj'
  rw [Graph.freeSize_of_nonconst hc] at hj'
  rw [hx r hr' hc j hj', hy r hr' hc j hj']

/-- A row of the Jacobian times a vector does not depend on the order. -/
theorem Matching.row {h : Heap V} {vars vars' : List VRef} (hp : vars.Perm vars') (hn : vars.Nodup)
    {facs facs' : List (Factor ℝ V)} {blocks blocks' : Nat → List (Mat ℝ)} {M M' : Nat → Nat → ℝ}
    (hb : ∀ (k : Nat) f, facs[k]? = some f → f.computeJacobians h [] = .ok (blocks k) ∧ ProperBlocks h f (blocks k))
    (hb' : ∀ (k : Nat) f, facs'[k]? = some f → f.computeJacobians h [] = .ok (blocks' k) ∧ ProperBlocks h f (blocks' k))
    (hst : IsStackedJacobian h vars facs blocks M) (hst' : IsStackedJacobian h vars' facs' blocks' M')
    (hnr : NoRepeats facs) (hmem : ∀ f ∈ facs, ∀ r, some r ∈ f.variables → VarLike.isConst (h r) = false → r ∈ vars)
    {x x' : Nat → ℝ} (hx : Matching h vars vars' x x')
    {k k' : Nat} {f : Factor ℝ V} (hk : facs[k]? = some f) (hk' : facs'[k']? = some f) {i : Nat} (hi : i < f.residualSize) :
    ∑ c ∈ Finset.range (freeTotal h vars), M (rowStart facs k + i) c * x c =
      ∑ c ∈ Finset.range (freeTotal h vars'), M' (rowStart facs' k' + i) c * x' c := by
  have hf := List.mem_of_getElem? hk
  rw [stacked_mulVec hn hst hk (hb k f hk).2 (hnr f hf) (hmem f hf) hi,
    stacked_mulVec (hp.nodup_iff.1 hn) hst' hk' (hb' k' f hk').2 (hnr f hf)
      (fun r h1 h2 => hp.mem_iff.1 (hmem f hf r h1 h2)) hi]
  have hbb : blocks' k' = blocks k := by
    have e1 := (hb k f hk).1
    rw [(hb' k' f hk').1] at e1
    exact Res.ok.inj e1
  rw [hbb]
  refine Finset.sum_congr rfl fun p _ => ?_
  unfold contribution
  cases e : f.variables[p]? with
  | none => rfl
  | some o =>
    cases o with
    | none => rfl
    | some r =>
      dsimp only
      cases hc : VarLike.isConst (h r) with
      | true => rfl
      | false =>
        simp only [Bool.false_eq_true, if_false]
        refine Finset.sum_congr rfl fun j hj => ?_
        rw [hx r (hmem f hf r (List.mem_of_getElem? e) hc) hc j (by simpa using hj)]

/-- The normal equations tested with a vector `y`. -/
noncomputable def weakForm (J : SpMat ℝ) (r : List ℝ) (lambda : ℝ) (n : Nat) (d y : Nat → ℝ) : ℝ :=
  (∑ a ∈ Finset.range J.rows, (∑ c ∈ Finset.range n, J.coeff a c * y c) *
    ((∑ c ∈ Finset.range n, J.coeff a c * d c) + r.getD a 0)) + lambda * ∑ c ∈ Finset.range n, y c * d c

theorem weakForm_eq (J : SpMat ℝ) (r : List ℝ) (lambda : ℝ) (d y : Nat → ℝ) :
    weakForm J r lambda J.columns.length d y = (fun c : Fin J.columns.length => y c) ⬝ᵥ
      (((jacobianMatrix J)ᵀ * jacobianMatrix J + lambda • 1) *ᵥ (fun c : Fin J.columns.length => d c) + gradient J r) := by
  have e : ∀ x : Nat → ℝ, ∀ a : Fin J.rows, ∑ c ∈ Finset.range J.columns.length, J.coeff a c * x c =
      (jacobianMatrix J *ᵥ fun c : Fin J.columns.length => x c) a := fun x a => by
    rw [Finset.sum_range]; rfl
  have t : ∀ (x : Fin J.columns.length → ℝ) (z : Fin J.rows → ℝ),
      x ⬝ᵥ ((jacobianMatrix J)ᵀ *ᵥ z) = (jacobianMatrix J *ᵥ x) ⬝ᵥ z := fun x z => by
    rw [dotProduct_mulVec, vecMul_transpose]
  rw [add_mulVec, ← mulVec_mulVec, smul_mulVec, one_mulVec, dotProduct_add, dotProduct_add, dotProduct_smul, gradient, t, t]
  unfold weakForm
  rw [Finset.sum_range, Finset.sum_range (n := J.columns.length)]
  simp only [e, mul_add, Finset.sum_add_distrib]
  rw [smul_eq_mul]
  simp only [dotProduct, asVec]
  ring

/-- The weak form does not depend on the order. -/
theorem weakForm_order {h : Heap V} {vars vars' : List VRef} (hp : vars.Perm vars') (hn : vars.Nodup)
    {facs facs' : List (Factor ℝ V)} (hpf : facs.Perm facs') {r r' : List ℝ} {J J' : SpMat ℝ}
    (hlin : Linearised h vars facs r J) (hlin' : Linearised h vars' facs' r' J')
    (hnr : NoRepeats facs) (hmem : ∀ f ∈ facs, ∀ r, some r ∈ f.variables → VarLike.isConst (h r) = false → r ∈ vars)
    (lambda : ℝ) {d d' y y' : Nat → ℝ} (hd : Matching h vars vars' d d') (hy : Matching h vars vars' y y') :
    weakForm J r lambda J.columns.length d y = weakForm J' r' lambda J'.columns.length d' y' := by
  obtain ⟨blocks, hb, hst⟩ := hlin.jacobian
  obtain ⟨blocks', hb', hst'⟩ := hlin'.jacobian
  unfold weakForm
  rw [hlin.columns, hlin'.columns, hd.dot hp hn hy, hlin.rows, hlin'.rows]
  congr 1
  rw [sum_range_list, sum_range_list]
  refine (perm_rows hpf ?_ ?_).sum_eq
  · intro k k' f hk hk' i hi
    have e := fun {x : Nat → ℝ} => Matching.row (.refl vars) hn hb hb hst hst hnr hmem
      (x := x) (x' := x) (fun _ _ _ _ _ => rfl) hk hk' hi
    rw [e, e, List.getD_eq_getElem?_getD, List.getD_eq_getElem?_getD, residual_row hlin.residual hlin.residual hk hk' hi]
  · intro k k' f hk hk' i hi
    rw [hd.row hp hn hb hb' hst hst' hnr hmem hk hk' hi, hy.row hp hn hb hb' hst hst' hnr hmem hk hk' hi,
      List.getD_eq_getElem?_getD, List.getD_eq_getElem?_getD, residual_row hlin.residual hlin'.residual hk hk' hi]

/-- The entries of a part. -/
theorem partOf_getD (h : Heap V) (vars : List VRef) (x : List ℝ) (r : VRef) {j : Nat} (hj : j < VarLike.size (h r)) :
    (partOf h vars x r).getD j 0 = x.getD (colStart h vars r + j) 0 := by
  simp [partOf, List.getD_eq_getElem?_getD, hj]

theorem partOf_length {h : Heap V} {vars : List VRef} {x : List ℝ} (hx : x.length = freeTotal h vars) {r : VRef}
    (hr : r ∈ vars) (hc : VarLike.isConst (h r) = false) : (partOf h vars x r).length = VarLike.size (h r) := by
  have := colStart_le h hr
  rw [Graph.freeSize_of_nonconst hc] at this
  simp only [partOf, List.length_take, List.length_drop]
  omega

/-- Every vector can be rearranged for another order. -/
theorem exists_matching {h : Heap V} {vars vars' : List VRef} (hp : vars.Perm vars') {d : List ℝ}
    (hd : d.length = freeTotal h vars) :
    ∃ d' : List ℝ, d'.length = freeTotal h vars' ∧ Matching h vars vars' (fun c => d.getD c 0) (fun c => d'.getD c 0) ∧
      ∀ r ∈ vars, VarLike.isConst (h r) = false → partOf h vars' d' r = partOf h vars d r := by
  have hl : ∀ r ∈ vars', VarLike.isConst (h r) = false → (partOf h vars d r).length = VarLike.size (h r) :=
    fun r hr hc => partOf_length hd (hp.mem_iff.2 hr) hc
  have hparts : ∀ r ∈ vars, VarLike.isConst (h r) = false →
      partOf h vars' (allFree h vars' (partOf h vars d)) r = partOf h vars d r :=
    fun r hr hc => partOf_allFree h hl (hp.mem_iff.1 hr) hc
  refine ⟨allFree h vars' (partOf h vars d), allFree_length h hl, fun r hr hc j hj => ?_, hparts⟩
  dsimp only
  rw [← partOf_getD h vars d r hj, ← partOf_getD h vars' _ r hj, hparts r hr hc]

/-- Lengths before and after multiplication with the Jacobian do not depend on the order. -/
theorem stretch_order {h : Heap V} {vars vars' : List VRef} (hp : vars.Perm vars') (hn : vars.Nodup)
    {facs facs' : List (Factor ℝ V)} (hpf : facs.Perm facs') {r r' : List ℝ} {J J' : SpMat ℝ}
    (hlin : Linearised h vars facs r J) (hlin' : Linearised h vars' facs' r' J')
    (hnr : NoRepeats facs) (hmem : ∀ f ∈ facs, ∀ r, some r ∈ f.variables → VarLike.isConst (h r) = false → r ∈ vars)
    {d d' : List ℝ} (hd : Matching h vars vars' (fun c => d.getD c 0) (fun c => d'.getD c 0)) :
    asVec J.columns.length d ⬝ᵥ asVec J.columns.length d = asVec J'.columns.length d' ⬝ᵥ asVec J'.columns.length d' ∧
    (jacobianMatrix J *ᵥ asVec J.columns.length d) ⬝ᵥ (jacobianMatrix J *ᵥ asVec J.columns.length d) =
      (jacobianMatrix J' *ᵥ asVec J'.columns.length d') ⬝ᵥ (jacobianMatrix J' *ᵥ asVec J'.columns.length d') := by
  have e : ∀ (J : SpMat ℝ) (d : List ℝ), asVec J.columns.length d ⬝ᵥ asVec J.columns.length d =
      ∑ c ∈ Finset.range J.columns.length, d.getD c 0 * d.getD c 0 := fun J d => by
    rw [Finset.sum_range]; rfl
  obtain ⟨blocks, hb, hst⟩ := hlin.jacobian
  obtain ⟨blocks', hb', hst'⟩ := hlin'.jacobian
  have e2 : ∀ (J : SpMat ℝ) (d : List ℝ),
      (jacobianMatrix J *ᵥ asVec J.columns.length d) ⬝ᵥ (jacobianMatrix J *ᵥ asVec J.columns.length d) =
      ∑ a ∈ Finset.range J.rows, (∑ c ∈ Finset.range J.columns.length, J.coeff a c * d.getD c 0) *
        (∑ c ∈ Finset.range J.columns.length, J.coeff a c * d.getD c 0) := fun J d => by
    rw [Finset.sum_range]
    refine Finset.sum_congr rfl fun a _ => ?_
    rw [Finset.sum_range]; rfl
  refine ⟨?_, ?_⟩
  · rw [e, e, hlin.columns, hlin'.columns]
    exact hd.dot hp hn hd
  · rw [e2, e2, hlin.columns, hlin'.columns, hlin.rows, hlin'.rows, sum_range_list, sum_range_list]
    refine (perm_rows hpf ?_ ?_).sum_eq
    · intro k k' f hk hk' i hi
      have e := fun {x : Nat → ℝ} => Matching.row (.refl vars) hn hb hb hst hst hnr hmem
        (x := x) (x' := x) (fun _ _ _ _ _ => rfl) hk hk' hi
      rw [e]
    · intro k k' f hk hk' i hi
      rw [hd.row hp hn hb hb' hst hst' hnr hmem hk hk' hi]

/-- The only solution of the normal equations. -/
structure OnlySolution (J : SpMat ℝ) (r : List ℝ) (lambda : ℝ) (d : List ℝ) : Prop where
  length : d.length = J.columns.length
  only : ∀ y : Fin J.columns.length → ℝ, ((jacobianMatrix J)ᵀ * jacobianMatrix J + lambda • 1) *ᵥ y = -gradient J r ↔
    y = asVec J.columns.length d

/-- The solution is the same in every order. -/
theorem OnlySolution.order {h : Heap V} {vars vars' : List VRef} (hp : vars.Perm vars') (hn : vars.Nodup)
    {facs facs' : List (Factor ℝ V)} (hpf : facs.Perm facs') {r r' : List ℝ} {J J' : SpMat ℝ}
    (hlin : Linearised h vars facs r J) (hlin' : Linearised h vars' facs' r' J')
    (hnr : NoRepeats facs) (hmem : ∀ f ∈ facs, ∀ r, some r ∈ f.variables → VarLike.isConst (h r) = false → r ∈ vars)
    {lambda : ℝ} {d d' : List ℝ} (hd : OnlySolution J r lambda d) (hd' : OnlySolution J' r' lambda d') :
    Matching h vars vars' (fun c => d.getD c 0) (fun c => d'.getD c 0) ∧
    ∀ v ∈ vars, VarLike.isConst (h v) = false → partOf h vars' d' v = partOf h vars d v := by
  obtain ⟨d2, hl2, hm, hparts⟩ := exists_matching hp (hd.length.trans hlin.columns)
  have hl2' : d2.length = J'.columns.length := hl2.trans hlin'.columns.symm
  suffices hs : asVec J'.columns.length d2 = asVec J'.columns.length d' by
    obtain rfl : d2 = d' := by
      apply List.ext_getElem (hl2'.trans hd'.length.symm)
      intro i h1 h2
      have := congrFun hs ⟨i, hl2' ▸ h1⟩
      simpa [asVec, h1, h2] using this
    exact ⟨hm, hparts⟩
  rw [← hd'.only]
  have key : ∀ y : Fin J'.columns.length → ℝ, y ⬝ᵥ (((jacobianMatrix J')ᵀ * jacobianMatrix J' + lambda • 1) *ᵥ
      asVec J'.columns.length d2 + gradient J' r') = 0 := by
    intro y
    obtain ⟨y2, hy2, hym, _⟩ := exists_matching (h := h) hp.symm (d := List.ofFn y) (by simp [hlin'.columns])
    have e := weakForm_order hp hn hpf hlin hlin' hnr hmem lambda hm (hym.symm hp.symm)
    rw [weakForm_eq, weakForm_eq] at e
    have ey : (fun c : Fin J'.columns.length => (List.ofFn y).getD c 0) = y := by
      funext c
      simp [List.getD_eq_getElem?_getD]
    rw [ey] at e
    refine Eq.trans e.symm ?_
    have := (hd.only _).2 rfl
    show _ ⬝ᵥ (_ *ᵥ asVec J.columns.length d + _) = 0
    rw [this, neg_add_cancel, dotProduct_zero]
  exact eq_neg_of_add_eq_zero_left (dotProduct_self_eq_zero.1 (key _))

theorem onlySolution_undamped (hL : ExactLinAlg L) {J : SpMat ℝ} {r d : List ℝ}
    (h : SystemSolved realArith L (L.gram J) (L.rhs J r) d) : OnlySolution J r 0 d := by
  obtain ⟨f, hf, _, _, hs⟩ := h
  obtain ⟨d', h1, h2, h3, _⟩ := Props.C25_gauss_newton hL J r f hf
  obtain rfl : d' = d := Option.some.inj (h1.symm.trans hs)
  exact ⟨h2, by simpa using h3⟩

theorem onlySolution_damped (hL : ExactLinAlg L) {J : SpMat ℝ} {r d : List ℝ} {lambda : ℝ} (hl : 0 < lambda)
    (h : SystemSolved realArith L (damped realArith (L.gram J) lambda) (L.rhs J r) d) : OnlySolution J r lambda d := by
  obtain ⟨f, hf, _, _, hs⟩ := h
  obtain ⟨f', d', h0, h1, h2, h3, _⟩ := Props.C25_damped hL J r lambda hl
  obtain rfl : f' = f := Option.some.inj (h0.symm.trans hf)
  obtain rfl : d' = d := Option.some.inj (h1.symm.trans hs)
  exact ⟨h2, h3⟩

end Factorama
