import Verif.Props.NumericalJacobian
import Mathlib.Analysis.Calculus.Deriv.Prod

/-!
# `detailed_factor_test`: C61 (see also `Verif/Props/FactorTestLimits.lean`)
-/

namespace Factorama.Spec

/-- The comparison `detailed_factor_test` is meant to make between the analytic block `Ja` and the numerical block `Jn`
of the variable `v`: both are empty if the variable is constant; otherwise they have the same dimensions and every entry
differs by less than the tolerance, scaled by the largest numerical entry and at least 0.01. -/
def BlocksAgree (tol : ℝ) (v : RVar) (Ja Jn : Mat ℝ) : Prop :=
  if VarLike.isConst v then Ja.rows * Ja.cols = 0 ∧ Jn.rows * Jn.cols = 0
  else Ja.rows = Jn.rows ∧ Ja.cols = Jn.cols ∧ ∃ M,
    (∀ i < Jn.rows, ∀ j < Jn.cols, |Jn.entry i j| ≤ M) ∧ (∃ i < Jn.rows, ∃ j < Jn.cols, |Jn.entry i j| = M) ∧
    ∀ i < Jn.rows, ∀ j < Jn.cols, |Jn.entry i j - Ja.entry i j| < max 0.01 (M * tol)

/-- The factor passes the test: as many analytic as numerical blocks, and they agree. -/
def FactorPasses (tol : ℝ) (h : Heap RVar) (f : Factor ℝ RVar) : Prop :=
  ∃ Ja Jn, f.computeJacobians h [] = .ok Ja ∧ FactorTest.numericalJacobians realArith f 1e-6 h = (h, .ok Jn) ∧
    Ja.length = Jn.length ∧ ∀ (k : Nat) r A N, f.variables[k]? = some (some r) → Ja[k]? = some A → Jn[k]? = some N →
      BlocksAgree tol (h r) A N

end Factorama.Spec

namespace Factorama.Props
open Spec FactorTest

theorem foldr_max (l : List ℝ) (a : ℝ) : (l.foldr max a = a ∨ l.foldr max a ∈ l) ∧ a ≤ l.foldr max a ∧
    ∀ x ∈ l, x ≤ l.foldr max a := by
  induction l with
  | nil => simp
  | cons b l ih =>
    obtain ⟨h1, h2, h3⟩ := ih
    refine ⟨?_, le_trans h2 (le_max_right _ _), fun x hx => ?_⟩
    · simp only [List.foldr_cons, List.mem_cons]
      rcases max_choice b (l.foldr max a) with e | e <;> rw [e]
      · exact .inr (.inl rfl)
      · rcases h1 with h | h
        · exact .inl h
        · exact .inr (.inr h)
    · rcases List.mem_cons.1 hx with rfl | hx
      · exact le_max_left _ _
      · exact le_trans (h3 x hx) (le_max_right _ _)

theorem maxCoeff_real {l : List ℝ} (hl : l ≠ []) : realArith.maxCoeff l ∈ l ∧ ∀ x ∈ l, x ≤ realArith.maxCoeff l := by
  cases l with
  | nil => exact absurd rfl hl
  | cons a l =>
    obtain ⟨h1, h2, h3⟩ := foldr_max l a
    show List.foldr max a l ∈ _ ∧ ∀ x ∈ a :: l, x ≤ List.foldr max a l
    refine ⟨?_, fun x hx => ?_⟩
    · rcases h1 with h | h
      · rw [h]; exact List.mem_cons_self
      · exact List.mem_cons_of_mem _ h
    · rcases List.mem_cons.1 hx with rfl | hx
      · exact h2
      · exact h3 x hx

theorem mem_entries {J : Mat ℝ} {x : ℝ} : x ∈ entries J ↔ ∃ i < J.rows, ∃ j < J.cols, J.entry i j = x := by
  simp only [entries, List.mem_flatMap, List.mem_map, List.mem_range]
  constructor
  · rintro ⟨j, hj, i, hi, e⟩; exact ⟨i, hi, j, hj, e⟩
  · rintro ⟨i, hi, j, hj, e⟩; exact ⟨j, hj, i, hi, e⟩

theorem checkBlock_iff {tol : ℝ} {v : RVar} {Ja Jn : Mat ℝ} {b : Bool} (h : checkBlock realArith tol v Ja Jn = .ok b) :
    b = true ↔ BlocksAgree tol v Ja Jn := by
  unfold checkBlock at h
  unfold BlocksAgree
  split at h
  · rename_i hc
    rw [if_pos hc]
    simp only [Res.ok.injEq] at h
    rw [← h]; simp
  · rename_i hc
    rw [if_neg hc]
    split at h
    · rename_i hd
      simp only [Res.ok.injEq] at h
      subst h
      simp only [Bool.false_eq_true, false_iff]
      rintro ⟨h1, h2, -⟩
      rcases hd with hd | hd
      · exact hd h1
      · exact hd h2
    · rename_i hd
      push Not at hd
      split at h
      · simp at h
      · rename_i hz
        have hr : 0 < Jn.rows := Nat.pos_of_ne_zero fun e => hz (by rw [e, zero_mul])
        have hcl : 0 < Jn.cols := Nat.pos_of_ne_zero fun e => hz (by rw [e, mul_zero])
        have hne : ∀ J : Mat ℝ, 0 < J.rows → 0 < J.cols → (entries J).map realArith.abs ≠ [] := by
          intro J h1 h2 e
          have : J.entry 0 0 ∈ entries J := mem_entries.2 ⟨0, h1, 0, h2, rfl⟩
          rw [List.map_eq_nil_iff.1 e] at this
          simp at this
        simp only [Res.ok.injEq] at h
        subst h
        obtain ⟨m1, m2⟩ := maxCoeff_real (hne Jn hr hcl)
        obtain ⟨e1, e2⟩ := maxCoeff_real (hne (diffMat realArith Jn Ja) hr hcl)
        generalize realArith.maxCoeff ((entries Jn).map realArith.abs) = M at *
        generalize realArith.maxCoeff ((entries (diffMat realArith Jn Ja)).map realArith.abs) = E at *
        have hM1 : ∀ i < Jn.rows, ∀ j < Jn.cols, |Jn.entry i j| ≤ M := fun i hi j hj =>
          m2 _ (List.mem_map.2 ⟨_, mem_entries.2 ⟨i, hi, j, hj, rfl⟩, rfl⟩)
        have hM2 : ∃ i < Jn.rows, ∃ j < Jn.cols, |Jn.entry i j| = M := by
          obtain ⟨x, hx, rfl⟩ := List.mem_map.1 m1
          obtain ⟨i, hi, j, hj, rfl⟩ := mem_entries.1 hx
          exact ⟨i, hi, j, hj, rfl⟩
        have hE1 : ∀ i < Jn.rows, ∀ j < Jn.cols, |Jn.entry i j - Ja.entry i j| ≤ E := fun i hi j hj =>
          e2 _ (List.mem_map.2 ⟨_, mem_entries.2 ⟨i, hi, j, hj, rfl⟩, rfl⟩)
        have hE2 : ∃ i < Jn.rows, ∃ j < Jn.cols, |Jn.entry i j - Ja.entry i j| = E := by
          obtain ⟨x, hx, rfl⟩ := List.mem_map.1 e1
          obtain ⟨i, hi, j, hj, rfl⟩ := mem_entries.1 hx
          exact ⟨i, hi, j, hj, rfl⟩
        have hs : realArith.stdMax (realArith.lit (1 / 100)) (realArith.mul M tol) = max 0.01 (M * tol) := by
          have : realArith.lit (1 / 100) = 0.01 := by simp [realArith]; norm_num
          rw [this]
          simp only [Arith.stdMax, realArith, decide_eq_true_eq]
          split
          · rename_i hlt; exact (max_eq_right hlt.le).symm
          · rename_i hlt; exact (max_eq_left (not_lt.1 hlt)).symm
        rw [hs]
        have hle : (!realArith.le (max 0.01 (M * tol)) E) = true ↔ E < max 0.01 (M * tol) := by
          simp [realArith]
        rw [hle]
        constructor
        · intro hlt
          exact ⟨hd.1, hd.2, M, hM1, hM2, fun i hi j hj => lt_of_le_of_lt (hE1 i hi j hj) hlt⟩
        · rintro ⟨-, -, M', hM1', ⟨i, hi, j, hj, e⟩, hall⟩
          have : M' = M := by
            refine le_antisymm (e ▸ hM1 i hi j hj) ?_
            obtain ⟨i', hi', j', hj', e'⟩ := hM2
            exact e' ▸ hM1' i' hi' j' hj'
          subst this
          obtain ⟨i', hi', j', hj', e'⟩ := hE2
          exact e' ▸ hall i' hi' j' hj'

theorem checkBlocks_iff {tol : ℝ} {h : Heap RVar} {vs : List (Option VRef)} {Jas Jns : List (Mat ℝ)} {b : Bool}
    (hlen : Jas.length = Jns.length) (hok : checkBlocks realArith tol h vs Jas Jns = .ok b) :
    b = true ↔ ∀ (k : Nat) r A N, vs[k]? = some (some r) → Jas[k]? = some A → Jns[k]? = some N →
      BlocksAgree tol (h r) A N := by
  induction Jas generalizing vs Jns b with
  | nil =>
    cases Jns with
    | cons _ _ => simp at hlen
    | nil =>
      have : b = true := by
        cases vs with
        | nil => simpa [checkBlocks] using hok.symm
        | cons v vs => cases v <;> simpa [checkBlocks] using hok.symm
      simp [this]
  | cons Ja Jas ih =>
    cases Jns with
    | nil => simp at hlen
    | cons Jn Jns =>
      cases vs with
      | nil => simp [checkBlocks] at hok
      | cons v vs =>
        cases v with
        | none => simp [checkBlocks] at hok
        | some r =>
          simp only [checkBlocks] at hok
          generalize e1 : checkBlock realArith tol (h r) Ja Jn = c1 at hok
          cases c1 with
          | threw => simp at hok
          | ub => simp at hok
          | ok b1 =>
            simp only [] at hok
            generalize e2 : checkBlocks realArith tol h vs Jas Jns = c2 at hok
            cases c2 with
            | threw => simp at hok
            | ub => simp at hok
            | ok b2 =>
              simp only [Res.ok.injEq] at hok
              subst hok
              rw [Bool.and_eq_true, checkBlock_iff e1, ih (by simpa using hlen) e2]
              constructor
              · rintro ⟨h0, hs⟩ k r' A N hv hA hN
                cases k with
                | zero => simp at hv hA hN; subst hv hA hN; exact h0
                | succ k => exact hs k r' A N (by simpa using hv) (by simpa using hA) (by simpa using hN)
              · intro hall
                exact ⟨hall 0 r Ja Jn rfl rfl rfl, fun k r' A N hv hA hN =>
                  hall (k + 1) r' A N (by simpa using hv) (by simpa using hA) (by simpa using hN)⟩

theorem testFactor_iff {tol : ℝ} {f : Factor ℝ RVar} {h h' : Heap RVar} {b : Bool} (hw : AllWriteBack f h)
    (hok : testFactor realArith tol f h = (h', .ok b)) : h' = h ∧ (b = true ↔ FactorPasses tol h f) := by
  have heps : realArith.lit (1 / 1000000) = 1e-6 := by simp [realArith]; norm_num
  simp only [testFactor, bind_ok, SE.get, SE.lift, Prod.mk.injEq, Res.ok.injEq, heps] at hok
  obtain ⟨_, _, ⟨rfl, rfl⟩, _, Ja, ⟨rfl, hJa⟩, h2, Jn, hJn, hok⟩ := hok
  obtain ⟨rfl, -⟩ := C60_restores _ _ _ hw hJn
  have huniq : FactorPasses tol h2 f ↔ Ja.length = Jn.length ∧ ∀ (k : Nat) r A N, f.variables[k]? = some (some r) →
      Ja[k]? = some A → Jn[k]? = some N → BlocksAgree tol (h2 r) A N := by
    constructor
    · rintro ⟨Ja', Jn', h1, h3, h4⟩
      rw [hJa] at h1; rw [hJn] at h3
      simp only [Res.ok.injEq, Prod.mk.injEq, true_and] at h1 h3
      subst h1 h3
      exact h4
    · exact fun h4 => ⟨Ja, Jn, hJa, hJn, h4⟩
  rw [huniq]
  split at hok
  · rename_i hl
    simp only [SE.ret, Prod.mk.injEq, Res.ok.injEq] at hok
    obtain ⟨rfl, rfl⟩ := hok
    exact ⟨rfl, by simp [hl]⟩
  · rename_i hl
    push Not at hl
    simp only [bind_ok, SE.get, SE.lift, Prod.mk.injEq, Res.ok.injEq] at hok
    obtain ⟨_, _, ⟨rfl, rfl⟩, rfl, hok⟩ := hok
    refine ⟨rfl, ?_⟩
    rw [checkBlocks_iff hl hok]
    simp [hl]

/-- **C61** For every graph whose variables write back exactly (every library class except rotation variables, C41):
`detailed_factor_test` leaves all variables unchanged and returns true exactly if every factor passes, that is, if it has
as many analytic as numerical blocks and they agree up to the scaled tolerance. -/
theorem C61_sound_partial (g : Graph ℝ RVar) (tol : ℝ) {h h' : Heap RVar} {b : Bool} (hw : ∀ f ∈ g.facs, AllWriteBack f h)
    (hok : detailedFactorTest realArith g tol h = (h', .ok b)) : h' = h ∧ (b = true ↔ ∀ f ∈ g.facs, FactorPasses tol h f) := by
  unfold detailedFactorTest at hok
  split at hok
  · simp [SE.throw] at hok
  · clear * - hw hok
    generalize g.facs = fs at *
    induction fs generalizing b h' with
    | nil =>
      simp only [testFactors, SE.ret, Prod.mk.injEq, Res.ok.injEq] at hok
      obtain ⟨rfl, rfl⟩ := hok
      simp
    | cons f fs ih =>
      simp only [testFactors, bind_ok, SE.ret, Prod.mk.injEq, Res.ok.injEq] at hok
      obtain ⟨h1, b1, hf, h2, b2, hfs, rfl, rfl⟩ := hok
      obtain ⟨rfl, hb1⟩ := testFactor_iff (hw f (by simp)) hf
      obtain ⟨rfl, hb2⟩ := ih (fun f hf => hw f (List.mem_cons_of_mem _ hf)) hfs
      refine ⟨rfl, ?_⟩
      rw [Bool.and_eq_true, hb1, hb2]
      simp

theorem ofFn_single {n : Nat} (k : Fin n) (t : ℝ) : List.ofFn (t • (Pi.single k 1 : Fin n → ℝ)) = unitStep n k t := by
  apply List.ext_getElem (by simp [unitStep])
  intro i h1 h2
  have hi : i < n := by simpa using h1
  simp only [List.getElem_ofFn, unitStep, List.getElem_set, List.getElem_replicate, Pi.smul_apply, Pi.single_apply, smul_eq_mul]
  by_cases h : (k : Nat) = i
  · rw [if_pos h, if_pos (Fin.ext h.symm), mul_one]
  · rw [if_neg h, if_neg (fun e => h (by rw [← e])), mul_zero]

theorem residualAfterIncr_eq (f : Factor ℝ RVar) (h : Heap RVar) (r : VRef) (dx : List ℝ) :
    residualAfterIncr f h r dx = residualAfter codeIncr f h r dx := by
  simp only [residualAfterIncr, residualAfter, codeIncr]
  cases VarLike.applyIncr (h r) dx <;> rfl

/-- The entries of a correct block are the derivatives of the residual along the axes of the increment. -/
theorem isDerivative_axis {f : Factor ℝ RVar} {h : Heap RVar} {r : VRef} {J : Mat ℝ} (hd : IsDerivative codeIncr f h r J)
    (i : Nat) (hi : i < J.rows) (k : Nat) (hk : k < J.cols) : HasDerivAt (residualEntry f h r k i) (J.entry i k) 0 := by
  obtain ⟨-, hc, F, -, hev, hF⟩ := hd
  let γ : ℝ → Fin J.cols → ℝ := fun t => t • (Pi.single (⟨k, hk⟩ : Fin J.cols) 1 : Fin J.cols → ℝ)
  have hγ : HasDerivAt γ (Pi.single ⟨k, hk⟩ 1) 0 := by
    simpa using (hasDerivAt_id (0 : ℝ)).smul_const (Pi.single (⟨k, hk⟩ : Fin J.cols) (1 : ℝ) : Fin J.cols → ℝ)
  have hγ0 : γ 0 = 0 := zero_smul _ _
  have h1 : HasDerivAt (fun t => F (γ t)) (jac (Matrix.of fun (i : Fin J.rows) (j : Fin J.cols) => J.entry i j) (Pi.single ⟨k, hk⟩ 1)) 0 := by
    have hF' : HasFDerivAt F (jac (Matrix.of fun (i : Fin J.rows) (j : Fin J.cols) => J.entry i j)) (γ 0) := by rw [hγ0]; exact hF
    exact hF'.comp_hasDerivAt 0 hγ
  have h2 := (hasDerivAt_pi.1 h1) ⟨i, hi⟩
  have e : jac (Matrix.of fun (i : Fin J.rows) (j : Fin J.cols) => J.entry i j) (Pi.single ⟨k, hk⟩ 1) ⟨i, hi⟩ = J.entry i k := by
    simp [jac]
  rw [e] at h2
  refine h2.congr_of_eventuallyEq ?_
  have hcont : Filter.Tendsto γ (nhds 0) (nhds 0) := by
    have := hγ.continuousAt.tendsto
    rwa [hγ0] at this
  filter_upwards [hcont.eventually hev] with t ht
  rw [ofFn_single] at ht
  have : residualAfterIncr f h r (unitStep (VarLike.size (h r)) k t) = .ok (List.ofFn (F (γ t))) := by
    rw [← show J.cols = VarLike.size (h r) from hc, residualAfterIncr_eq]
    exact ht
  simp [residualEntry, this, hi, List.getD_eq_getElem?_getD]

theorem checkBlock_same {tol : ℝ} {v : RVar} {Ja Jn : Mat ℝ} (hc : VarLike.isConst v = false) (hr : Ja.rows = Jn.rows)
    (hl : Ja.cols = Jn.cols) (h0 : 0 < Jn.rows) (h1 : 0 < Jn.cols)
    (he : ∀ i < Jn.rows, ∀ j < Jn.cols, Jn.entry i j = Ja.entry i j) : checkBlock realArith tol v Ja Jn = .ok true := by
  obtain ⟨b, hb⟩ : ∃ b, checkBlock realArith tol v Ja Jn = .ok b := by
    unfold checkBlock
    rw [if_neg (by simp [hc]), if_neg (by simp [hr, hl]), if_neg (Nat.mul_pos h0 h1).ne']
    exact ⟨_, rfl⟩
  have : b = true := by
    rw [checkBlock_iff hb, BlocksAgree, if_neg (by simp [hc])]
    have hne : (entries Jn).map (fun x => |x|) ≠ [] := by
      intro e
      have : Jn.entry 0 0 ∈ entries Jn := mem_entries.2 ⟨0, h0, 0, h1, rfl⟩
      rw [List.map_eq_nil_iff.1 e] at this
      simp at this
    obtain ⟨m1, m2⟩ := maxCoeff_real hne
    refine ⟨hr, hl, _, fun i hi j hj => m2 _ (List.mem_map.2 ⟨_, mem_entries.2 ⟨i, hi, j, hj, rfl⟩, rfl⟩), ?_, fun i hi j hj => ?_⟩
    · obtain ⟨x, hx, e⟩ := List.mem_map.1 m1
      obtain ⟨i, hi, j, hj, rfl⟩ := mem_entries.1 hx
      exact ⟨i, hi, j, hj, e⟩
    · rw [he i hi j hj, sub_self, abs_zero]
      exact lt_max_of_lt_left (by norm_num)
  rw [hb, this]

/-- **C61**, the other direction: a finalized graph passes for every tolerance if each of its factors has correct
Jacobians, a residual that is quadratic along the axes of its variables, and no block without entries. -/
theorem C61_correct_passes (g : Graph ℝ RVar) (tol : ℝ) {h : Heap RVar} (hfin : g.finalized = true)
    (hf : ∀ f ∈ g.facs, AllWriteBack f h ∧ JacobiansCorrect codeIncr f h ∧ 0 < f.residualSize ∧
      (∃ r0, f.computeResidual h = .ok r0 ∧ r0.length = f.residualSize) ∧
      ∀ r, some r ∈ f.variables → VarLike.isConst (h r) = false → 0 < VarLike.size (h r) ∧ QuadraticIn f h r) :
    detailedFactorTest realArith g tol h = (h, .ok true) := by
  have heps : realArith.lit (1 / 1000000) = 1e-6 := by simp [realArith]; norm_num
  unfold detailedFactorTest
  rw [if_neg (by simp [hfin])]
  clear hfin
  generalize g.facs = fs at hf
  induction fs with
  | nil => rfl
  | cons f fs ih =>
    refine bind_ok.2 ⟨h, true, ?_, bind_ok.2 ⟨h, true, ih fun f hf' => hf f (List.mem_cons_of_mem _ hf'), rfl⟩⟩
    obtain ⟨hw, hJ, hm, ⟨r0, h0, hl⟩, hv⟩ := hf f (by simp)
    obtain ⟨Ja, hJa, hA⟩ := hJ []
    have hnull : none ∉ f.variables := by
      intro hn
      obtain ⟨k, hk, e⟩ := List.getElem_of_mem hn
      obtain ⟨r, hr, -⟩ := (List.forall₂_iff_get.1 hA).2 k hk (by rw [← hA.length_eq]; exact hk)
      rw [List.get_eq_getElem, e] at hr
      simp at hr
    obtain ⟨Jn, hJn, hN⟩ := C60_exact f 1e-6 (by norm_num) hw hnull h0 hl fun r hr hc => (hv r hr hc).2
    simp only [testFactor, bind_ok, SE.get, SE.lift, Prod.mk.injEq, Res.ok.injEq, heps]
    refine ⟨_, _, ⟨rfl, rfl⟩, _, Ja, ⟨rfl, hJa⟩, h, Jn, hJn, ?_⟩
    rw [if_neg (by rw [← hA.length_eq, ← hN.length_eq]; simp)]
    refine bind_ok.2 ⟨_, _, rfl, ?_⟩
    show (h, _) = (h, _)
    congr 1
    clear hJa hJn hnull
    have hv' : ∀ r, some r ∈ f.variables → VarLike.isConst (h r) = false → 0 < VarLike.size (h r) := fun r hr hc => (hv r hr hc).1
    clear hv hw hJ
    generalize f.variables = vs at hA hN hv'
    induction hA generalizing Jn with
    | nil => rfl
    | @cons v J vs Js h1 h2 ih2 =>
      obtain ⟨r, rfl, hJr⟩ := h1
      cases hN with
      | @cons _ N _ Ns g1 g2 =>
        obtain ⟨r', e, hNr⟩ := g1
        cases e
        have hb : checkBlock realArith tol (h r) J N = .ok true := by
          by_cases hc : VarLike.isConst (h r) = true
          · rw [if_pos hc] at hJr hNr
            subst hJr hNr
            unfold checkBlock
            rw [if_pos hc]; rfl
          · rw [if_neg hc] at hJr hNr
            have hc' : VarLike.isConst (h r) = false := by simpa using hc
            refine checkBlock_same hc' (hJr.1.trans hNr.1.symm) (hJr.2.1.trans hNr.2.1.symm) (hNr.1 ▸ hm)
              (hNr.2.1 ▸ hv' r (by simp) hc') fun i hi j hj => ?_
            exact (hNr.2.2 i hi j hj).unique
              (isDerivative_axis hJr i (by rw [hJr.1, ← hNr.1]; exact hi) j (by rw [hJr.2.1, ← hNr.2.1]; exact hj))
        simp only [checkBlocks, hb, ih2 _ g2 fun r hr hc => hv' r (List.mem_cons_of_mem _ hr) hc, Bool.and_self]

/-- A graph with a prior on a vector of two entries passes. -/
theorem C61.passes : detailedFactorTest realArith
    { (Graph.init : Graph ℝ RVar) with finalized := true, facs := [C60.factor] } 1e-3 C60.heap = (C60.heap, .ok true) := by
  refine C61_correct_passes _ _ rfl fun f hf => ?_
  have hf : f = C60.factor := by simpa using hf
  subst hf
  refine ⟨C60.writeBack, C42_jacobian_partial C60.heap 1 0 ![5, 7] ![3, 4] 0.5 (.inl ⟨_, rfl, rfl⟩) rfl _ .code, ?_,
    ⟨_, C60.residual, rfl⟩, fun r hr _ => ?_⟩
  · show 0 < (toList ![(3 : ℝ), 4]).length
    simp [toList]
  · simp [C60.factor, genericPrior] at hr
    subst hr
    exact ⟨by show 0 < (toList ![(5 : ℝ), 7]).length; simp [toList], C60.quadratic⟩

example : ∀ f ∈ [C60.factor], FactorPasses 1e-3 C60.heap f :=
  (C61_sound_partial _ _ (fun f hf => by rw [show f = C60.factor by simpa using hf]; exact C60.writeBack) C61.passes).2.1 rfl

end Factorama.Props
