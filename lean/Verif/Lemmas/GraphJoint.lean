import Verif.Lemmas.GraphDerivative
import Verif.Spec.Steps

/-!
# All variables of a graph move at once
-/

namespace Factorama
open Spec Geo Matrix Topology Filter

/-- The part of a vector of all free values that lies at `n` columns from `c` on. -/
noncomputable def slice (N c n : Nat) : (Fin N → ℝ) →L[ℝ] (Fin n → ℝ) :=
  ContinuousLinearMap.pi fun j => if h : c + j < N then ContinuousLinearMap.proj ⟨c + j, h⟩ else 0

/-- The vector of all free values with the given entries at `n` columns from `c` on and zeros elsewhere. -/
noncomputable def embed (N c n : Nat) : (Fin n → ℝ) →L[ℝ] (Fin N → ℝ) :=
  ContinuousLinearMap.pi fun k => if h : c ≤ k.1 ∧ k.1 < c + n then ContinuousLinearMap.proj ⟨k - c, by omega⟩ else 0

theorem embed_spread (N c n : Nat) (d : Fin n → ℝ) : List.ofFn (embed N c n d) = spread N c d := by
  apply List.ext_getElem
  · simp [spread]
  · intro i h1 h2
    simp only [List.getElem_ofFn, embed, ContinuousLinearMap.coe_pi', spread, List.getElem_map, List.getElem_range]
    split <;> simp

theorem embed_single {N c n : Nat} (j : Fin n) (k : Fin N) (hk : k.1 = c + j) : embed N c n (Pi.single j 1) = Pi.single k 1 := by
  funext i
  simp only [embed, ContinuousLinearMap.coe_pi']
  by_cases h : i = k
  · subst h
    rw [dif_pos ⟨by omega, by omega⟩]
    have : (⟨i.1 - c, by omega⟩ : Fin n) = j := Fin.ext (by simp; omega)
    simp [this]
  · rw [Pi.single_eq_of_ne h]
    split
    · rename_i hc
      have : (⟨i.1 - c, by omega⟩ : Fin n) ≠ j := fun e => h (Fin.ext (by have := congrArg Fin.val e; simp at this; omega))
      simp [this]
    · rfl

theorem slice_part {V : Type} [VarLike ℝ V] (h : Heap V) {vars : List VRef} {r : VRef} (hr : r ∈ vars)
    (hc : VarLike.isConst (h r) = false) {N : Nat} (hN : N = freeTotal h vars) (x : Fin N → ℝ) :
    partOf h vars (List.ofFn x) r = List.ofFn (slice N (colStart h vars r) (VarLike.size (F := ℝ) (h r)) x) := by
  have hle := colStart_le h hr
  simp only [freeSize, hc, Bool.false_eq_true, ↓reduceIte] at hle
  apply List.ext_getElem
  · simp [partOf]; omega
  · intro i h1 h2
    simp only [List.length_ofFn] at h2
    have : colStart h vars r + i < N := by omega
    simp [partOf, slice, this]

theorem fresh_blocks {h : Heap RVar} {facs : List (Factor ℝ RVar)}
    (hcorrect : ∀ f ∈ facs, FreshJacobiansCorrect codeIncr f h)
    (hsize : ∀ f ∈ facs, 0 < f.residualSize ∧ ∀ r, some r ∈ f.variables → 0 < VarLike.size (h r)) :
    ∃ blocks : Nat → List (Mat ℝ), ∀ (k : Nat) f, facs[k]? = some f → f.computeJacobians h [] = .ok (blocks k) ∧
      ProperBlocks h f (blocks k) := by
  have hblk : ∀ k : Nat, ∃ js, ∀ f, facs[k]? = some f → f.computeJacobians h [] = .ok js ∧ ProperBlocks h f js := by
    intro k
    cases hk : facs[k]? with
    | none => exact ⟨[], fun f hf => by simp at hf⟩
    | some f =>
      have hf := List.mem_of_getElem? hk
      obtain ⟨js, hjs, hall⟩ := hcorrect f hf
      refine ⟨js, fun f' hf' => ?_⟩
      obtain rfl := Option.some.inj hf'
      refine ⟨hjs, fun p r hp => ?_⟩
      obtain ⟨hpl, hpe⟩ := List.getElem?_eq_some_iff.1 hp
      have hpj : p < js.length := hall.length_eq ▸ hpl
      obtain ⟨r', hr', hJ⟩ := (List.forall₂_iff_get.1 hall).2 p hpl hpj
      simp only [List.get_eq_getElem, hpe, Option.some.injEq] at hr' hJ
      subst hr'
      refine ⟨js[p], List.getElem?_eq_getElem hpj, fun hc => ?_, fun hc => ?_⟩
      · rw [if_pos hc] at hJ
        rw [hJ]; rfl
      · rw [if_neg (by simp [hc])] at hJ
        obtain ⟨h1, h2, _⟩ := hJ
        have h3 := (hsize f hf).1
        have h4 := (hsize f hf).2 r (List.mem_of_getElem? hp)
        refine ⟨?_, h1, h2⟩
        simp only [Mat.isEmpty, h1, h2, Bool.or_eq_false_iff, beq_eq_false_iff_ne]
        omega
  choose blocks hblocks using hblk
  exact ⟨blocks, hblocks⟩

/-- The residual of all factors as a function of the increment of all free variables, near zero, and its derivative. -/
theorem graph_derivative {h : Heap RVar} {vars : List VRef} {facs : List (Factor ℝ RVar)} (hnd : vars.Nodup)
    (hmem : ∀ f ∈ facs, ∀ r, some r ∈ f.variables → VarLike.isConst (h r) = false → r ∈ vars)
    (hcorrect : ∀ f ∈ facs, FreshJacobiansCorrect codeIncr f h) (hjoint : ∀ f ∈ facs, JointlyDifferentiable f h)
    (hread : ∀ f ∈ facs, ReadsOwn f)
    (hzero : ∀ r ∈ vars, VarLike.isConst (h r) = false →
      VarLike.applyIncr (h r) (List.replicate (VarLike.size (h r)) (0 : ℝ)) = .ok (h r))
    (hacc : ∀ r ∈ vars, VarLike.isConst (h r) = false →
      ∀ᶠ d : Fin (VarLike.size (h r)) → ℝ in 𝓝 0, ∃ v', VarLike.applyIncr (h r) (List.ofFn d) = .ok v')
    (blocks : Nat → List (Mat ℝ)) (hblocks : ∀ (k : Nat) f, facs[k]? = some f → f.computeJacobians h [] = .ok (blocks k))
    (M : Nat → Nat → ℝ) (hM : IsStackedJacobian h vars facs blocks M) {N R : Nat} (hN : N = freeTotal h vars)
    (hR : R = rowTotal facs) :
    ∃ Φ : (Fin N → ℝ) → (Fin R → ℝ), IsResidual h facs (List.ofFn (Φ 0)) ∧
      (∀ᶠ dx in 𝓝 0, ∃ h', Stepped h h' vars (List.ofFn dx) ∧ IsResidual h' facs (List.ofFn (Φ dx))) ∧
      HasFDerivAt Φ (jac (Matrix.of fun (i : Fin R) (j : Fin N) => M i j)) 0 := by
  let L : ∀ r, (Fin N → ℝ) →L[ℝ] (Fin (VarLike.size (h r)) → ℝ) :=
    fun r => slice N (colStart h vars r) (VarLike.size (h r))
  have hzero' : ∀ r ∈ vars, VarLike.isConst (h r) = false →
      VarLike.applyIncr (h r) (List.ofFn (0 : Fin (VarLike.size (h r)) → ℝ)) = .ok (h r) := by
    intro r hr hc
    have : List.ofFn (0 : Fin (VarLike.size (h r)) → ℝ) = List.replicate (VarLike.size (h r)) 0 := by
      rw [← List.ofFn_const]; rfl
    rw [this]
    exact hzero r hr hc
  -- the residuals of the factors
  have hF : ∀ k : Nat, ∃ (m : Nat) (φ : (Fin N → ℝ) → Fin m → ℝ), ∀ f, facs[k]? = some f →
      m = f.residualSize ∧ DifferentiableAt ℝ φ 0 ∧
      ∀ᶠ x in 𝓝 0, ∀ h' : Heap RVar, (∀ r, some r ∈ f.variables → Moved (h r) (L r x) (h' r)) →
        f.computeResidual h' = .ok (List.ofFn (φ x)) := by
    intro k
    cases hk : facs[k]? with
    | none => exact ⟨0, fun _ => 0, fun f hf => by simp at hf⟩
    | some f =>
      obtain ⟨φ, h1, h2⟩ := hjoint f (List.mem_of_getElem? hk) N L
      refine ⟨f.residualSize, φ, fun f' hf' => ?_⟩
      obtain rfl := Option.some.inj hf'
      exact ⟨rfl, h1, h2⟩
  choose m φ hφ using hF
  let segs : (Fin N → ℝ) → List (List ℝ) := fun x => (List.range facs.length).map fun k => List.ofFn (φ k x)
  have hsegs : ∀ x (k : Nat) f, facs[k]? = some f → (segs x)[k]? = some (List.ofFn (φ k x)) := by
    intro x k f hk
    have := (List.getElem?_eq_some_iff.1 hk).1
    show (List.map _ _)[k]? = _
    rw [List.getElem?_map, List.getElem?_range this]
    rfl
  have hsum : ∀ x (k : Nat), (((segs x).take k).map List.length).sum = rowStart facs k := by
    intro x k
    rw [rowStart, rowTotal]
    congr 1
    apply List.ext_getElem?
    intro p
    simp only [List.getElem?_map, List.getElem?_take]
    by_cases hm : p < k
    · rw [if_pos hm, if_pos hm]
      cases hf : facs[p]? with
      | none =>
        have := List.getElem?_eq_none_iff.1 hf
        rw [List.getElem?_eq_none (by simp [segs]; omega)]; rfl
      | some f => rw [hsegs x p f hf]; simp only [Option.map_some, List.length_ofFn, (hφ p f hf).1]
    · rw [if_neg hm, if_neg hm]; rfl
  have htot : ∀ x, (segs x).flatten.length = R := by
    intro x
    have := hsum x facs.length
    rw [hR, List.length_flatten]
    rwa [List.take_of_length_le (by simp [segs]), rowStart, List.take_length] at this
  have hof : ∀ x, List.ofFn (fun a : Fin R => (segs x).flatten.getD a 0) = (segs x).flatten := by
    intro x
    apply List.ext_getElem
    · simp [htot x]
    · intro i h1 h2
      rw [List.getElem_ofFn, List.getD_eq_getElem?_getD]
      simp only
      rw [List.getElem?_eq_getElem h2, Option.getD_some]
  have hisr : ∀ x h', (∀ (k : Nat) f, facs[k]? = some f → f.computeResidual h' = .ok (List.ofFn (φ k x))) →
      IsResidual h' facs (List.ofFn (fun a : Fin R => (segs x).flatten.getD a 0)) := by
    intro x h' hk
    rw [hof]
    exact ⟨segs x, by simp [segs], fun k f hf => ⟨_, hsegs x k f hf, hk k f hf, by rw [List.length_ofFn]; exact (hφ k f hf).1⟩, rfl⟩
  -- the residual after a joint step
  have hall : ∀ᶠ x in 𝓝 0, ∀ k ∈ Finset.range facs.length, ∀ f, facs[k]? = some f →
      ∀ h' : Heap RVar, (∀ r, some r ∈ f.variables → Moved (h r) (L r x) (h' r)) →
        f.computeResidual h' = .ok (List.ofFn (φ k x)) := by
    rw [Filter.eventually_all_finset]
    intro k hk
    cases hf : facs[k]? with
    | none => exact Eventually.of_forall fun d f hf' => by simp at hf'
    | some f =>
      filter_upwards [(hφ k f hf).2.2] with d hd f' hf'
      obtain rfl := Option.some.inj hf'
      exact hd
  have hres0 : ∀ (k : Nat) f, facs[k]? = some f → f.computeResidual h = .ok (List.ofFn (φ k 0)) := by
    intro k f hf
    refine hall.self_of_nhds k (Finset.mem_range.2 (List.getElem?_eq_some_iff.1 hf).1) f hf _ fun r hr => ?_
    by_cases hc : VarLike.isConst (h r) = false
    · rw [Moved, if_neg (by simp [hc]), map_zero]
      exact hzero' r (hmem f (List.mem_of_getElem? hf) r hr hc) hc
    · rw [Moved, if_pos (by simpa using hc)]
  refine ⟨fun x a => (segs x).flatten.getD a 0, hisr 0 h hres0, ?_, ?_⟩
  · have hacc' : ∀ᶠ x in 𝓝 0, ∀ r ∈ vars.toFinset, VarLike.isConst (h r) = false →
        ∃ v', VarLike.applyIncr (h r) (List.ofFn (L r x)) = .ok v' := by
      rw [Filter.eventually_all_finset]
      intro r hr
      by_cases hc : VarLike.isConst (h r) = false
      · have hL : Tendsto (fun x => L r x) (𝓝 0) (𝓝 0) := by simpa using (L r).continuous.tendsto 0
        filter_upwards [hL.eventually (hacc r (List.mem_toFinset.1 hr) hc)] with x hx _
        exact hx
      · exact Eventually.of_forall fun x h => absurd h hc
    filter_upwards [hall, hacc'] with x hx ha
    have hnew : ∀ r, ∃ v', (r ∈ vars ∧ VarLike.isConst (h r) = false →
        VarLike.applyIncr (h r) (List.ofFn (L r x)) = .ok v') ∧ (¬ (r ∈ vars ∧ VarLike.isConst (h r) = false) → v' = h r) := by
      intro r
      by_cases hr : r ∈ vars ∧ VarLike.isConst (h r) = false
      · obtain ⟨v', hv'⟩ := ha r (List.mem_toFinset.2 hr.1) hr.2
        exact ⟨v', fun _ => hv', fun h => absurd hr h⟩
      · exact ⟨h r, fun h1 => absurd h1 hr, fun _ => rfl⟩
    choose new hnew using hnew
    refine ⟨new, fun r => ⟨fun hr => ?_, (hnew r).2⟩, hisr x new fun k f hf => ?_⟩
    · rw [slice_part h hr.1 hr.2 hN]
      exact (hnew r).1 hr
    · refine hx k (Finset.mem_range.2 (List.getElem?_eq_some_iff.1 hf).1) f hf _ fun r hr => ?_
      by_cases hc : VarLike.isConst (h r) = false
      · rw [Moved, if_neg (by simp [hc])]
        exact (hnew r).1 ⟨hmem f (List.mem_of_getElem? hf) r hr hc, hc⟩
      · rw [Moved, if_pos (by simpa using hc)]
        exact (hnew r).2 fun h => hc h.2
  · refine hasFDerivAt_pi'.2 fun a => ?_
    obtain ⟨k, f, i, hk, hi, ha⟩ := exists_row (facs := facs) (a := (a : Nat)) (by rw [← hR]; exact a.2)
    have hi' : i < m k := by rw [(hφ k f hk).1]; exact hi
    have e : (fun x => (segs x).flatten.getD (a : Nat) 0) = fun x => φ k x ⟨i, hi'⟩ := by
      funext x
      rw [List.getD_eq_getElem?_getD, ha, ← hsum x k, flatten_row (hsegs x k f hk) (by simpa using hi')]
      simp [hi']
    rw [e]
    have hdiff := differentiableAt_pi.1 (hφ k f hk).2.1 ⟨i, hi'⟩
    refine hdiff.hasFDerivAt.congr_fderiv ?_
    refine ContinuousLinearMap.coe_injective (LinearMap.pi_ext' fun c => LinearMap.ext_ring ?_)
    show fderiv ℝ (fun x => φ k x ⟨i, hi'⟩) 0 (Pi.single c 1) = _
    obtain ⟨r, hr, hc, j, hj, hcj⟩ := exists_column h hnd (c := (c : Nat)) (by rw [← hN]; exact c.2)
    have hf := List.mem_of_getElem? hk
    obtain ⟨ψ, p1, p2, p3, p4⟩ := factor_moves (f := f) (h := h) (r := r) rfl hc (hcorrect f hf) (hblocks k f hk)
      (fun h' => hread f hf h h') (hres0 k f hk) (by rw [List.length_ofFn]; exact (hφ k f hk).1)
      (fun i j => M (rowStart facs k + i) (colStart h vars r + j))
      (fun p B hp hB i hi j => (hM k f hk i hi).1 p r B hp hc hB j j.2)
      (fun hm i hi j => (hM k f hk i hi).2 r hr hc hm j j.2)
    have hsp := embed_single (N := N) (⟨j, hj⟩ : Fin (VarLike.size (h r))) c hcj
    have hchain : HasFDerivAt (fun d => φ k (embed N (colStart h vars r) (VarLike.size (h r)) d) ⟨i, hi'⟩)
        ((fderiv ℝ (fun x => φ k x ⟨i, hi'⟩) 0).comp (embed N (colStart h vars r) (VarLike.size (h r)))) 0 := by
      refine HasFDerivAt.comp (g := fun x => φ k x ⟨i, hi'⟩) 0 ?_ (ContinuousLinearMap.hasFDerivAt _)
      rw [map_zero]
      exact hdiff.hasFDerivAt
    have hev : (fun d => (ψ d).getD i 0) =ᶠ[𝓝 0] fun d => φ k (embed N (colStart h vars r) (VarLike.size (h r)) d) ⟨i, hi'⟩ := by
      have hE : Tendsto (fun d => embed N (colStart h vars r) (VarLike.size (h r)) d) (𝓝 0) (𝓝 0) := by
        simpa using (embed N (colStart h vars r) (VarLike.size (h r))).continuous.tendsto 0
      filter_upwards [p3, hE.eventually (hφ k f hk).2.2, hacc r hr hc] with d h1 h2 ⟨v', hv'⟩
      have e1 := h1 v' hv'
      have e2 := h2 (h.set r v') fun q hq => by
        by_cases hcq : VarLike.isConst (h q) = false
        · have hqv := hmem f hf q hq hcq
          rw [Moved, if_neg (by simp [hcq])]
          show VarLike.applyIncr (h q) (List.ofFn (slice N _ _ _)) = _
          rw [← slice_part h hqv hcq hN, embed_spread, hN]
          by_cases hqr : q = r
          · subst hqr
            rw [spread_own h hr hc rfl, hv', set_same]
          · rw [spread_other h hqr hr hqv hc hcq rfl, set_other h v' hqr]
            exact hzero q hqv hcq
        · rw [Moved, if_pos (by simpa using hcq)]
          refine set_other h v' ?_
          rintro rfl
          exact hcq hc
      rw [e1] at e2
      rw [Res.ok.inj e2]
      simp [List.getD_eq_getElem?_getD, hi']
    have huniq := (hchain.congr_of_eventuallyEq hev).unique (p4 i hi)
    have := congrArg (fun T => T (Pi.single ⟨j, hj⟩ 1)) huniq
    simp only [ContinuousLinearMap.comp_apply, hsp] at this
    rw [this]
    simp [jac, hcj, ha]

end Factorama
