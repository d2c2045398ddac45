import Verif.Props.Reported
import Verif.Props.Informative
import Verif.Props.Held

/-!
# Properties C107 and C108 for complete runs on linear problems
-/

namespace Factorama.Props
open Spec Graph Opt Matrix

section
variable {V Fact : Type} [VarLike ℝ V] [LawfulVar ℝ V] {L : LinAlg ℝ Fact}

/-- The diagonal of a covariance matrix. -/
theorem C107.diagonal {P P' : Mat ℝ} (hr : P'.rows = P.rows) (hc : P'.cols = P.cols) (hsq : P.cols = P.rows)
    (hv : ∀ z, varianceOf P' z ≤ varianceOf P z) {i : Nat} (hi : i < P.rows) : P'.entry i i ≤ P.entry i i := by
  have unit : ∀ Q : Mat ℝ, i < Q.rows → i < Q.cols → varianceOf Q (fun k => if k = i then 1 else 0) = Q.entry i i := by
    intro Q h1 h2
    unfold varianceOf
    rw [Finset.sum_eq_single_of_mem i (by simpa using h1) fun k _ hk => by simp [hk],
      Finset.sum_eq_single_of_mem i (by simpa using h2) fun k _ hk => by simp [hk]]
    simp
  have := hv fun k => if k = i then 1 else 0
  rwa [unit P hi (by omega), unit P' (by omega) (by omega)] at this

/-- **C107**, complete runs. Two linear problems over the same variables, where the second has all measurements of the first with the
same or smaller standard deviations, and possibly more. Both are optimized and asked for covariances. For each free variable both
report one, and the variance of any combination of its components is not larger for the second. -/
theorem C107_run (hL : ExactLinAlg L) (hP : ExactPivots L) (env env' : Env ℝ V) {s s' : OptWorld ℝ V Fact} (hs : SolvableLinear s)
    (hs' : SolvableLinear s') (hheap : s'.heap = s.heap) (hvars : s'.graph.getAllVariables = s.graph.getAllVariables)
    (hfacs : MoreInformative s.graph.getAllFactors s'.graph.getAllFactors)
    (hm : s.opt.settings.method = .gaussNewton) (h0 : 0 ≤ s.opt.settings.learningRate) (h2 : s.opt.settings.learningRate ≤ 2)
    (hpos : 0 < s.opt.settings.maxIterations) (hv : s.opt.hessianValid = false)
    (hm' : s'.opt.settings.method = .gaussNewton) (h0' : 0 ≤ s'.opt.settings.learningRate) (h2' : s'.opt.settings.learningRate ≤ 2)
    (hpos' : 0 < s'.opt.settings.maxIterations) (hv' : s'.opt.hessianValid = false) {r : List ℝ} {J : SpMat ℝ}
    (hlin : Linearised s.heap s.graph.getAllVariables s.graph.getAllFactors r J) (hdet : Determines (1 / 10 ^ 12) J) :
    ∃ t u t' u', optimize realArith L env s = (t, .ok ()) ∧ prepare realArith L t = (u, .ok ()) ∧
      optimize realArith L env' s' = (t', .ok ()) ∧ prepare realArith L t' = (u', .ok ()) ∧
      ∀ v ∈ s.graph.getAllVariables, VarLike.isConst (s.heap v) = false → 0 < VarLike.size (s.heap v) →
        ∃ P P', estimateCovariance realArith L u (some v) = .ok (some P) ∧ estimateCovariance realArith L u' (some v) = .ok (some P') ∧
          P.rows = VarLike.size (s.heap v) ∧ P.cols = P.rows ∧ P'.rows = P.rows ∧ P'.cols = P.cols ∧
          (∀ z, varianceOf P' z ≤ varianceOf P z) ∧ ∀ i, i < P.rows → P'.entry i i ≤ P.entry i i := by
  obtain ⟨r', J', hlin', _⟩ := hs'.conditioned
  rw [hheap, hvars] at hlin'
  obtain ⟨hn, _⟩ := C111.closed hs.prepared
  have s1 : Stacks s.heap s.graph.getAllVariables s.graph.getAllFactors J := ⟨hlin.rows, hlin.columns, hlin.jacobian⟩
  have s2 : Stacks s.heap s.graph.getAllVariables s'.graph.getAllFactors J' := ⟨hlin'.rows, hlin'.columns, hlin'.jacobian⟩
  have hN : J'.columns.length = J.columns.length := hlin'.columns.trans hlin.columns.symm
  have hle : ∀ y : Nat → ℝ, ∑ i ∈ Finset.range J.rows, (∑ j ∈ Finset.range J.columns.length, J.coeff i j * y j) ^ 2 ≤
      ∑ i ∈ Finset.range J'.rows, (∑ j ∈ Finset.range J.columns.length, J'.coeff i j * y j) ^ 2 := fun y => by
    rw [s1.rows, s2.rows, hlin.columns]
    refine informative_sum hfacs _ _ (fun i => sq_nonneg _) (fun i => sq_nonneg _) fun k k' f f' c hk hk' hR i hi => ?_
    rw [← mul_pow, Finset.mul_sum]
    congr 1
    refine Finset.sum_congr rfl fun j hj => ?_
    rw [rescaled_row_coeff hn s1 s2 hk hk' hR hi (by simpa using hj), mul_assoc]
  have hdet' : Determines (1 / 10 ^ 12) J' := by
    intro w
    obtain ⟨y, hy⟩ : ∃ y : Nat → ℝ, ∀ c : Fin J'.columns.length, y c = w c :=
      ⟨fun c => if hc : c < J'.columns.length then w ⟨c, hc⟩ else 0, fun c => by simp⟩
    obtain ⟨e1, e2⟩ := C111.forms J' w hy
    have hd := hdet fun c => y c
    obtain ⟨e3, e4⟩ := C111.forms J (fun c => y c) (y := y) fun _ => rfl
    rw [e3, e4] at hd
    rw [e1, e2]
    have := hle y
    rw [hN]
    exact hd.trans this
  obtain ⟨t, u, a1, _, a2, a3⟩ := C123_linear hL hP env hs hm h0 h2 hpos hv hlin hdet
  obtain ⟨t', u', b1, _, b2, b3⟩ := C123_linear hL hP env' hs' hm' h0' h2' hpos' hv' (by rw [hheap, hvars]; exact hlin') hdet'
  refine ⟨t, u, t', u', a1, a2, b1, b2, fun v hmv hcv hsv => ?_⟩
  rw [hheap, hvars] at b3
  obtain ⟨P, e1, z1, z2, hent⟩ := a3 v hmv hcv hsv
  obtain ⟨P', e1', z1', z2', hent'⟩ := b3 v hmv hcv hsv
  have key := variance_antitone hN J.coeff J'.coeff hle (C123.variance (jacobianMatrix J) (by norm_num) hdet).1
    (C123.variance (jacobianMatrix J') (by norm_num) hdet').1 _ _ P.entry P'.entry hent hent'
  have hvar : ∀ z, varianceOf P' z ≤ varianceOf P z := by
    intro z
    unfold varianceOf
    rw [z1, z2, z1', z2']
    exact key z
  exact ⟨P, P', e1, e1', z1, z2.trans z1.symm, z1'.trans z1.symm, z2'.trans z2.symm, hvar,
    fun i hi => C107.diagonal (z1'.trans z1.symm) (z2'.trans z2.symm) (z2.trans z1.symm) hvar hi⟩

end

namespace C107

/-- The small graph with weight 2 for the last measurement. -/
noncomputable def sharper (m p q : ℝ) (o : Settings ℝ) : OptWorld ℝ (GenVar ℝ) (Ldlt.Fact ℝ) :=
  ⟨(TinyWorld.world 0 0 m p q 2 3 2).heap, (TinyWorld.world 0 0 m p q 2 3 2).graph,
    { Optimizer.init realArith with hasGraph := true, settings := o }⟩

theorem sharper_between : Between (TinyWorld.jac (2 : ℝ) 3 2) 2 30 := by
  intro x
  have h1 : (TinyWorld.jac (2 : ℝ) 3 2).coeff 0 0 = 2 := by cbv
  have h2 : (TinyWorld.jac (2 : ℝ) 3 2).coeff 1 0 = -3 := by cbv
  have h3 : (TinyWorld.jac (2 : ℝ) 3 2).coeff 2 0 = 0 := by cbv
  have h4 : (TinyWorld.jac (2 : ℝ) 3 2).coeff 0 1 = 0 := by cbv
  have h5 : (TinyWorld.jac (2 : ℝ) 3 2).coeff 1 1 = 3 := by cbv
  have h6 : (TinyWorld.jac (2 : ℝ) 3 2).coeff 2 1 = 2 := by cbv
  obtain ⟨y, hy⟩ : ∃ y : Nat → ℝ, ∀ c : Fin (TinyWorld.jac (2 : ℝ) 3 2).columns.length, y c = x c :=
    ⟨fun c => if hc : c < (TinyWorld.jac (2 : ℝ) 3 2).columns.length then x ⟨c, hc⟩ else 0, fun c => by simp⟩
  obtain ⟨e1, e2⟩ := C111.forms (TinyWorld.jac (2 : ℝ) 3 2) x hy
  rw [e1, e2, show (TinyWorld.jac (2 : ℝ) 3 2).columns.length = 2 from rfl, show (TinyWorld.jac (2 : ℝ) 3 2).rows = 3 from rfl]
  simp only [Finset.sum_range_succ, Finset.sum_range_zero, h1, h2, h3, h4, h5, h6]
  generalize y 0 = a
  generalize y 1 = b
  constructor
  · nlinarith [sq_nonneg (a - b), sq_nonneg (a + b)]
  · nlinarith [sq_nonneg (a - b), sq_nonneg (a + b)]

theorem sharper_solvable (m p q : ℝ) (o : Settings ℝ) : SolvableLinear (sharper m p q o) := by
  have hvars : (sharper m p q o).graph.getAllVariables = [0, 1, 2] := TinyWorld.vars_eq ..
  have hfacs : (sharper m p q o).graph.getAllFactors = TinyWorld.facs p q 2 3 2 := TinyWorld.facs_eq ..
  have hheap : (sharper m p q o).heap = TinyWorld.heap 0 0 m := TinyWorld.heap_eq ..
  refine C121_generic ⟨⟨_, _, _, TinyWorld.finalizedAfter 0 0 m p q 2 3 2, TinyWorld.noJacobianYet 0 0 m p q 2 3 2⟩,
    TinyWorld.identify 0 0 m p q 2 3 2, TinyWorld.noRepeats 0 0 m p q 2 3 2, TinyWorld.reuseSafe 0 0 m p q 2 3 2,
    TinyWorld.proper 0 0 m p q 2 3 2, rfl⟩ ?_ ?_ ?_
  · rw [hfacs, hheap]
    intro f hf
    simp only [TinyWorld.facs, List.mem_cons, List.not_mem_nil, or_false] at hf
    rcases hf with rfl | rfl | rfl
    · exact .prior _ _ _ _ rfl
    · exact .between _ _ _ _ _ _ rfl rfl rfl
    · exact .prior _ _ _ _ rfl
  · rw [hvars, hheap]
    exact Nat.two_pos
  · rw [hvars, hheap, hfacs]
    exact ⟨_, _, C104.linearisedAt _ _ _ _ _ _ _ _, 2, 30, sharper_between, by norm_num, by norm_num⟩

end C107

/-- The small graph with the original standard deviation of the last measurement and with half of it: both runs succeed, both report a
variance for the first variable, and the second is not larger. -/
example (m p q : ℝ) : ∃ t u t' u' P P',
    optimize realArith Ldlt.linAlg (TinyWorld.env 0) (C118.start m p q C121.gn) = (t, .ok ()) ∧ prepare realArith Ldlt.linAlg t = (u, .ok ()) ∧
    optimize realArith Ldlt.linAlg (TinyWorld.env 0) (C107.sharper m p q C121.gn) = (t', .ok ()) ∧
    prepare realArith Ldlt.linAlg t' = (u', .ok ()) ∧ estimateCovariance realArith Ldlt.linAlg u (some 0) = .ok (some P) ∧
    estimateCovariance realArith Ldlt.linAlg u' (some 0) = .ok (some P') ∧ P'.entry 0 0 ≤ P.entry 0 0 := by
  obtain ⟨h1, h2, h3, h4⟩ := C121.gn_facts
  have l0 : (0 : ℝ) ≤ C121.gn.learningRate := by rw [h2]; norm_num
  have l2 : C121.gn.learningRate ≤ (2 : ℝ) := by rw [h2]; norm_num
  have hfacs : (C107.sharper m p q C121.gn).graph.getAllFactors = TinyWorld.facs p q 2 3 2 := TinyWorld.facs_eq ..
  have hheap : (C107.sharper m p q C121.gn).heap = TinyWorld.heap 0 0 m := TinyWorld.heap_eq ..
  have hvars : (C107.sharper m p q C121.gn).graph.getAllVariables = [0, 1, 2] := TinyWorld.vars_eq ..
  obtain ⟨r, hlin⟩ := C123.linearised m p q C121.gn
  obtain ⟨t, u, t', u', e1, e2, e3, e4, e5⟩ := C107_run Ldlt.exact Ldlt.exact_pivots (TinyWorld.env 0) (TinyWorld.env 0)
    (C121.solvable m p q C121.gn) (C107.sharper_solvable m p q C121.gn) (by rw [hheap, C118.heap]) (by rw [hvars, C118.vars]) (by
      rw [hfacs, C118.facs]
      refine C107_sharpened [genericPrior 10 0 [p] 2, genericBetween 11 0 1 2 1 3] [] (one_le_two (α := ℝ)) ?_
      have := C104.prior 2 12 1 [q] 1
      simpa using this)
    h1 l0 l2 h3 rfl h1 l0 l2 h3 rfl hlin C123.determines
  obtain ⟨P, P', k1, k2, k3, _, _, _, _, k4⟩ := e5 0 (by rw [C118.vars]; simp) (by rw [C118.heap]; rfl)
    (by rw [C118.heap]; exact Nat.one_pos)
  rw [C118.heap] at k3
  exact ⟨t, u, t', u', P, P', e1, e2, e3, e4, k1, k2, k4 0 (by rw [k3]; exact Nat.one_pos)⟩

/-! ### Held variables -/

/-- Zero-extension along an injective map of columns. -/
theorem C108.extend {N N' : Nat} (σ : Nat → Nat) (h : ∀ j, j < N' → σ j < N) (hinj : ∀ j k, j < N' → k < N' → σ j = σ k → j = k) (y : Nat → ℝ) :
    ∃ z : Nat → ℝ, (∀ a : Nat → ℝ, ∑ c ∈ Finset.range N, a c * z c = ∑ j ∈ Finset.range N', a (σ j) * y j) ∧
      ∑ c ∈ Finset.range N, z c ^ 2 = ∑ j ∈ Finset.range N', y j ^ 2 := by
  have key : ∀ a : Nat → ℝ, ∑ c ∈ Finset.range N, a c * (∑ j ∈ Finset.range N', if σ j = c then y j else 0) =
      ∑ j ∈ Finset.range N', a (σ j) * y j := by
    intro a
    simp only [Finset.mul_sum]
    rw [Finset.sum_comm]
    refine Finset.sum_congr rfl fun j hj => ?_
    rw [Finset.sum_eq_single_of_mem (σ j) (by simpa using h j (by simpa using hj)) fun c _ hc => by rw [if_neg (Ne.symm hc), mul_zero]]
    rw [if_pos rfl]
  refine ⟨_, key, ?_⟩
  simp only [pow_two]
  rw [key]
  refine Finset.sum_congr rfl fun j hj => ?_
  congr 1
  rw [Finset.sum_eq_single_of_mem j hj fun k hk hkj => if_neg fun e => hkj (hinj k j (by simpa using hk) (by simpa using hj) e), if_pos rfl]

section
variable {V Fact : Type} [VarLike ℝ V] [LawfulVar ℝ V] {L : LinAlg ℝ Fact}

/-- **C108**, complete runs. The same linear problem twice, the second time with some of the variables set constant before the program
starts. Both are optimized and asked for covariances. For each variable that is free in the second both report one, and the variance of
any combination of its components is not larger for the second. -/
theorem C108_run (hL : ExactLinAlg L) (hP : ExactPivots L) (env env' : Env ℝ V) {s s' : OptWorld ℝ V Fact} (hs : SolvableLinear s)
    (hs' : SolvableLinear s') (hH : Held s.heap s'.heap) (hvars : s'.graph.getAllVariables = s.graph.getAllVariables)
    (hfacs : s'.graph.getAllFactors = s.graph.getAllFactors)
    (hblocks : ∀ f ∈ s.graph.getAllFactors, SameFreeBlocks f s.heap s'.heap)
    (hm : s.opt.settings.method = .gaussNewton) (h0 : 0 ≤ s.opt.settings.learningRate) (h2 : s.opt.settings.learningRate ≤ 2)
    (hpos : 0 < s.opt.settings.maxIterations) (hv : s.opt.hessianValid = false)
    (hm' : s'.opt.settings.method = .gaussNewton) (h0' : 0 ≤ s'.opt.settings.learningRate) (h2' : s'.opt.settings.learningRate ≤ 2)
    (hpos' : 0 < s'.opt.settings.maxIterations) (hv' : s'.opt.hessianValid = false) {r : List ℝ} {J : SpMat ℝ}
    (hlin : Linearised s.heap s.graph.getAllVariables s.graph.getAllFactors r J) (hdet : Determines (1 / 10 ^ 12) J) :
    ∃ t u t' u', optimize realArith L env s = (t, .ok ()) ∧ prepare realArith L t = (u, .ok ()) ∧
      optimize realArith L env' s' = (t', .ok ()) ∧ prepare realArith L t' = (u', .ok ()) ∧
      ∀ v ∈ s.graph.getAllVariables, VarLike.isConst (s'.heap v) = false → 0 < VarLike.size (s.heap v) →
        ∃ P P', estimateCovariance realArith L u (some v) = .ok (some P) ∧ estimateCovariance realArith L u' (some v) = .ok (some P') ∧
          P.rows = VarLike.size (s.heap v) ∧ P.cols = P.rows ∧ P'.rows = P.rows ∧ P'.cols = P.cols ∧
          (∀ z, varianceOf P' z ≤ varianceOf P z) ∧ ∀ i, i < P.rows → P'.entry i i ≤ P.entry i i := by
  obtain ⟨r', J', hlin', _⟩ := hs'.conditioned
  rw [hvars, hfacs] at hlin'
  obtain ⟨hn, _⟩ := C111.closed hs.prepared
  have s1 : Stacks s.heap s.graph.getAllVariables s.graph.getAllFactors J := ⟨hlin.rows, hlin.columns, hlin.jacobian⟩
  have s2 : Stacks s'.heap s.graph.getAllVariables s.graph.getAllFactors J' := ⟨hlin'.rows, hlin'.columns, hlin'.jacobian⟩
  obtain ⟨σ, k1, k2, k3⟩ := held_columns hH hn hblocks s1 s2
  have hinj : ∀ j k, j < J'.columns.length → k < J'.columns.length → σ j = σ k → j = k := by
    intro j k hj hk e
    rw [s2.columns] at hj hk
    obtain ⟨q, hq, hc, i, hi, ej⟩ := exists_column s'.heap hn hj
    rw [hH.same hc] at hi
    have e1 := (k3 q hq hc j hj i hi).2 ej
    have e2 := (k3 q hq hc k hk i hi).1 (by rw [← e]; exact e1)
    omega
  rw [← s2.columns, ← s1.columns] at k1
  rw [← s2.columns, ← s1.rows] at k2
  rw [← s2.columns] at k3
  have hR : J'.rows = J.rows := s2.rows.trans s1.rows.symm
  have hdet' : Determines (1 / 10 ^ 12) J' := by
    intro w
    obtain ⟨y, hy⟩ : ∃ y : Nat → ℝ, ∀ c : Fin J'.columns.length, y c = w c :=
      ⟨fun c => if hc : c < J'.columns.length then w ⟨c, hc⟩ else 0, fun c => by simp⟩
    obtain ⟨e1, e2⟩ := C111.forms J' w hy
    obtain ⟨z, hz, hz2⟩ := C108.extend σ k1 hinj y
    have hd := hdet fun c => z c
    obtain ⟨e3, e4⟩ := C111.forms J (fun c => z c) (y := z) fun _ => rfl
    rw [e3, e4] at hd
    rw [e1, e2]
    rw [hz2] at hd
    refine hd.trans (le_of_eq ?_)
    rw [hR]
    refine Finset.sum_congr rfl fun i hi => ?_
    rw [hz]
    congr 1
    exact Finset.sum_congr rfl fun j hj => by rw [k2 i j (by simpa using hi) (by simpa using hj)]
  obtain ⟨t, u, a1, _, a2, a3⟩ := C123_linear hL hP env hs hm h0 h2 hpos hv hlin hdet
  obtain ⟨t', u', b1, _, b2, b3⟩ := C123_linear hL hP env' hs' hm' h0' h2' hpos' hv' (by rw [hvars, hfacs]; exact hlin') hdet'
  refine ⟨t, u, t', u', a1, a2, b1, b2, fun v hmv hcv hsv => ?_⟩
  have hcv0 : VarLike.isConst (s.heap v) = false := by rwa [hH.same hcv] at hcv
  have hsz : VarLike.size (s'.heap v) = VarLike.size (s.heap v) := by rw [hH.same hcv]
  obtain ⟨P, e1, z1, z2, hent⟩ := a3 v hmv hcv0 hsv
  obtain ⟨P', e1', z1', z2', hent'⟩ := b3 v (by rw [hvars]; exact hmv) hcv (by rw [hsz]; exact hsv)
  rw [hsz] at z1' z2' hent'
  rw [hvars] at hent'
  have key := variance_restrict hR J.coeff J'.coeff σ k1 k2 (C123.variance (jacobianMatrix J) (by norm_num) hdet).1
    (C123.variance (jacobianMatrix J') (by norm_num) hdet').1 _ _ (VarLike.size (s.heap v)) (k3 v hmv hcv) P.entry P'.entry hent hent'
  have hvar : ∀ z, varianceOf P' z ≤ varianceOf P z := by
    intro z
    unfold varianceOf
    rw [z1, z2, z1', z2']
    exact key z
  exact ⟨P, P', e1, e1', z1, z2.trans z1.symm, z1'.trans z1.symm, z2'.trans z2.symm, hvar,
    fun i hi => C107.diagonal (z1'.trans z1.symm) (z2'.trans z2.symm) (z2.trans z1.symm) hvar hi⟩

end

/-- The blocks of generic factors have the right sizes, whatever the variables that are constant. -/
theorem C108.proper {h0 h : Heap (GenVar ℝ)} (hs : SameShape h0 h) {f : Factor ℝ (GenVar ℝ)} (hf : SizedGeneric h0 f)
    (hpos : 0 < f.residualSize) {js : List (Mat ℝ)} (hj : f.computeJacobians h [] = .ok js) : ProperBlocks h f js := by
  have hl : ∀ q, (h q).value.length = (h0 q).value.length := fun q => (hs q).2.2
  have diag : ∀ n (w : ℝ), 0 < n → (Mat.diag n w).isEmpty = false := by
    intro n w hn
    simp [Mat.isEmpty, Mat.diag]
    omega
  have block : ∀ q n (w : ℝ), (h0 q).value.length = n → 0 < n → (VarLike.isConst (h q) = true → betweenBlock n (h q) w = Mat.empty) ∧
      (VarLike.isConst (h q) = false → (betweenBlock n (h q) w).isEmpty = false ∧ (betweenBlock n (h q) w).rows = n ∧
        (betweenBlock n (h q) w).cols = VarLike.size (h q)) := by
    intro q n w hq hn
    unfold betweenBlock
    refine ⟨fun hc => by rw [if_pos hc], fun hc => ?_⟩
    rw [if_neg (by rw [hc]; simp)]
    exact ⟨diag n w hn, rfl, hq.symm.trans (hl q).symm⟩
  cases hf with
  | prior id r prior w hr =>
    intro p q hp
    match p with
    | 0 =>
      obtain rfl : r = q := by simpa [genericPrior] using hp
      by_cases hc : VarLike.isConst (F := ℝ) (h r) = true
      · simp only [genericPrior, if_pos hc] at hj
        obtain rfl := Res.ok.inj hj
        exact ⟨_, rfl, fun _ => rfl, fun hc' => by rw [hc] at hc'; cases hc'⟩
      · simp only [genericPrior, if_neg hc] at hj
        obtain rfl := Res.ok.inj hj
        exact ⟨_, rfl, fun hc' => absurd hc' hc, fun _ => ⟨diag _ w hpos, rfl, hr.symm.trans (hl r).symm⟩⟩
    | p + 1 => simp [genericPrior] at hp
  | between id a b m n w ha hb hm =>
    obtain rfl := Res.ok.inj hj
    intro p q hp
    match p with
    | 0 =>
      obtain rfl : a = q := by simpa [genericBetween] using hp
      obtain ⟨b1, b2⟩ := block a n (-w) ha hpos
      exact ⟨_, rfl, fun hc => by rw [b1 hc]; rfl, b2⟩
    | 1 =>
      obtain rfl : b = q := by simpa [genericBetween] using hp
      obtain ⟨b1, b2⟩ := block b n w hb hpos
      exact ⟨_, rfl, fun hc => by rw [b1 hc]; rfl, b2⟩
    | 2 =>
      obtain rfl : m = q := by simpa [genericBetween] using hp
      obtain ⟨b1, b2⟩ := block m n (-w) hm hpos
      exact ⟨_, rfl, fun hc => by rw [b1 hc]; rfl, b2⟩
    | p + 3 => simp [genericBetween] at hp

namespace C108

/-- The small graph with the second variable held. -/
noncomputable def withHeld (o : Settings ℝ) : OptWorld ℝ (GenVar ℝ) (Ldlt.Fact ℝ) :=
  ⟨(TinyHeld.world 0 0 1 4 7 2 3 1).heap, (TinyHeld.world 0 0 1 4 7 2 3 1).graph,
    { Optimizer.init realArith with hasGraph := true, settings := o }⟩

theorem held_between : Between (TinyHeld.jac (2 : ℝ) 3) 13 13 := by
  intro x
  have h1 : (TinyHeld.jac (2 : ℝ) 3).coeff 0 0 = 2 := by cbv
  have h2 : (TinyHeld.jac (2 : ℝ) 3).coeff 1 0 = -3 := by cbv
  have h3 : (TinyHeld.jac (2 : ℝ) 3).coeff 2 0 = 0 := by cbv
  obtain ⟨y, hy⟩ : ∃ y : Nat → ℝ, ∀ c : Fin (TinyHeld.jac (2 : ℝ) 3).columns.length, y c = x c :=
    ⟨fun c => if hc : c < (TinyHeld.jac (2 : ℝ) 3).columns.length then x ⟨c, hc⟩ else 0, fun c => by simp⟩
  obtain ⟨e1, e2⟩ := C111.forms (TinyHeld.jac (2 : ℝ) 3) x hy
  rw [e1, e2, show (TinyHeld.jac (2 : ℝ) 3).columns.length = 1 from rfl, show (TinyHeld.jac (2 : ℝ) 3).rows = 3 from rfl]
  simp only [Finset.sum_range_succ, Finset.sum_range_zero, h1, h2, h3]
  generalize y 0 = a
  constructor <;> nlinarith

theorem held_solvable (o : Settings ℝ) : SolvableLinear (withHeld o) := by
  have hvars : (withHeld o).graph.getAllVariables = [0, 1, 2] := TinyHeld.vars_eq ..
  have hfacs : (withHeld o).graph.getAllFactors = TinyWorld.facs 4 7 2 3 1 := TinyHeld.facs_eq ..
  have hheap : (withHeld o).heap = TinyHeld.heap 0 0 1 := TinyHeld.heap_eq ..
  have hsized : ∀ f ∈ (withHeld o).graph.getAllFactors, SizedGeneric (withHeld o).heap f := by
    rw [hfacs, hheap]
    intro f hf
    simp only [TinyWorld.facs, List.mem_cons, List.not_mem_nil, or_false] at hf
    rcases hf with rfl | rfl | rfl
    · exact .prior _ _ _ _ rfl
    · exact .between _ _ _ _ _ _ rfl rfl rfl
    · exact .prior _ _ _ _ rfl
  have hsz : ∀ f ∈ (withHeld o).graph.getAllFactors, 0 < f.residualSize := by
    rw [hfacs]
    intro f hf
    simp only [TinyWorld.facs, List.mem_cons, List.not_mem_nil, or_false] at hf
    rcases hf with rfl | rfl | rfl <;> exact Nat.one_pos
  refine C121_generic ⟨⟨_, _, _, TinyHeld.finalizedAfter 0 0 1 4 7 2 3 1, ?_⟩, ?_, ?_, ?_,
    fun h hs f hf js hj => C108.proper hs (hsized f hf) (hsz f hf) hj, rfl⟩ hsized ?_ ?_
  · have hb : ∀ op ∈ TinyWorld.build (4 : ℝ) 7 2 3 1, op ≠ .dense ∧ op ≠ .denseAndResidual ∧ op ≠ .sparse := by
      intro op hop
      simp only [TinyWorld.build, List.mem_cons, List.not_mem_nil, or_false] at hop
      rcases hop with h | h | h | h | h | h <;> subst h <;> simp
    refine ⟨fun h => ?_, fun h => ?_, fun h => ?_, fun h => ?_⟩
    · exact (hb _ (List.of_mem_zip h).1).1 rfl
    · exact (hb _ (List.of_mem_zip h).1).2.1 rfl
    · exact (hb _ (List.of_mem_zip h).1).2.1 rfl
    · exact (hb _ (List.of_mem_zip h).1).2.2 rfl
  · rw [hfacs, hvars, hheap]
    have key := TinyWorld.identify (F := ℝ) 0 0 1 4 7 2 3 1
    rw [TinyWorld.facs_eq, TinyWorld.vars_eq, TinyWorld.heap_eq] at key
    have hid : ∀ r, VarLike.id (F := ℝ) (TinyHeld.heap (0 : ℝ) 0 1 r) = VarLike.id (F := ℝ) (TinyWorld.heap (0 : ℝ) 0 1 r) := by
      intro r
      match r with
      | 0 | 1 | _ + 2 => rfl
    intro f hf x hx r hr e
    rw [hid, hid] at e
    exact key f hf x hx r hr e
  · have := TinyWorld.noRepeats (F := ℝ) 0 0 1 4 7 2 3 1
    rw [TinyWorld.facs_eq] at this
    rw [hfacs]; exact this
  · have := TinyWorld.reuseSafe (F := ℝ) 0 0 1 4 7 2 3 1
    rw [TinyWorld.facs_eq] at this
    rw [hfacs]; exact this
  · rw [hvars, hheap]
    exact Nat.one_pos
  · rw [hvars, hheap, hfacs]
    exact ⟨_, _, linearised, 13, 13, held_between, by norm_num, by norm_num⟩

end C108

/-- The small graph, and the same with the second variable held: both runs succeed, both report a variance for the first variable, and
the second is not larger. -/
example : ∃ t u t' u' P P',
    optimize realArith Ldlt.linAlg (TinyWorld.env 0) (C118.start 1 4 7 C121.gn) = (t, .ok ()) ∧ prepare realArith Ldlt.linAlg t = (u, .ok ()) ∧
    optimize realArith Ldlt.linAlg (TinyWorld.env 0) (C108.withHeld C121.gn) = (t', .ok ()) ∧
    prepare realArith Ldlt.linAlg t' = (u', .ok ()) ∧ estimateCovariance realArith Ldlt.linAlg u (some 0) = .ok (some P) ∧
    estimateCovariance realArith Ldlt.linAlg u' (some 0) = .ok (some P') ∧ P'.entry 0 0 ≤ P.entry 0 0 := by
  obtain ⟨h1, h2, h3, h4⟩ := C121.gn_facts
  have l0 : (0 : ℝ) ≤ C121.gn.learningRate := by rw [h2]; norm_num
  have l2 : C121.gn.learningRate ≤ (2 : ℝ) := by rw [h2]; norm_num
  have hfacs : (C108.withHeld C121.gn).graph.getAllFactors = TinyWorld.facs 4 7 2 3 1 := TinyHeld.facs_eq ..
  have hheap : (C108.withHeld C121.gn).heap = TinyHeld.heap 0 0 1 := TinyHeld.heap_eq ..
  have hvars : (C108.withHeld C121.gn).graph.getAllVariables = [0, 1, 2] := TinyHeld.vars_eq ..
  obtain ⟨r, hlin⟩ := C123.linearised 1 4 7 C121.gn
  obtain ⟨t, u, t', u', e1, e2, e3, e4, e5⟩ := C108_run Ldlt.exact Ldlt.exact_pivots (TinyWorld.env 0) (TinyWorld.env 0)
    (C121.solvable 1 4 7 C121.gn) (C108.held_solvable C121.gn) (by rw [hheap, C118.heap]; exact C108.held) (by rw [hvars, C118.vars])
    (by rw [hfacs, C118.facs]) (by rw [hheap, C118.heap, C118.facs]; exact C108.blocks) h1 l0 l2 h3 rfl h1 l0 l2 h3 rfl hlin C123.determines
  obtain ⟨P, P', k1, k2, k3, _, _, _, _, k4⟩ := e5 0 (by rw [C118.vars]; simp) (by rw [hheap]; rfl)
    (by rw [C118.heap]; exact Nat.one_pos)
  rw [C118.heap] at k3
  exact ⟨t, u, t', u', P, P', e1, e2, e3, e4, k1, k2, k4 0 (by rw [k3]; exact Nat.one_pos)⟩

end Factorama.Props
