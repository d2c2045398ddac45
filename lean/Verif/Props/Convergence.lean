import Verif.Lemmas.Convergence
import Verif.Props.AffineProblems
import Verif.Examples.SquareWorld

/-!
# Property C102: near an exact fit the number of correct digits doubles with every iteration
-/

namespace Factorama.Props
open Spec Graph Opt Matrix
variable {V Fact : Type} [VarLike ℝ V] [LawfulVar ℝ V]

/-- The constant of quadratic convergence: `m` residuals, curvature `K`, `σ` as in `Measured`, `κ` as in `MovesBy`. -/
noncomputable def C102.constant (m : Nat) (K σ κ ρ : ℝ) : ℝ := √m * K / σ + κ * (1 + √m * K / σ * ρ)

/-- **C102**, one iteration. Let the residuals of a graph vanish at a solution, let their Jacobians be right up to second order
near it and let every direction be measured there. A Gauss-Newton iteration with learning rate 1 that is not refused takes
variables that are off by at most `δ` to variables that are off by at most a constant times `δ²`. -/
theorem C102_one_step {L : LinAlg ℝ Fact} (hL : ExactLinAlg L) (env : Env ℝ V) (s : OptWorld ℝ V Fact)
    {h0 : Heap V} {pre post : List (Op ℝ V × Res Unit)} (hw : FinalizedAfter h0 pre post ⟨s.heap, s.graph⟩)
    (hpre : NoJacobianYet pre) (hid : IdsIdentify s.heap s.graph.getAllVariables s.graph.getAllFactors)
    (hnr : NoRepeats s.graph.getAllFactors) (hsafe : ∀ f ∈ s.graph.getAllFactors, ReuseSafe f)
    (hproper : ∀ h, SameShape s.heap h → ∀ f ∈ s.graph.getAllFactors, ∀ js, f.computeJacobians h [] = .ok js →
      ProperBlocks h f js)
    (hg : s.opt.hasGraph = true) (hm : s.opt.settings.method = .gaussNewton) (hlr : s.opt.settings.learningRate = 1)
    {D : VRef → V → Nat → ℝ} {ρ K σ κ : ℝ} (hK : 0 ≤ K) (hσ : 0 < σ) (hκ : 0 ≤ κ)
    (hfit : ∀ f ∈ s.graph.getAllFactors, FitsNear D s.heap s.graph.getAllVariables ρ K f)
    (hmove : MovesBy D s.heap s.graph.getAllVariables ρ κ)
    (hmeas : ∀ h, SameButFree s.heap h s.graph.getAllVariables → OffBy D h s.graph.getAllVariables ρ → ∀ r J,
      Linearised h s.graph.getAllVariables s.graph.getAllFactors r J → Measured σ J)
    (r0 : List ℝ) (k : Nat) (s1 s2 : OptWorld ℝ V Fact)
    (hit : Iterations realArith L env k (loopStart realArith env s r0) s1)
    (hstep : oneStep realArith L env s1 = (s2, .ok ())) (hvalid : s2.opt.stats.valid = true)
    {δ : ℝ} (hδ : 0 ≤ δ) (hδρ : δ ≤ ρ) (hoff : OffBy D s1.heap s.graph.getAllVariables δ) :
    OffBy D s2.heap s.graph.getAllVariables (C102.constant (rowTotal s.graph.getAllFactors) K σ κ ρ * δ ^ 2) := by
  have hlay := finalizedAfter_layout hw
  have hn : s.graph.getAllVariables.Nodup := List.Nodup.of_map _ hlay.ids
  have hb1 := C24.sameButFree L env s hw hpre hid hnr hsafe hproper hg hm r0 k s1 hit
  have hmem : ∀ f ∈ s.graph.getAllFactors, ∀ r, some r ∈ f.variables → VarLike.isConst (s1.heap r) = false →
      r ∈ s.graph.getAllVariables := by
    intro f hf r hr hc
    rw [(hb1.1 r).2.1] at hc
    obtain ⟨r1, e, h⟩ := hlay.wp.1 f hf (some r) hr
    obtain rfl := Option.some.inj e
    obtain ⟨r2, hr2, e2⟩ := h hc
    exact hid f hf r hr r2 hr2 e2 ▸ hr2
  obtain ⟨r, J, hlin, ⟨_, _, _, e⟩ | ⟨d, r', hsol, hst, hres, _⟩⟩ :=
    C67_gauss_newton realArith L env s hw hpre hid hnr hsafe hproper hg hm r0 k s1 s2 hit hstep
  · rw [e] at hvalid; simp at hvalid
  rw [hlr] at hst
  have hoffρ : OffBy D s1.heap s.graph.getAllVariables ρ := fun r hr hc j hj => (hoff r hr hc j hj).trans hδρ
  have herr := step_error hL hn hmem hnr hlin hsol hst (D := fun q => D q (s1.heap q)) (b := K * δ ^ 2) (by positivity) hσ
    (fun f hf s' js h1 h2 i hi => hfit f hf s1.heap hb1 δ hδρ hoff s' js h1 h2 i hi) (hmeas s1.heap hb1 hoffρ r J hlin)
  have hss := stepped_shape hst
  intro q hq hc j hj
  rw [(hss q).2.1] at hc
  rw [(hss q).2.2] at hj
  obtain ⟨dq, h1, h2⟩ := herr q hq hc
  set C := √(rowTotal s.graph.getAllFactors : ℝ) * K / σ with hC
  have hC0 : 0 ≤ C := by positivity
  have hCe : √(rowTotal s.graph.getAllFactors : ℝ) * (K * δ ^ 2) / σ = C * δ ^ 2 := by rw [hC]; ring
  rw [hCe] at h2
  have hsz := (hb1.1 q).2.2
  have hdq : ∀ j, j < VarLike.size (s1.heap q) → |dq.getD j 0| ≤ δ + C * δ ^ 2 := fun j hj => by
    have e1 := h2 j hj
    have e2 := hoff q hq hc j hj
    rw [abs_le] at *
    constructor <;> linarith
  have hmv := hmove s1.heap hb1 q hq ((hb1.1 q).2.1.symm.trans hc) dq _ h1 δ hδρ (fun j hj => hoff q hq hc j (hsz ▸ hj))
    (δ + C * δ ^ 2) (fun j hj => hdq j (hsz ▸ hj)) j (hsz ▸ hj)
  have e1 := h2 j hj
  have e3 : κ * δ * (δ + C * δ ^ 2) ≤ κ * (1 + C * ρ) * δ ^ 2 := by
    have : κ * δ * (δ + C * δ ^ 2) = κ * (1 + C * δ) * δ ^ 2 := by ring
    rw [this]
    have h4 : C * δ ≤ C * ρ := mul_le_mul_of_nonneg_left hδρ hC0
    gcongr
  have e4 : C102.constant (rowTotal s.graph.getAllFactors) K σ κ ρ * δ ^ 2 = C * δ ^ 2 + κ * (1 + C * ρ) * δ ^ 2 := by
    rw [C102.constant, ← hC]; ring
  rw [e4]
  rw [abs_le] at *
  constructor <;> linarith

/-- **C102**, many iterations. Started from variables that are off by at most `δ`, with the constant of `C102_one_step` times `δ`
below one, the variables are off by at most `δ q^(2^k − 1)` after `k` iterations, where `q < 1` is that product. -/
theorem C102_iterations {L : LinAlg ℝ Fact} (hL : ExactLinAlg L) (env : Env ℝ V) (s : OptWorld ℝ V Fact)
    {h0 : Heap V} {pre post : List (Op ℝ V × Res Unit)} (hw : FinalizedAfter h0 pre post ⟨s.heap, s.graph⟩)
    (hpre : NoJacobianYet pre) (hid : IdsIdentify s.heap s.graph.getAllVariables s.graph.getAllFactors)
    (hnr : NoRepeats s.graph.getAllFactors) (hsafe : ∀ f ∈ s.graph.getAllFactors, ReuseSafe f)
    (hproper : ∀ h, SameShape s.heap h → ∀ f ∈ s.graph.getAllFactors, ∀ js, f.computeJacobians h [] = .ok js →
      ProperBlocks h f js)
    (hg : s.opt.hasGraph = true) (hm : s.opt.settings.method = .gaussNewton) (hlr : s.opt.settings.learningRate = 1)
    {D : VRef → V → Nat → ℝ} {ρ K σ κ : ℝ} (hK : 0 ≤ K) (hσ : 0 < σ) (hκ : 0 ≤ κ)
    (hfit : ∀ f ∈ s.graph.getAllFactors, FitsNear D s.heap s.graph.getAllVariables ρ K f)
    (hmove : MovesBy D s.heap s.graph.getAllVariables ρ κ)
    (hmeas : ∀ h, SameButFree s.heap h s.graph.getAllVariables → OffBy D h s.graph.getAllVariables ρ → ∀ r J,
      Linearised h s.graph.getAllVariables s.graph.getAllFactors r J → Measured σ J)
    {δ : ℝ} (hδ : 0 ≤ δ) (hδρ : δ ≤ ρ) (hoff : OffBy D s.heap s.graph.getAllVariables δ)
    (hq : C102.constant (rowTotal s.graph.getAllFactors) K σ κ ρ * δ ≤ 1)
    (r0 : List ℝ) (k : Nat) (s1 : OptWorld ℝ V Fact) (hit : Iterations realArith L env k (loopStart realArith env s r0) s1) :
    OffBy D s1.heap s.graph.getAllVariables
      (δ * (C102.constant (rowTotal s.graph.getAllFactors) K σ κ ρ * δ) ^ (2 ^ k - 1)) := by
  set B := C102.constant (rowTotal s.graph.getAllFactors) K σ κ ρ with hB
  have hρ : 0 ≤ ρ := hδ.trans hδρ
  have hB0 : 0 ≤ B := by rw [hB, C102.constant]; positivity
  have hq0 : 0 ≤ B * δ := by positivity
  induction k generalizing s1 with
  | zero => cases hit; simpa [loopStart] using hoff
  | succ k ih =>
    obtain ⟨s2, hit2, ho, hv, _⟩ := C66_continues realArith L env s hg r0 k s1 hit
    have hp : (B * δ) ^ (2 ^ k - 1) ≤ 1 := pow_le_one₀ hq0 hq
    have hle : δ * (B * δ) ^ (2 ^ k - 1) ≤ ρ := (mul_le_of_le_one_right hδ hp).trans hδρ
    have h := C102_one_step hL env s hw hpre hid hnr hsafe hproper hg hm hlr hK hσ hκ hfit hmove hmeas r0 k s2 s1 hit2 ho hv
      (by positivity) hle (ih s2 hit2)
    have e : B * (δ * (B * δ) ^ (2 ^ k - 1)) ^ 2 = δ * (B * δ) ^ (2 ^ (k + 1) - 1) := by
      have : 2 ^ (k + 1) - 1 = (2 ^ k - 1) + (2 ^ k - 1) + 1 := by
        have := Nat.one_le_two_pow (n := k)
        rw [pow_succ]; omega
      rw [this, pow_succ, pow_add]
      ring
    rw [← hB, e] at h
    exact h

/-- **C102**, whole runs. A valid run that reports `k` iterations leaves the variables off by at most `δ q^(2^k − 1)`. -/
theorem C102_run {L : LinAlg ℝ Fact} (hL : ExactLinAlg L) (env : Env ℝ V) (s : OptWorld ℝ V Fact)
    {h0 : Heap V} {pre post : List (Op ℝ V × Res Unit)} (hw : FinalizedAfter h0 pre post ⟨s.heap, s.graph⟩)
    (hpre : NoJacobianYet pre) (hid : IdsIdentify s.heap s.graph.getAllVariables s.graph.getAllFactors)
    (hnr : NoRepeats s.graph.getAllFactors) (hsafe : ∀ f ∈ s.graph.getAllFactors, ReuseSafe f)
    (hproper : ∀ h, SameShape s.heap h → ∀ f ∈ s.graph.getAllFactors, ∀ js, f.computeJacobians h [] = .ok js →
      ProperBlocks h f js)
    (hg : s.opt.hasGraph = true) (hm : s.opt.settings.method = .gaussNewton) (hlr : s.opt.settings.learningRate = 1)
    {D : VRef → V → Nat → ℝ} {ρ K σ κ : ℝ} (hK : 0 ≤ K) (hσ : 0 < σ) (hκ : 0 ≤ κ)
    (hfit : ∀ f ∈ s.graph.getAllFactors, FitsNear D s.heap s.graph.getAllVariables ρ K f)
    (hmove : MovesBy D s.heap s.graph.getAllVariables ρ κ)
    (hmeas : ∀ h, SameButFree s.heap h s.graph.getAllVariables → OffBy D h s.graph.getAllVariables ρ → ∀ r J,
      Linearised h s.graph.getAllVariables s.graph.getAllFactors r J → Measured σ J)
    {δ : ℝ} (hδ : 0 ≤ δ) (hδρ : δ ≤ ρ) (hoff : OffBy D s.heap s.graph.getAllVariables δ)
    (hq : C102.constant (rowTotal s.graph.getAllFactors) K σ κ ρ * δ ≤ 1)
    (s' : OptWorld ℝ V Fact) (hret : optimize realArith L env s = (s', .ok ())) (hvalid : s'.opt.stats.valid = true) :
    OffBy D s'.heap s.graph.getAllVariables
      (δ * (C102.constant (rowTotal s.graph.getAllFactors) K σ κ ρ * δ) ^ (2 ^ s'.opt.stats.iteration - 1)) := by
  obtain ⟨r0, hr⟩ : ∃ r0, (computeResidual env s.heap s.graph).2 = .ok r0 := by
    cases hr : (computeResidual env s.heap s.graph).2 with
    | ok r0 => exact ⟨r0, rfl⟩
    | threw =>
      have := (C28_throws_iff realArith L env s).2 (.inr hr)
      rw [hret] at this
      simp at this
    | ub =>
      have := (optimize_ubResidual realArith L env s hg hr).1
      rw [hret] at this
      simp at this
  have hall := C102_iterations hL env s hw hpre hid hnr hsafe hproper hg hm hlr hK hσ hκ hfit hmove hmeas hδ hδρ hoff hq r0
  rcases C66_ends realArith L env s hg r0 hr s' hret with ⟨k, s1, s2, hk, hit, h⟩ | ⟨s1, hit, hh, hv, he⟩
  · rcases h with ⟨_, _, h⟩ | ⟨_, _, _, hv, h⟩ | ⟨ho, hheap, herr, status, valid, hs, h⟩
    · rw [h] at hvalid; simp at hvalid
    · rw [h, hv] at hvalid; simp at hvalid
    · have hh1 := iterations_head hit hg rfl rfl rfl
      have hi1 : s1.opt.stats.iteration = k := hh1.iteration
      have hv2 : s2.opt.stats.valid = true ∧ s2.opt.stats.iteration = k + 1 := by
        obtain ⟨r, J, _, ⟨_, href, _, e⟩ | ⟨d, r', _, hst, hres, e⟩⟩ :=
          C67_gauss_newton realArith L env s hw hpre hid hnr hsafe hproper hg hm r0 k s1 s2 hit ho
        · exfalso
          apply herr
          rw [e]
          cases href <;> simp [isErrorStatus]
        · exact ⟨by rw [e]; exact hh1.valid, by rw [e]; dsimp only; omega⟩
      have hi2 : s'.opt.stats.iteration = k + 1 := by rw [h]; exact hv2.2
      rw [hheap, hi2]
      set B := C102.constant (rowTotal s.graph.getAllFactors) K σ κ ρ with hB
      have hρ : 0 ≤ ρ := hδ.trans hδρ
      have hB0 : 0 ≤ B := by rw [hB, C102.constant]; positivity
      have hq0 : 0 ≤ B * δ := by positivity
      have hp : (B * δ) ^ (2 ^ k - 1) ≤ 1 := pow_le_one₀ hq0 hq
      have hle : δ * (B * δ) ^ (2 ^ k - 1) ≤ ρ := (mul_le_of_le_one_right hδ hp).trans hδρ
      have h := C102_one_step hL env s hw hpre hid hnr hsafe hproper hg hm hlr hK hσ hκ hfit hmove hmeas r0 k s1 s2 hit ho hv2.1
        (by positivity) hle (hall k s1 hit)
      have e : B * (δ * (B * δ) ^ (2 ^ k - 1)) ^ 2 = δ * (B * δ) ^ (2 ^ (k + 1) - 1) := by
        have : 2 ^ (k + 1) - 1 = (2 ^ k - 1) + (2 ^ k - 1) + 1 := by
          have := Nat.one_le_two_pow (n := k)
          rw [pow_succ]; omega
        rw [this, pow_succ, pow_add]
        ring
      rw [← hB, e] at h
      exact h
  · have hi1 : s1.opt.stats.iteration = s.opt.settings.maxIterations := (iterations_head hit hg rfl rfl rfl).iteration
    have hi2 : s'.opt.stats.iteration = s.opt.settings.maxIterations := by rw [he]; exact hi1
    rw [hh, hi2]
    exact hall _ s1 hit

/-- For variables whose increments are additions, nothing is lost in a step. -/
theorem C102_additive (hs h0 : Heap V) (vars : List VRef) (ρ : ℝ) (hadd : AdditiveIncrements h0 vars) :
    MovesBy (gap hs) h0 vars ρ 0 := by
  intro h hb r hr hc x v' hv δ _ _ η _ j hj
  rw [gap, gap, hadd h hb.1 r hr hc x v' hv j hj]
  have : ∀ a b c : ℝ, a - (b + c) - (a - b - c) = 0 := fun _ _ _ => by ring
  rw [this]
  simp

/-! The hypotheses hold for the square root of 4, computed by Gauss-Newton from 5/2: the distance `1/2` becomes at most
`1/2 (1/6)^(2^k − 1)` after `k` iterations. -/

/-- An optimizer set up on the curved problem. -/
noncomputable def C102.start : OptWorld ℝ (GenVar ℝ) (Ldlt.Fact ℝ) :=
  ⟨(SquareWorld.world (5 / 2) 4).heap, (SquareWorld.world (5 / 2 : ℝ) 4).graph,
    { Optimizer.init realArith with hasGraph := true }⟩

/-- The solution. -/
noncomputable def C102.solution : Heap (GenVar ℝ) := SquareWorld.heap 2

theorem C102.component_eq {h : Heap (GenVar ℝ)} {δ : ℝ} (hs : SameShape C102.start.heap h)
    (ho : OffBy (gap C102.solution) h C102.start.graph.getAllVariables δ) :
    ∃ x, (h 0).value.getD 0 0 = x ∧ |2 - x| ≤ δ := by
  obtain ⟨hc, hl⟩ := SquareWorld.shape (5 / 2) 4 hs 0
  exact ⟨_, rfl, ho 0 (by show 0 ∈ (SquareWorld.world (5 / 2 : ℝ) 4).graph.getAllVariables; rw [SquareWorld.vars_eq]; simp) hc 0
    (by show 0 < (h 0).value.length; rw [hl]; decide)⟩

theorem C102.fits : ∀ f ∈ C102.start.graph.getAllFactors,
    FitsNear (gap C102.solution) C102.start.heap C102.start.graph.getAllVariables (1 / 2) 1 f := by
  intro f hf h hb δ hδ ho s js hs hj i hi
  obtain ⟨x, hx, hd⟩ := C102.component_eq hb.1 ho
  obtain ⟨hc, hl⟩ := SquareWorld.shape (5 / 2) 4 hb.1 0
  have hf' : f ∈ (SquareWorld.world (5 / 2 : ℝ) 4).graph.getAllFactors := hf
  rw [SquareWorld.facs_eq] at hf'
  obtain rfl := List.mem_singleton.1 hf'
  simp only [SquareWorld.square] at hs hj hi
  obtain rfl := Res.ok.inj hs
  obtain rfl := Res.ok.inj hj
  obtain rfl : i = 0 := by omega
  have hsz : VarLike.size (F := ℝ) (h 0) = 1 := hl
  have hcc : VarLike.isConst (F := ℝ) (h 0) = false := hc
  simp only [SquareWorld.square, List.length_singleton, Finset.sum_range_one, contribution, List.getElem?_cons_zero, hcc, hsz,
    Bool.false_eq_true, if_false, List.getD_cons_zero, gap, component, C102.solution, SquareWorld.heap]
  simp only [VarLike.value, hx, List.getD_cons_zero]
  have e : x * x - 4 + (x + x) * (2 - x) = -(2 - x) ^ 2 := by ring
  rw [e, abs_neg, abs_of_nonneg (sq_nonneg _), one_mul, ← sq_abs]
  exact pow_le_pow_left₀ (abs_nonneg _) hd 2

theorem C102.measured : ∀ h, SameButFree C102.start.heap h C102.start.graph.getAllVariables →
    OffBy (gap C102.solution) h C102.start.graph.getAllVariables (1 / 2) → ∀ r J,
      Linearised h C102.start.graph.getAllVariables C102.start.graph.getAllFactors r J → Measured 3 J := by
  intro h hb ho r J hlin v c
  obtain ⟨x, hx, hd⟩ := C102.component_eq hb.1 ho
  obtain ⟨hc, hl⟩ := SquareWorld.shape (5 / 2) 4 hb.1 0
  have hlin' : Linearised h (SquareWorld.world (5 / 2 : ℝ) 4).graph.getAllVariables
    (SquareWorld.world (5 / 2 : ℝ) 4).graph.getAllFactors r J := hlin
  rw [SquareWorld.facs_eq, SquareWorld.vars_eq] at hlin'
  obtain ⟨blocks, hbl, hst⟩ := hlin'.jacobian
  have hn : J.columns.length = 1 := by
    rw [hlin'.columns]
    show freeSize (h 0) + 0 = 1
    simp [freeSize, VarLike.isConst, VarLike.size, hc, hl]
  have hm : J.rows = 1 := hlin'.rows
  have hj := (hbl 0 _ rfl).1
  have h00 := (hst 0 _ rfl 0 (by decide)).1 0 0 ⟨1, 1, fun _ _ => x + x⟩ rfl hc (by
    rw [← Res.ok.inj hj, hx]; rfl) 0 (by show 0 < (h 0).value.length; rw [hl]; decide)
  have h00' : J.coeff 0 0 = x + x := h00
  have hc0 : (c : Nat) = 0 := by have := c.2; omega
  have key : ∀ a : Fin J.rows, (jacobianMatrix J *ᵥ v) a = (x + x) * v c := by
    intro a
    have ha : (a : Nat) = 0 := by have := a.2; omega
    rw [mulVec, dotProduct, Finset.sum_eq_single c]
    · show J.coeff a c * v c = _
      rw [ha, hc0, h00']
    · intro b _ hne
      exact absurd (Fin.ext (by have := b.2; omega)) hne
    · simp
  have e : (jacobianMatrix J *ᵥ v) ⬝ᵥ (jacobianMatrix J *ᵥ v) = ((x + x) * v c) ^ 2 := by
    rw [dotProduct, Finset.sum_congr rfl fun a _ => by rw [key a]]
    simp [hm, sq]
  rw [e, mul_pow, mul_pow]
  refine mul_le_mul_of_nonneg_right ?_ (sq_nonneg _)
  rw [abs_le] at hd
  nlinarith [hd.1, hd.2]

theorem C102.off : OffBy (gap C102.solution) C102.start.heap C102.start.graph.getAllVariables (1 / 2) := by
  intro r hr hc j hj
  have e : C102.start.heap = SquareWorld.heap (5 / 2) := SquareWorld.heap_eq _ _
  rw [e] at hj ⊢
  have : j < 1 := hj
  obtain rfl : j = 0 := by omega
  show |(2 : ℝ) - 5 / 2| ≤ _
  norm_num [abs_le]

example (s' : OptWorld ℝ (GenVar ℝ) (Ldlt.Fact ℝ))
    (hret : optimize realArith Ldlt.linAlg (SquareWorld.env 0) C102.start = (s', .ok ())) (hvalid : s'.opt.stats.valid = true) :
    OffBy (gap C102.solution) s'.heap C102.start.graph.getAllVariables
      (1 / 2 * (1 / 6) ^ (2 ^ s'.opt.stats.iteration - 1)) := by
  have hrow : rowTotal C102.start.graph.getAllFactors = 1 := by
    show rowTotal (SquareWorld.world (5 / 2 : ℝ) 4).graph.getAllFactors = 1
    rw [SquareWorld.facs_eq]; rfl
  have hB : C102.constant (rowTotal C102.start.graph.getAllFactors) 1 3 0 (1 / 2) * (1 / 2) = 1 / 6 := by
    rw [hrow, C102.constant]; norm_num
  have := C102_run Ldlt.exact (SquareWorld.env 0) C102.start (SquareWorld.finalizedAfter (5 / 2) 4)
    (SquareWorld.noJacobianYet _ _) (SquareWorld.identify _ _) (SquareWorld.noRepeats _ _)
    (SquareWorld.reuseSafe _ _) (SquareWorld.proper _ _) rfl rfl
    (by show (Settings.default realArith).learningRate = 1; simp [Settings.default, realArith])
    zero_le_one (by norm_num : (0 : ℝ) < 3) (le_refl (0 : ℝ)) C102.fits
    (C102_additive C102.solution _ _ _ (C24_generic_increments _ _)) C102.measured (by norm_num : (0 : ℝ) ≤ 1 / 2) le_rfl C102.off
    (by rw [hB]; norm_num) s' hret hvalid
  rwa [hB] at this

example (r0 : List ℝ) (k : Nat) (s1 : OptWorld ℝ (GenVar ℝ) (Ldlt.Fact ℝ))
    (hit : Iterations realArith Ldlt.linAlg (SquareWorld.env 0) k (loopStart realArith (SquareWorld.env 0) C102.start r0) s1) :
    OffBy (gap C102.solution) s1.heap C102.start.graph.getAllVariables (1 / 2 * (1 / 6) ^ (2 ^ k - 1)) := by
  have hrow : rowTotal C102.start.graph.getAllFactors = 1 := by
    show rowTotal (SquareWorld.world (5 / 2 : ℝ) 4).graph.getAllFactors = 1
    rw [SquareWorld.facs_eq]; rfl
  have hB : C102.constant (rowTotal C102.start.graph.getAllFactors) 1 3 0 (1 / 2) * (1 / 2) = 1 / 6 := by
    rw [hrow, C102.constant]; norm_num
  have := C102_iterations Ldlt.exact (SquareWorld.env 0) C102.start (SquareWorld.finalizedAfter (5 / 2) 4)
    (SquareWorld.noJacobianYet _ _) (SquareWorld.identify _ _) (SquareWorld.noRepeats _ _)
    (SquareWorld.reuseSafe _ _) (SquareWorld.proper _ _) rfl rfl
    (by show (Settings.default realArith).learningRate = 1; simp [Settings.default, realArith])
    zero_le_one (by norm_num : (0 : ℝ) < 3) (le_refl (0 : ℝ)) C102.fits
    (C102_additive C102.solution _ _ _ (C24_generic_increments _ _)) C102.measured (by norm_num : (0 : ℝ) ≤ 1 / 2) le_rfl C102.off
    (by rw [hB]; norm_num) r0 k s1 hit
  rwa [hB] at this

example (r0 : List ℝ) (s2 : OptWorld ℝ (GenVar ℝ) (Ldlt.Fact ℝ))
    (hstep : oneStep realArith Ldlt.linAlg (SquareWorld.env 0) (loopStart realArith (SquareWorld.env 0) C102.start r0) = (s2, .ok ()))
    (hvalid : s2.opt.stats.valid = true) :
    OffBy (gap C102.solution) s2.heap C102.start.graph.getAllVariables (1 / 12) := by
  have hrow : rowTotal C102.start.graph.getAllFactors = 1 := by
    show rowTotal (SquareWorld.world (5 / 2 : ℝ) 4).graph.getAllFactors = 1
    rw [SquareWorld.facs_eq]; rfl
  have hB : C102.constant (rowTotal C102.start.graph.getAllFactors) 1 3 0 (1 / 2) * (1 / 2) ^ 2 = 1 / 12 := by
    rw [hrow, C102.constant]; norm_num
  have := C102_one_step Ldlt.exact (SquareWorld.env 0) C102.start (SquareWorld.finalizedAfter (5 / 2) 4)
    (SquareWorld.noJacobianYet _ _) (SquareWorld.identify _ _) (SquareWorld.noRepeats _ _)
    (SquareWorld.reuseSafe _ _) (SquareWorld.proper _ _) rfl rfl
    (by show (Settings.default realArith).learningRate = 1; simp [Settings.default, realArith])
    zero_le_one (by norm_num : (0 : ℝ) < 3) (le_refl (0 : ℝ)) C102.fits
    (C102_additive C102.solution _ _ _ (C24_generic_increments _ _)) C102.measured r0 0 _ s2 (.zero _) hstep hvalid
    (by norm_num : (0 : ℝ) ≤ 1 / 2) le_rfl C102.off
  rwa [hB] at this

/-- In rational arithmetic the run is valid and takes several iterations. -/
example : (optimize ToyOpt.rat Ldlt.linAlg (SquareWorld.env 0) (ToyOpt.start (SquareWorld.world (5 / 2) 4) ToyOpt.gn)).2 = .ok () ∧
    (optimize ToyOpt.rat Ldlt.linAlg (SquareWorld.env 0) (ToyOpt.start (SquareWorld.world (5 / 2) 4) ToyOpt.gn)).1.opt.stats.valid =
      true ∧
    2 ≤ (optimize ToyOpt.rat Ldlt.linAlg (SquareWorld.env 0)
      (ToyOpt.start (SquareWorld.world (5 / 2) 4) ToyOpt.gn)).1.opt.stats.iteration := by
  refine ⟨?_, ?_, ?_⟩ <;> decide +kernel

end Factorama.Props
