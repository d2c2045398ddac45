import Verif.Lemmas.LinearConvergence
import Verif.Props.Stationary
import Verif.Props.Conditioning
import Verif.Props.Units

/-!
# C111: Levenberg-Marquardt on linear problems
-/

namespace Factorama.Props
open Spec Graph Opt Matrix
variable {V Fact : Type} [VarLike ℝ V] [LawfulVar ℝ V] {L : LinAlg ℝ Fact}

/-- The facts about a prepared graph that the lemmas need. -/
theorem C111.closed {s : OptWorld ℝ V Fact} (hp : Prepared s) : s.graph.getAllVariables.Nodup ∧
    ∀ f ∈ s.graph.getAllFactors, ∀ r, some r ∈ f.variables → VarLike.isConst (s.heap r) = false → r ∈ s.graph.getAllVariables := by
  obtain ⟨h0, pre, post, hw, hpre⟩ := hp.history
  have hlay := finalizedAfter_layout hw
  refine ⟨List.Nodup.of_map _ hlay.ids, fun f hf r hr hc => ?_⟩
  obtain ⟨r1, e, h⟩ := hlay.wp.1 f hf (some r) hr
  obtain rfl := Option.some.inj e
  obtain ⟨r2, hr2, e2⟩ := h hc
  exact hp.ids f hf r hr r2 hr2 e2 ▸ hr2

/-- **C111**, one iteration. In a linear problem (all residuals affine, increments additive) an iteration of
Levenberg-Marquardt with learning rate 1 does not lead away from any solution, whatever the dampings and whatever is refused. -/
theorem C111_never_farther (hL : ExactLinAlg L) (env : Env ℝ V) {s : OptWorld ℝ V Fact} (hp : Prepared s)
    (hm : s.opt.settings.method = .levenbergMarquardt) (hrest : Restorable s) (hlr : s.opt.settings.learningRate = 1)
    (hini : 0 < s.opt.settings.initialLambda) (hup : 0 < s.opt.settings.lambdaUp) (hmax : 0 < s.opt.settings.maxLambda)
    (haff : ∀ f ∈ s.graph.getAllFactors, ∃ B, AffineFactor s.heap f B)
    (hadd : AdditiveIncrements s.heap s.graph.getAllVariables)
    (best : Heap V) (hbest : SameButFree s.heap best s.graph.getAllVariables)
    (hsol : Solution best s.graph.getAllVariables s.graph.getAllFactors)
    (r0 : List ℝ) (hr : (computeResidual env s.heap s.graph).2 = .ok r0) (k : Nat) (s1 s2 : OptWorld ℝ V Fact)
    (hit : Iterations realArith L env k (loopStart realArith env s r0) s1) (hstep : oneStep realArith L env s1 = (s2, .ok ())) :
    apart s.heap s.graph.getAllVariables s2.heap best ≤ apart s.heap s.graph.getAllVariables s1.heap best := by
  obtain ⟨h0, pre, post, hw, hpre⟩ := hp.history
  obtain ⟨hn, hmem⟩ := C111.closed hp
  have hb := C110.sameButFree env s hp hm hrest r0 hr k s1 hini hup hmax hit
  have hfirst := (C79.iteration env s hw hpre hp.ids hp.noRepeats hp.safe hp.proper hp.graph hm hrest hini hup hmax r0 hr hit).1
  obtain ⟨r, J, o, lambda, hlin, htr, hcase⟩ := C67_levenberg_marquardt_partial realArith L env s hw hpre hp.ids hp.noRepeats hp.safe
    hp.proper hp.graph hm hrest r0 hr k s1 s2 hit hstep
  rcases hcase with ⟨dx, r', rfl, e⟩ | ⟨_, e, _⟩
  · obtain ⟨l, hl, d, hsolv, rfl, hst, hres, hlt, hlam⟩ := trials_accepted hup hmax hfirst htr rfl
    rw [hlr] at hst
    have := affine_closer hL hn hmem hp.noRepeats haff hadd hb hbest hsol hlin hl le_rfl
      (fun v => by rw [zero_mul]; exact sq_nonneg_dot _) hsolv hst hres
    rw [add_zero] at this
    exact le_of_mul_le_mul_left this (by positivity)
  · rw [e]

/-- The lengths of a vector and of its image, entry by entry. -/
theorem C111.forms {y : Nat → ℝ} (K : SpMat ℝ) (z : Fin K.columns.length → ℝ) (hz : ∀ c : Fin K.columns.length, y c = z c) :
    z ⬝ᵥ z = ∑ c ∈ Finset.range K.columns.length, y c ^ 2 ∧
    (jacobianMatrix K *ᵥ z) ⬝ᵥ (jacobianMatrix K *ᵥ z) =
      ∑ a ∈ Finset.range K.rows, (∑ c ∈ Finset.range K.columns.length, K.coeff a c * y c) ^ 2 := by
  obtain rfl : z = fun c : Fin K.columns.length => y c := funext fun c => (hz c).symm
  constructor
  · rw [dot_sq, Finset.sum_range]
  · rw [dot_sq, Finset.sum_range]
    refine Finset.sum_congr rfl fun a _ => ?_
    rw [Finset.sum_range]
    rfl

/-- The Jacobian of a linear problem determines the variables everywhere alike. -/
theorem C111.between {h0 h : Heap V} {vars : List VRef} {facs : List (Factor ℝ V)} (hn : vars.Nodup)
    (hmem : ∀ f ∈ facs, ∀ r, some r ∈ f.variables → VarLike.isConst (h0 r) = false → r ∈ vars)
    (hnr : NoRepeats facs) (haff : ∀ f ∈ facs, ∃ B, AffineFactor h0 f B) (hs : SameShape h0 h) {r r' : List ℝ} {J J' : SpMat ℝ}
    (hlin : Linearised h0 vars facs r J) (hlin' : Linearised h vars facs r' J') {low high : ℝ} (hb : Between J low high) :
    Between J' low high := by
  have hs0 : SameShape h0 h0 := fun _ => ⟨rfl, rfl, rfl⟩
  have hN : J'.columns.length = J.columns.length := by rw [hlin'.columns, hs.freeTotal_eq, hlin.columns]
  have hR : J'.rows = J.rows := hlin'.rows.trans hlin.rows.symm
  intro x
  obtain ⟨y, hy⟩ : ∃ y : Nat → ℝ, ∀ c : Fin J'.columns.length, y c = x c :=
    ⟨fun c => if hc : c < J'.columns.length then x ⟨c, hc⟩ else 0, fun c => by simp⟩
  obtain ⟨a1, a2⟩ := C111.forms J' x hy
  obtain ⟨b1, b2⟩ := C111.forms J (fun c => y c) fun _ => rfl
  have h := hb fun c => y c
  rw [b1, b2] at h
  have e2 : ∑ a ∈ Finset.range J'.rows, (∑ c ∈ Finset.range J'.columns.length, J'.coeff a c * y c) ^ 2 =
      ∑ a ∈ Finset.range J.rows, (∑ c ∈ Finset.range J.columns.length, J.coeff a c * y c) ^ 2 := by
    rw [hR, hN]
    refine Finset.sum_congr rfl fun a ha => ?_
    congr 1
    refine Finset.sum_congr rfl fun c hc => ?_
    rw [affine_coeff hn hmem hnr haff hs0 hs hlin hlin' (by rw [← hlin.rows]; simpa using ha)
      (by rw [← hlin.columns]; simpa using hc)]
  rw [a1, a2, e2, hN]
  exact h

theorem C111.falling_pos {settings : Settings ℝ} (h : 0 < settings.initialLambda) (k : Nat) : 0 < fallingDamping settings k := by
  cases k with
  | zero => exact h
  | succ k => exact lt_of_lt_of_le (by positivity) (le_max_right _ _)

/-- How far the values are from the solution after `k` iterations, and the damping that comes next. -/
def C111.Near (s : OptWorld ℝ V Fact) (best : Heap V) (μ : ℝ) (k : Nat) (heap : Heap V) (damping : ℝ) : Prop :=
  apart s.heap s.graph.getAllVariables heap best = 0 ∨
    damping = fallingDamping s.opt.settings k ∧
    apart s.heap s.graph.getAllVariables heap best ≤
      (∏ i ∈ Finset.range k, fallingDamping s.opt.settings i / (fallingDamping s.opt.settings i + μ)) ^ 2 *
        apart s.heap s.graph.getAllVariables s.heap best

/-- The hypotheses of C111 about a run. -/
structure C111.Linear (s : OptWorld ℝ V Fact) (best : Heap V) (μ high : ℝ) : Prop where
  prepared : Prepared s
  method : s.opt.settings.method = .levenbergMarquardt
  restorable : Restorable s
  rate : s.opt.settings.learningRate = 1
  initial : 0 < s.opt.settings.initialLambda
  up : 0 < s.opt.settings.lambdaUp
  max : 0 < s.opt.settings.maxLambda
  affine : ∀ f ∈ s.graph.getAllFactors, ∃ B, AffineFactor s.heap f B
  additive : AdditiveIncrements s.heap s.graph.getAllVariables
  start : ∃ r J, Linearised s.heap s.graph.getAllVariables s.graph.getAllFactors r J ∧ Between J μ high
  large : 1 / 10 ^ 14 ≤ μ
  balanced : high ≤ 10 ^ 12 * μ
  same : SameButFree s.heap best s.graph.getAllVariables
  solution : Solution best s.graph.getAllVariables s.graph.getAllFactors

theorem C111.step (hL : ExactLinAlg L) (hP : ExactPivots L) (env : Env ℝ V) {s : OptWorld ℝ V Fact} {best : Heap V} {μ high : ℝ}
    (hl : C111.Linear s best μ high)
    (r0 : List ℝ) (hr : (computeResidual env s.heap s.graph).2 = .ok r0) (k : Nat) (s1 s2 : OptWorld ℝ V Fact)
    (hit : Iterations realArith L env k (loopStart realArith env s r0) s1) (hstep : oneStep realArith L env s1 = (s2, .ok ()))
    (hnear : C111.Near s best μ k s1.heap (firstDamping s.opt.settings s1.opt.stats)) :
    C111.Near s best μ (k + 1) s2.heap s2.opt.stats.damping := by
  obtain ⟨h0, pre, post, hw, hpre⟩ := hl.prepared.history
  have hp := hl.prepared
  obtain ⟨hn, hmem⟩ := C111.closed hp
  have hb := C110.sameButFree env s hp hl.method hl.restorable r0 hr k s1 hl.initial hl.up hl.max hit
  have hfirst := (C79.iteration env s hw hpre hp.ids hp.noRepeats hp.safe hp.proper hp.graph hl.method hl.restorable hl.initial
    hl.up hl.max r0 hr hit).1
  obtain ⟨r, J, o, lambda, hlin, htr, hcase⟩ := C67_levenberg_marquardt_partial realArith L env s hw hpre hp.ids hp.noRepeats hp.safe
    hp.proper hp.graph hl.method hl.restorable r0 hr k s1 s2 hit hstep
  obtain ⟨rst, Jst, hlinst, hbet⟩ := hl.start
  have hbJ := C111.between hn hmem hp.noRepeats hl.affine hb.1 hlinst hlin hbet
  have hμ : 0 < μ := lt_of_lt_of_le (by positivity) hl.large
  obtain ⟨rs, x, v1, v2, hx⟩ := affine_view hn hmem hp.noRepeats hl.affine hb hl.same hl.solution hlin
  have hN : J.columns.length = freeTotal s.heap s.graph.getAllVariables := hlin.columns.trans (hb.1.freeTotal_eq _)
  have hap := apart_view hn hN hx
  have hgrad : gradient J r = ((jacobianMatrix J)ᵀ * jacobianMatrix J) *ᵥ fun c : Fin J.columns.length => x c := by
    rw [gradient, v2, mulVec_add, v1, zero_add, mulVec_mulVec]
  rcases hnear with hz | ⟨hdamp, hle⟩
  · -- already at the solution: no step is accepted
    left
    rcases hcase with ⟨dx, r', rfl, e⟩ | ⟨_, e, _⟩
    · obtain ⟨l, hlp, d, hsolv, rfl, hst, hres, hlt, hlam⟩ := trials_accepted hl.up hl.max hfirst htr rfl
      rw [hl.rate] at hst
      have hg := (affine_gain hL hn hmem hp.noRepeats hl.affine hl.additive hb.1 hlin hlp hsolv hst hres).1 hlt
      exfalso
      apply hg
      rw [hap] at hz
      have hx0 : (fun c : Fin J.columns.length => x c) = 0 := by
        refine Classical.byContradiction fun hne => ?_
        have := sq_pos_dot hne
        linarith
      rw [hgrad, hx0, mulVec_zero]
    · rw [e]; exact hz
  by_cases hz : apart s.heap s.graph.getAllVariables s1.heap best = 0
  · left
    rcases hcase with ⟨dx, r', rfl, e⟩ | ⟨_, e, _⟩
    · have h1 := C111_never_farther hL env hp hl.method hl.restorable hl.rate hl.initial hl.up hl.max hl.affine hl.additive best
        hl.same hl.solution r0 hr k s1 s2 hit hstep
      rw [hz] at h1
      refine le_antisymm h1 ?_
      rw [apart]
      refine List.sum_nonneg fun y hy => ?_
      obtain ⟨q, _, rfl⟩ := List.mem_map.1 hy
      exact Finset.sum_nonneg fun j _ => sq_nonneg _
    · rw [e]; exact hz
  · right
    have hx0 : (fun c : Fin J.columns.length => x c) ≠ 0 := fun h => hz (by rw [hap, h, zero_dotProduct])
    have hne : 0 < J.columns.length := by
      refine Nat.pos_of_ne_zero fun h => hx0 (funext fun c => ?_)
      exact absurd c.2 (by omega)
    have hg : gradient J r ≠ 0 := by
      intro h
      rw [hgrad] at h
      have h2 := congrArg ((fun c : Fin J.columns.length => x c) ⬝ᵥ ·) h
      simp only [dotProduct_zero] at h2
      rw [← mulVec_mulVec, dotProduct_mulVec, vecMul_transpose] at h2
      have := (hbJ fun c => x c).1
      rw [h2] at this
      have := mul_pos hμ (sq_pos_dot hx0)
      linarith
    have hlpos := C111.falling_pos hl.initial (settings := s.opt.settings) k
    have hsz := hL.gram_size J
    obtain ⟨d0, hd0⟩ := C85.solved hL hP hne (lambda := fallingDamping s.opt.settings k) hbJ (by linarith [hl.large])
      (by have := hl.balanced; linarith) (damped realArith (L.gram J) (fallingDamping s.opt.settings k)) hsz.1 hsz.2
      (square_damped hL J _) r
    -- the first trial is accepted
    rw [hdamp] at htr
    have hfail : ∀ l' b, ¬ FailedTrial realArith L s.opt.settings s1.heap s.graph.getAllVariables s.graph.getAllFactors r J
        (fallingDamping s.opt.settings k) l' b := by
      intro l' b hf
      cases hf with
      | unsolved h => exact h d0 hd0
      | worse h1 h2 h3 h4 =>
        rw [hl.rate] at h2
        have := (affine_gain hL hn hmem hp.noRepeats hl.affine hl.additive hb.1 hlin hlpos h1 h2 h3).2 hg
        simp only [realArith, decide_eq_false_iff_not, not_lt] at h4 this
        push_cast at h4
        linarith
    cases htr with
    | retry h _ => exact absurd h (hfail _ _)
    | limit h => exact absurd h (hfail _ _)
    | @accepted _ _ d r' h' h1 h2 h3 h4 =>
      rcases hcase with ⟨dx, r'', ho, e⟩ | ⟨ho, _⟩
      · cases ho
        rw [hl.rate] at h2
        have hc := affine_closer hL hn hmem hp.noRepeats hl.affine hl.additive hb hl.same hl.solution hlin hlpos hμ.le
          (fun v => (hbJ v).1) h1 h2 h3
        constructor
        · rw [e]
          show realArith.stdMax _ _ = max _ _
          unfold Arith.stdMax
          simp only [realArith]
          push_cast
          split
          · rename_i hn
            rw [max_eq_right (of_decide_eq_true hn).le]
          · rename_i hn
            rw [max_eq_left (not_lt.1 fun h => hn (decide_eq_true h))]
        · rw [Finset.prod_range_succ]
          generalize fallingDamping s.opt.settings k = l at *
          have hpos : 0 < l + μ := by linarith
          have h5 : apart s.heap s.graph.getAllVariables s2.heap best ≤
              (l / (l + μ)) ^ 2 * apart s.heap s.graph.getAllVariables s1.heap best := by
            rw [div_pow, div_mul_eq_mul_div, le_div_iff₀ (by positivity), mul_comm]
            exact hc
          refine h5.trans ?_
          rw [mul_pow, mul_comm _ ((l / (l + μ)) ^ 2), mul_assoc]
          exact mul_le_mul_of_nonneg_left hle (by positivity)
      · cases ho

theorem C111.near (hL : ExactLinAlg L) (hP : ExactPivots L) (env : Env ℝ V) {s : OptWorld ℝ V Fact} {best : Heap V}
    {μ high : ℝ} (hl : C111.Linear s best μ high)
    (r0 : List ℝ) (hr : (computeResidual env s.heap s.graph).2 = .ok r0) (k : Nat) (s1 : OptWorld ℝ V Fact)
    (hit : Iterations realArith L env k (loopStart realArith env s r0) s1) :
    C111.Near s best μ k s1.heap (firstDamping s.opt.settings s1.opt.stats) := by
  induction k generalizing s1 with
  | zero =>
    cases hit
    refine .inr ⟨rfl, ?_⟩
    simp only [Finset.range_zero, Finset.prod_empty, one_pow, one_mul]
    exact le_rfl
  | succ k ih =>
    obtain ⟨s2, hit2, ho, _⟩ := C66_continues realArith L env s hl.prepared.graph r0 k s1 hit
    have := C111.step hL hP env hl r0 hr k s2 s1 hit2 ho (ih s2 hit2)
    have hi : s1.opt.stats.iteration = k + 1 := (iterations_head hit hl.prepared.graph rfl rfl rfl).iteration
    rwa [firstDamping, hi, if_neg (Nat.succ_ne_zero k)]

theorem C111.bound {s : OptWorld ℝ V Fact} {best : Heap V} {μ high : ℝ} (hl : C111.Linear s best μ high) {k : Nat}
    {heap : Heap V} {damping : ℝ} (h : C111.Near s best μ k heap damping) :
    apart s.heap s.graph.getAllVariables heap best ≤
      (∏ i ∈ Finset.range k, fallingDamping s.opt.settings i / (fallingDamping s.opt.settings i + μ)) ^ 2 *
        apart s.heap s.graph.getAllVariables s.heap best := by
  rcases h with h | ⟨_, h⟩
  · rw [h]
    refine mul_nonneg (sq_nonneg _) ?_
    rw [apart]
    refine List.sum_nonneg fun y hy => ?_
    obtain ⟨q, _, rfl⟩ := List.mem_map.1 hy
    exact Finset.sum_nonneg fun j _ => sq_nonneg _
  · exact h

/-- **C111**, iterations. In a linear problem whose matrix is well conditioned, with eigenvalues of `JᵀJ` of at least `μ`, every
iteration of Levenberg-Marquardt multiplies the distance from the solution by at most `λ / (λ + μ)`, where the damping `λ` falls
by `lambda_down_factor` from iteration to iteration. -/
theorem C111_iterations (hL : ExactLinAlg L) (hP : ExactPivots L) (env : Env ℝ V) {s : OptWorld ℝ V Fact} {best : Heap V}
    {μ high : ℝ} (hl : C111.Linear s best μ high)
    (r0 : List ℝ) (hr : (computeResidual env s.heap s.graph).2 = .ok r0) (k : Nat) (s1 : OptWorld ℝ V Fact)
    (hit : Iterations realArith L env k (loopStart realArith env s r0) s1) :
    apart s.heap s.graph.getAllVariables s1.heap best ≤
      (∏ i ∈ Finset.range k, fallingDamping s.opt.settings i / (fallingDamping s.opt.settings i + μ)) ^ 2 *
        apart s.heap s.graph.getAllVariables s.heap best :=
  C111.bound hl (C111.near hL hP env hl r0 hr k s1 hit)

/-- **C111**, runs. A valid run with at least one iteration ends at values whose distance from the solution is at most that at
the start times the product of `λ / (λ + μ)` over the reported number of iterations. -/
theorem C111_run (hL : ExactLinAlg L) (hP : ExactPivots L) (env : Env ℝ V) {s t : OptWorld ℝ V Fact} {best : Heap V}
    {μ high : ℝ} (hl : C111.Linear s best μ high) (hpos : 0 < s.opt.settings.maxIterations)
    (hret : optimize realArith L env s = (t, .ok ())) (hv : t.opt.stats.valid = true) :
    apart s.heap s.graph.getAllVariables t.heap best ≤
      (∏ i ∈ Finset.range t.opt.stats.iteration,
        fallingDamping s.opt.settings i / (fallingDamping s.opt.settings i + μ)) ^ 2 *
        apart s.heap s.graph.getAllVariables s.heap best := by
  obtain ⟨r0, k, s1, s2, hr, hit, ho, herr, hheap, hstat⟩ := C110.last env hl.prepared.graph hpos hret hv
  obtain ⟨h0, pre, post, hw, hpre⟩ := hl.prepared.history
  have hp := hl.prepared
  have hi : t.opt.stats.iteration = k + 1 := by
    have hi1 : s1.opt.stats.iteration = k := (iterations_head hit hp.graph rfl rfl rfl).iteration
    obtain ⟨r, J, o, lambda, hlin, htr, ⟨dx, r', rfl, e⟩ | ⟨_, _, n, e⟩⟩ := C67_levenberg_marquardt_partial realArith L env s hw hpre
      hp.ids hp.noRepeats hp.safe hp.proper hp.graph hl.method hl.restorable r0 hr k s1 s2 hit ho
    · rw [hstat, e, ← hi1]
    · rw [hstat, e, ← hi1]
  rw [hheap, hi]
  exact C111.bound hl (C111.step hL hP env hl r0 hr k s1 s2 hit ho (C111.near hL hP env hl r0 hr k s1 hit))

/-! ### The small graph -/

namespace C111

theorem coeffs : (TinyWorld.jac (2 : ℝ) 3 1).coeff 0 0 = 2 ∧ (TinyWorld.jac (2 : ℝ) 3 1).coeff 1 0 = -3 ∧
    (TinyWorld.jac (2 : ℝ) 3 1).coeff 2 0 = 0 ∧ (TinyWorld.jac (2 : ℝ) 3 1).coeff 0 1 = 0 ∧
    (TinyWorld.jac (2 : ℝ) 3 1).coeff 1 1 = 3 ∧ (TinyWorld.jac (2 : ℝ) 3 1).coeff 2 1 = 1 := by
  refine ⟨?_, ?_, ?_, ?_, ?_, ?_⟩ <;> cbv

theorem solution : Solution (TinyWorld.heap (214 / 49 : ℝ) (271 / 49) 1) [0, 1, 2] (TinyWorld.facs 4 7 2 3 1) := by
  refine ⟨_, _, C104.linearisedAt _ _ _ _ _ _ _ _, ?_⟩
  obtain ⟨h1, h2, h3, h4, h5, h6⟩ := coeffs
  funext c
  rw [gradient_apply]
  show ∑ a ∈ Finset.range 3, _ = (0 : ℝ)
  have hc : (c : Nat) < 2 := c.2
  generalize (c : Nat) = c at hc
  simp only [Finset.sum_range_succ, Finset.sum_range_zero]
  interval_cases c
  · rw [h1, h2, h3]; norm_num
  · rw [h4, h5, h6]; norm_num

theorem tiny_between : Between (TinyWorld.jac (2 : ℝ) 3 1) 2 21 := by
  intro x
  obtain ⟨h1, h2, h3, h4, h5, h6⟩ := coeffs
  obtain ⟨y, hy⟩ : ∃ y : Nat → ℝ, ∀ c : Fin (TinyWorld.jac (2 : ℝ) 3 1).columns.length, y c = x c :=
    ⟨fun c => if hc : c < (TinyWorld.jac (2 : ℝ) 3 1).columns.length then x ⟨c, hc⟩ else 0, fun c => by simp⟩
  obtain ⟨e1, e2⟩ := C111.forms (TinyWorld.jac (2 : ℝ) 3 1) x hy
  rw [e1, e2, show (TinyWorld.jac (2 : ℝ) 3 1).columns.length = 2 from rfl, show (TinyWorld.jac (2 : ℝ) 3 1).rows = 3 from rfl]
  simp only [Finset.sum_range_succ, Finset.sum_range_zero, h1, h2, h3, h4, h5, h6]
  generalize y 0 = a
  generalize y 1 = b
  constructor
  · nlinarith [sq_nonneg (11 * a - 9 * b), sq_nonneg b]
  · nlinarith [sq_nonneg (8 * a + 9 * b), sq_nonneg b]

theorem linear : C111.Linear (Fact := Ldlt.Fact ℝ) (C110.start C110.lm) (TinyWorld.heap (214 / 49 : ℝ) (271 / 49) 1) 2 21 where
  prepared := C110.prepared _
  method := rfl
  restorable := C110.restorable _
  rate := by show C110.lm.learningRate = 1; simp [C110.lm, Settings.default, realArith]
  initial := C110.lm_positive.2.1
  up := C110.lm_positive.2.2.1
  max := C110.lm_positive.2.2.2.1
  affine := C24.affine 0 0 1 4 7 2 3 1
  additive := C24_generic_increments _ _
  start := by
    rw [show (C110.start C110.lm).graph.getAllVariables = [0, 1, 2] from TinyWorld.vars_eq 0 0 1 4 7 2 3 1,
      show (C110.start C110.lm).graph.getAllFactors = TinyWorld.facs 4 7 2 3 1 from TinyWorld.facs_eq 0 0 1 4 7 2 3 1,
      show (C110.start C110.lm).heap = TinyWorld.heap 0 0 1 from TinyWorld.heap_eq 0 0 1 4 7 2 3 1]
    exact ⟨_, _, C104.linearisedAt _ _ _ _ _ _ _ _, C111.tiny_between⟩
  large := by norm_num
  balanced := by norm_num
  same := by
    rw [show (C110.start C110.lm).graph.getAllVariables = [0, 1, 2] from TinyWorld.vars_eq 0 0 1 4 7 2 3 1,
      show (C110.start C110.lm).heap = TinyWorld.heap 0 0 1 from TinyWorld.heap_eq 0 0 1 4 7 2 3 1]
    refine ⟨fun r => ?_, fun r hr => ?_⟩
    · match r with
      | 0 => exact ⟨rfl, rfl, rfl⟩
      | 1 => exact ⟨rfl, rfl, rfl⟩
      | r + 2 => exact ⟨rfl, rfl, rfl⟩
    · match r with
      | 0 => exact absurd ⟨by simp, rfl⟩ hr
      | 1 => exact absurd ⟨by simp, rfl⟩ hr
      | r + 2 => rfl
  solution := by
    rw [show (C110.start C110.lm).graph.getAllVariables = [0, 1, 2] from TinyWorld.vars_eq 0 0 1 4 7 2 3 1,
      show (C110.start C110.lm).graph.getAllFactors = TinyWorld.facs 4 7 2 3 1 from TinyWorld.facs_eq 0 0 1 4 7 2 3 1]
    exact C111.solution

end C111

example (r0 : List ℝ) (hr : (computeResidual (TinyWorld.env 0) (C110.start C110.lm).heap (C110.start C110.lm).graph).2 = .ok r0)
    (k : Nat) (s1 s2 : OptWorld ℝ (GenVar ℝ) (Ldlt.Fact ℝ))
    (hit : Iterations realArith Ldlt.linAlg (TinyWorld.env 0) k (loopStart realArith (TinyWorld.env 0) (C110.start C110.lm) r0) s1)
    (hstep : oneStep realArith Ldlt.linAlg (TinyWorld.env 0) s1 = (s2, .ok ())) :
    apart (C110.start C110.lm).heap (C110.start C110.lm).graph.getAllVariables s2.heap (TinyWorld.heap (214 / 49 : ℝ) (271 / 49) 1) ≤
      apart (C110.start C110.lm).heap (C110.start C110.lm).graph.getAllVariables s1.heap (TinyWorld.heap (214 / 49 : ℝ) (271 / 49) 1) :=
  C111_never_farther Ldlt.exact (TinyWorld.env 0) C111.linear.prepared C111.linear.method C111.linear.restorable C111.linear.rate
    C111.linear.initial C111.linear.up C111.linear.max C111.linear.affine C111.linear.additive _ C111.linear.same
    C111.linear.solution r0 hr k s1 s2 hit hstep

example (r0 : List ℝ) (hr : (computeResidual (TinyWorld.env 0) (C110.start C110.lm).heap (C110.start C110.lm).graph).2 = .ok r0)
    (s1 : OptWorld ℝ (GenVar ℝ) (Ldlt.Fact ℝ))
    (hit : Iterations realArith Ldlt.linAlg (TinyWorld.env 0) 2 (loopStart realArith (TinyWorld.env 0) (C110.start C110.lm) r0) s1) :=
  C111_iterations Ldlt.exact Ldlt.exact_pivots (TinyWorld.env 0) C111.linear r0 hr 2 s1 hit

/-- The distance after a run on the small graph that reports three iterations is at most `10⁻¹²` of what it was. -/
example (t : OptWorld ℝ (GenVar ℝ) (Ldlt.Fact ℝ))
    (hret : optimize realArith Ldlt.linAlg (TinyWorld.env 0) (C110.start C110.lm) = (t, .ok ()))
    (hv : t.opt.stats.valid = true) (h3 : t.opt.stats.iteration = 3) :
    apart (C110.start C110.lm).heap [0, 1, 2] t.heap (TinyWorld.heap (214 / 49 : ℝ) (271 / 49) 1) ≤
      (1 / 10 ^ 12) ^ 2 * apart (C110.start C110.lm).heap [0, 1, 2] (C110.start C110.lm).heap (TinyWorld.heap (214 / 49 : ℝ) (271 / 49) 1) := by
  have h := C111_run Ldlt.exact Ldlt.exact_pivots (TinyWorld.env 0) C111.linear C110.lm_positive.2.2.2.2.2 hret hv
  rw [show (C110.start C110.lm).graph.getAllVariables = [0, 1, 2] from TinyWorld.vars_eq 0 0 1 4 7 2 3 1, h3] at h
  refine h.trans (mul_le_mul_of_nonneg_right ?_ ?_)
  · have e : (C110.start C110.lm).opt.settings.initialLambda = 1 / 1000 ∧ (C110.start C110.lm).opt.settings.lambdaDown = 1 / 10 := by
      constructor
      · show C110.lm.initialLambda = _; simp [C110.lm, Settings.default, realArith]
      · show C110.lm.lambdaDown = _; simp [C110.lm, Settings.default, realArith]
    simp only [Finset.prod_range_succ, Finset.prod_range_zero, fallingDamping, e.1, e.2]
    norm_num
  · rw [apart]
    refine List.sum_nonneg fun y hy => ?_
    obtain ⟨q, _, rfl⟩ := List.mem_map.1 hy
    exact Finset.sum_nonneg fun j _ => sq_nonneg _

/-- In rational arithmetic this run is valid and takes three iterations. -/
example :
    let lm := (optimize ToyOpt.rat Ldlt.linAlg (TinyWorld.env 0) (ToyOpt.start (TinyWorld.world 0 0 1 4 7 2 3 1) ToyCurved.lm)).1
    lm.opt.stats.valid = true ∧ lm.opt.stats.iteration = 3 := by
  decide +kernel

end Factorama.Props
