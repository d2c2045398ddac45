import Verif.Lemmas.InStep
import Verif.Lemmas.Columns
import Verif.Props.Conditioning
import Verif.Props.NoDrift
import Verif.Spec.Correspond

/-! Helper lemmas: two problems that correspond to each other are optimized alike. -/

namespace Factorama
open Spec Opt Matrix Graph Props
variable {V Fact : Type} [VarLike ℝ V] {L : LinAlg ℝ Fact}

/-! ### Scaled norms -/

theorem scaledStats_inv {c : ℝ} (hc : 0 < c) (x : Stats ℝ) : scaledStats c⁻¹ (scaledStats c x) = x := by
  cases x
  simp only [scaledStats, Stats.mk.injEq, true_and, and_true]
  constructor <;> field_simp

theorem scaledSettings_inv {c : ℝ} (hc : 0 < c) (x : Settings ℝ) : scaledSettings c⁻¹ (scaledSettings c x) = x := by
  cases x
  simp only [scaledSettings, Settings.mk.injEq, true_and, and_true]
  field_simp

theorem scaled_stops {c : ℝ} (hc : 0 < c) {settings : Settings ℝ} {start before now delta : ℝ} {st : Status} {v : Bool}
    (h : Stops realArith settings start before now delta st v) :
    Stops realArith (scaledSettings c settings) (c * start) (c * before) (c * now) delta st v := by
  have e : ∀ x y : ℝ, (c * x < c * y) ↔ x < y := fun x y => mul_lt_mul_iff_right₀ hc
  have e' : ∀ x y : ℝ, (c * x ≤ c * y) ↔ x ≤ y := fun x y => mul_le_mul_iff_right₀ hc
  have e0 : ∀ x : ℝ, c * x < 0 ↔ x < 0 := fun x => by simpa using e x 0
  have e1 : c * before - c * now = c * (before - now) := by ring
  have e2 : (10 : ℝ) * (c * start) = c * (10 * start) := by ring
  cases h with
  | smallStep h1 => exact .smallStep h1
  | worseThanStart h1 h2 h3 =>
    refine .worseThanStart h1 ?_ ?_
    · simp only [realArith] at h2 ⊢
      push_cast at h2 ⊢
      rw [e1]; simpa only [e0] using h2
    · simp only [realArith] at h3 ⊢
      simpa only [e'] using h3
  | worseThanBefore h1 h2 h3 =>
    refine .worseThanBefore h1 ?_ ?_
    · simp only [realArith] at h2 ⊢
      push_cast at h2 ⊢
      rw [e1]; simpa only [e0] using h2
    · simp only [realArith] at h3 ⊢
      simpa only [e'] using h3
  | smallGain h1 h2 h3 =>
    refine .smallGain h1 ?_ ?_
    · simp only [realArith] at h2 ⊢
      push_cast at h2 ⊢
      rw [e1]; simpa only [e0] using h2
    · simp only [realArith, scaledSettings] at h3 ⊢
      rw [e1]; simpa only [e] using h3
  | tenfold h1 h2 h3 h4 =>
    refine .tenfold h1 ?_ ?_ ?_
    · simp only [realArith] at h2 ⊢
      push_cast at h2 ⊢
      rw [e1]; simpa only [e0] using h2
    · simp only [realArith, scaledSettings] at h3 ⊢
      rw [e1]; simpa only [e] using h3
    · simp only [realArith] at h4 ⊢
      push_cast at h4 ⊢
      rw [e2]; simpa only [e] using h4

/-! ### Two runs in step -/

/-- The run of `s'` is in step with the run of `s`: from corresponding variables and statistics, two iterations that both
succeed lead to corresponding variables and statistics. -/
def InStepBy (c : ℝ) (H : Heap V → Heap V → Prop) (L : LinAlg ℝ Fact) (env env' : Env ℝ V) (s s' : OptWorld ℝ V Fact) : Prop :=
  ∀ (k : Nat) (s1 s1' s2 s2' : OptWorld ℝ V Fact), Iterations realArith L env k s s1 → Iterations realArith L env' k s' s1' →
    H s1.heap s1'.heap → s1'.opt.stats = scaledStats c s1.opt.stats → oneStep realArith L env s1 = (s2, .ok ()) →
    oneStep realArith L env' s1' = (s2', .ok ()) → ¬ Status.isSystemError s2.opt.stats.status →
    ¬ Status.isSystemError s2'.opt.stats.status → H s2.heap s2'.heap ∧ s2'.opt.stats = scaledStats c s2.opt.stats

theorem InStepBy.iterations {c : ℝ} {H : Heap V → Heap V → Prop} {env env' : Env ℝ V} {s s' : OptWorld ℝ V Fact}
    (h : InStepBy c H L env env' s s') (hheap : H s.heap s'.heap) (hstats : s'.opt.stats = scaledStats c s.opt.stats) {k : Nat}
    {t t' : OptWorld ℝ V Fact} (hit : Iterations realArith L env k s t) (hit' : Iterations realArith L env' k s' t') :
    H t.heap t'.heap ∧ t'.opt.stats = scaledStats c t.opt.stats := by
  induction k generalizing t t' with
  | zero => cases hit; cases hit'; exact ⟨hheap, hstats⟩
  | succ k ih =>
    cases hit with
    | @succ _ _ t1 _ h1 h2 h3 =>
      cases hit' with
      | @succ _ _ t1' _ h1' h2' h3' =>
        obtain ⟨e1, e2⟩ := ih h1 h1'
        exact h k t1 t1' t t' h1 h1' e1 e2 h2 h2' (afterStep_cont h3).2 (afterStep_cont h3').2

theorem InStepBy.symm {c : ℝ} (hc : 0 < c) {H : Heap V → Heap V → Prop} {env env' : Env ℝ V} {s s' : OptWorld ℝ V Fact}
    (h : InStepBy c H L env env' s s') : InStepBy c⁻¹ (fun a b => H b a) L env' env s' s := by
  intro k s1 s1' s2 s2' h1 h2 h3 h4 h5 h6 h7 h8
  obtain ⟨e1, e2⟩ := h k s1' s1 s2' s2 h2 h1 h3 (by
    rw [h4]
    have := scaledStats_inv (inv_pos.2 hc) s1.opt.stats
    rw [inv_inv] at this
    exact this.symm) h6 h5 h8 h7
  exact ⟨e1, by rw [e2, scaledStats_inv hc]⟩

/-- A run that stops does not stop later when in step with it. -/
theorem InStepBy.not_later {c : ℝ} (hc : 0 < c) {H : Heap V → Heap V → Prop} {env env' : Env ℝ V} {s s' : OptWorld ℝ V Fact}
    {r0 r0' : List ℝ} (h : InStepBy c H L env env' (loopStart realArith env s r0) (loopStart realArith env' s' r0'))
    (hheap : H s.heap s'.heap) (hstart : startStats realArith r0' = scaledStats c (startStats realArith r0))
    (hset : s'.opt.settings = scaledSettings c s.opt.settings)
    (hg' : s'.opt.hasGraph = true) {k k' : Nat} {s1 s2 t : OptWorld ℝ V Fact} {status : Status} {valid : Bool}
    (h1 : Iterations realArith L env k (loopStart realArith env s r0) s1) (h2 : oneStep realArith L env s1 = (s2, .ok ()))
    (h3 : ¬ isErrorStatus s2.opt.stats.status)
    (h4 : Stops realArith s.opt.settings (realArith.norm r0) s1.opt.stats.residualNorm s2.opt.stats.residualNorm
      s2.opt.stats.deltaNorm status valid)
    (hk : k < k') (hit : Iterations realArith L env' k' (loopStart realArith env' s' r0') t) : False := by
  obtain ⟨u, hu⟩ := iterations_prefix hit (Nat.succ_le_of_lt hk)
  obtain ⟨u1, hu1, hu2, _, hu3, hu4⟩ := Props.C66_continues realArith L env' s' hg' r0' k u hu
  have hnorm : realArith.norm r0' = c * realArith.norm r0 := congrArg Stats.residualNorm hstart
  obtain ⟨e1, e2⟩ := h.iterations hheap hstart h1 hu1
  obtain ⟨_, e4⟩ := h k s1 u1 s2 u h1 hu1 e1 e2 h2 hu2 (not_system_of_not_error h3) (not_system_of_not_error hu3)
  rw [e2, e4, hset, hnorm] at hu4
  exact (scaled_stops hc h4).not_continues hu4

/-- Two runs in step that end without an error end alike. -/
theorem InStepBy.ends {c : ℝ} (hc : 0 < c) {H : Heap V → Heap V → Prop} {env env' : Env ℝ V} {s s' : OptWorld ℝ V Fact}
    {r0 r0' : List ℝ} (h : InStepBy c H L env env' (loopStart realArith env s r0) (loopStart realArith env' s' r0'))
    (hheap : H s.heap s'.heap) (hstart : startStats realArith r0' = scaledStats c (startStats realArith r0))
    (hset : s'.opt.settings = scaledSettings c s.opt.settings)
    (hg : s.opt.hasGraph = true) (hg' : s'.opt.hasGraph = true) (hr : (Graph.computeResidual env s.heap s.graph).2 = .ok r0)
    (hr' : (Graph.computeResidual env' s'.heap s'.graph).2 = .ok r0') {t t' : OptWorld ℝ V Fact}
    (hret : optimize realArith L env s = (t, .ok ())) (hret' : optimize realArith L env' s' = (t', .ok ()))
    (hst : ¬ Status.isSystemError t.opt.stats.status) (hst' : ¬ Status.isSystemError t'.opt.stats.status) :
    H t.heap t'.heap ∧ t'.opt.stats = scaledStats c t.opt.stats := by
  have hmax : s'.opt.settings.maxIterations = s.opt.settings.maxIterations := by rw [hset]; rfl
  have hnorm : realArith.norm r0' = c * realArith.norm r0 := congrArg Stats.residualNorm hstart
  have hback : InStepBy c⁻¹ (fun a b => H b a) L env' env (loopStart realArith env' s' r0') (loopStart realArith env s r0) := h.symm hc
  have hstart' : startStats realArith r0 = scaledStats c⁻¹ (startStats realArith r0') := by rw [hstart, scaledStats_inv hc]
  have hset' : s.opt.settings = scaledSettings c⁻¹ s'.opt.settings := by rw [hset, scaledSettings_inv hc]
  obtain ⟨k, hk⟩ := endsWell hg hr hret hst
  obtain ⟨k', hk'⟩ := endsWell hg' hr' hret' hst'
  cases hk with
  | stopped h1 h2 h3 h4 h5 h6 h7 =>
    cases hk' with
    | stopped h1' h2' h3' h4' h5' h6' h7' =>
      rcases Nat.lt_trichotomy k k' with hlt | rfl | hlt
      · exact (h.not_later hc hheap hstart hset hg' h1 h2 h4 h5 hlt h1').elim
      · obtain ⟨e1, e2⟩ := h.iterations hheap hstart h1 h1'
        obtain ⟨e3, e4⟩ := h k _ _ _ _ h1 h1' e1 e2 h2 h2' (not_system_of_not_error h4) (not_system_of_not_error h4')
        rw [e2, e4, hset, hnorm] at h5'
        obtain ⟨rfl, rfl⟩ := (scaled_stops hc h5).unique h5'
        exact ⟨by rw [h3, h3']; exact e3, by rw [h6, h6', e4]; rfl⟩
      · exact (hback.not_later (inv_pos.2 hc) hheap hstart' hset' hg h1' h2' h4' h5' hlt h1).elim
    | limit h1' _ _ =>
      exact (h.not_later hc hheap hstart hset hg' h1 h2 h4 h5 (by rw [hmax]; exact h7) h1').elim
  | limit h1 h2 h3 =>
    cases hk' with
    | stopped h1' h2' h3' h4' h5' h6' h7' =>
      exact (hback.not_later (inv_pos.2 hc) hheap hstart' hset' hg h1' h2' h4' h5' (by rw [← hmax]; exact h7') h1).elim
    | limit h1' h2' h3' =>
      rw [hmax] at h1'
      obtain ⟨e1, e2⟩ := h.iterations hheap hstart h1 h1'
      exact ⟨by rw [h2, h2']; exact e1, by rw [h3, h3', e2]; rfl⟩

/-! ### Corresponding linear systems -/

theorem norm_eq_of_sq {r r' : List ℝ} {c : ℝ} (hc : 0 < c) (h : realArith.sqNorm r' = c ^ 2 * realArith.sqNorm r) :
    realArith.norm r' = c * realArith.norm r := by
  show √ (realArith.sqNorm r') = c * √ (realArith.sqNorm r)
  rw [h, Real.sqrt_mul (sq_nonneg c), Real.sqrt_sq hc.le]

theorem startStats_scaled {r r' : List ℝ} {c : ℝ} (hc : 0 < c) (h : realArith.sqNorm r' = c ^ 2 * realArith.sqNorm r) :
    startStats realArith r' = scaledStats c (startStats realArith r) := by
  simp only [startStats, scaledStats, norm_eq_of_sq hc h, h]

theorem sqNorm_scale (rate : ℝ) {n : Nat} (d : List ℝ) (h : d.length = n) :
    realArith.sqNorm (realArith.scale rate d) = rate ^ 2 * (asVec n d ⬝ᵥ asVec n d) := by
  subst h
  have e : asVec d.length d ⬝ᵥ asVec d.length d = (d.map fun x => x * x).sum := by
    have : d.map (fun x => x * x) = List.ofFn fun i : Fin d.length => d.getD i 0 * d.getD i 0 := by
      apply List.ext_getElem
      · simp
      · intro i h1 h2
        simp only [List.length_map] at h1
        simp [h1]
    rw [this, List.sum_ofFn]
    rfl
  rw [e]
  show ((d.map fun x => x * rate).map fun x => x * x).sum = _
  rw [List.map_map, ← List.sum_map_mul_left]
  congr 1
  refine List.map_congr_left fun x _ => ?_
  show x * rate * (x * rate) = rate ^ 2 * (x * x)
  ring

/-- Corresponding systems have corresponding solutions. -/
theorem OnlySolution.correspond {J J' : SpMat ℝ} {r r' d d' : List ℝ} {c lambda : ℝ}
    {B : Matrix (Fin J'.columns.length) (Fin J.columns.length) ℝ} (hB : Bᵀ * B = 1)
    (hH : ((jacobianMatrix J')ᵀ * jacobianMatrix J') * B = c ^ 2 • (B * ((jacobianMatrix J)ᵀ * jacobianMatrix J)))
    (hg : gradient J' r' = c ^ 2 • (B *ᵥ gradient J r)) (h : OnlySolution J r lambda d)
    (h' : OnlySolution J' r' (c ^ 2 * lambda) d') :
    asVec J'.columns.length d' = B *ᵥ asVec J.columns.length d ∧
    ∀ rate, realArith.norm (realArith.scale rate d') = realArith.norm (realArith.scale rate d) := by
  have e : asVec J'.columns.length d' = B *ᵥ asVec J.columns.length d := by
    symm
    rw [← h'.only]
    have hd := (h.only (asVec J.columns.length d)).2 rfl
    have : ((jacobianMatrix J')ᵀ * jacobianMatrix J' + (c ^ 2 * lambda) • 1) * B =
        c ^ 2 • (B * ((jacobianMatrix J)ᵀ * jacobianMatrix J + lambda • 1)) := by
      rw [Matrix.add_mul, hH, Matrix.mul_add, smul_add, Matrix.smul_mul, Matrix.one_mul, Matrix.mul_smul, Matrix.mul_one, smul_smul]
    rw [mulVec_mulVec, this, smul_mulVec, ← mulVec_mulVec, hd, hg, mulVec_neg, smul_neg]
  refine ⟨e, fun rate => ?_⟩
  show √ _ = √ _
  rw [sqNorm_scale rate d' h'.length, sqNorm_scale rate d h.length, e]
  congr 2
  rw [dotProduct_mulVec, vecMul_mulVec, hB, vecMul_one]

section
variable {c : ℝ} {H : Heap V → Heap V → Prop} {vars vars' : List VRef} {facs facs' : List (Factor ℝ V)}

theorem Spec.Correspond.wellConditioned (hcor : Correspond 1 H vars facs vars' facs') {h h' : Heap V} {r r' : List ℝ}
    {J J' : SpMat ℝ} (hH : H h h') (hlin : Linearised h vars facs r J) (hlin' : Linearised h' vars' facs' r' J')
    (hw : WellConditioned J) : WellConditioned J' := by
  obtain ⟨B, hB, hB', hM, _⟩ := hcor.step h h' r r' J J' hH hlin hlin'
  obtain ⟨low, high, hb, h1, h2⟩ := hw
  refine ⟨low, high, fun x => ?_, h1, h2⟩
  have key : (jacobianMatrix J')ᵀ * jacobianMatrix J' = B * ((jacobianMatrix J)ᵀ * jacobianMatrix J) * Bᵀ := by
    have := congrArg (· * Bᵀ) hM
    simpa [Matrix.mul_assoc, hB'] using this
  have := hb (Bᵀ *ᵥ x)
  have e1 : (Bᵀ *ᵥ x) ⬝ᵥ (Bᵀ *ᵥ x) = x ⬝ᵥ x := by
    rw [dotProduct_mulVec, vecMul_mulVec, Matrix.transpose_transpose, hB', vecMul_one]
  have e2 : (jacobianMatrix J *ᵥ (Bᵀ *ᵥ x)) ⬝ᵥ (jacobianMatrix J *ᵥ (Bᵀ *ᵥ x)) = (jacobianMatrix J' *ᵥ x) ⬝ᵥ (jacobianMatrix J' *ᵥ x) := by
    have quad : ∀ {m n : Nat} (M : Matrix (Fin m) (Fin n) ℝ) (y : Fin n → ℝ), (M *ᵥ y) ⬝ᵥ (M *ᵥ y) = y ⬝ᵥ ((Mᵀ * M) *ᵥ y) := by
      intro m n M y
      rw [dotProduct_mulVec, vecMul_mulVec, dotProduct_comm, ← mulVec_transpose, Matrix.transpose_mul, Matrix.transpose_transpose]
    rw [quad, quad, key, dotProduct_mulVec (Bᵀ *ᵥ x), ← dotProduct_mulVec, mulVec_mulVec]
    rw [dotProduct_comm, dotProduct_mulVec, vecMul_transpose, dotProduct_comm, mulVec_mulVec, ← Matrix.mul_assoc]
  rwa [e1, e2] at this

/-- Two outcomes of the trials of an iteration that correspond. -/
inductive SameOutcomeBy (H : Heap V → Heap V → Prop) :
    Option (List ℝ × Heap V × List ℝ) → Option (List ℝ × Heap V × List ℝ) → Prop where
  | none : SameOutcomeBy H none none
  | some {dx dx' q q' : List ℝ} {h h' : Heap V} : realArith.norm dx' = realArith.norm dx → H h h' →
      realArith.sqNorm q' = realArith.sqNorm q → SameOutcomeBy H (some (dx, h, q)) (some (dx', h', q'))

/-- If no system is refused, the trials of corresponding iterations take the same course. -/
theorem Spec.Correspond.trials (hcor : Correspond 1 H vars facs vars' facs') (hL : ExactLinAlg L) {h h' : Heap V} {r r' : List ℝ}
    {J J' : SpMat ℝ} (hH : H h h') (hlin : Linearised h vars facs r J) (hlin' : Linearised h' vars' facs' r' J')
    (hacc : ∀ l > 0, ∃ d, SystemSolved realArith L (damped realArith (L.gram J) l) (L.rhs J r) d)
    (hacc' : ∀ l > 0, ∃ d, SystemSolved realArith L (damped realArith (L.gram J') l) (L.rhs J' r') d)
    {settings : Settings ℝ} (hup : 0 < settings.lambdaUp) (hmax : 0 < settings.maxLambda) {n : Nat} {l l1 l1' : ℝ}
    (hl : 0 < l) {o o' : Option (List ℝ × Heap V × List ℝ)}
    (ht : Trials realArith L settings h vars facs r J n l o l1)
    (ht' : Trials realArith L settings h' vars' facs' r' J' n l o' l1') : l1' = l1 ∧ SameOutcomeBy H o o' := by
  have hsq : realArith.sqNorm r' = realArith.sqNorm r := by
    have := hcor.cost h h' r r' hH hlin.residual hlin'.residual
    simpa using this
  obtain ⟨B, hB, _, hM, hgr, hstep⟩ := hcor.step h h' r r' J J' hH hlin hlin'
  have key : ∀ {l : ℝ}, 0 < l → ∀ {d d' q q' : List ℝ} {g g' : Heap V},
      SystemSolved realArith L (damped realArith (L.gram J) l) (L.rhs J r) d →
      SystemSolved realArith L (damped realArith (L.gram J') l) (L.rhs J' r') d' →
      Stepped h g vars (realArith.scale settings.learningRate d) →
      Stepped h' g' vars' (realArith.scale settings.learningRate d') → IsResidual g facs q → IsResidual g' facs' q' →
      realArith.norm (realArith.scale settings.learningRate d') = realArith.norm (realArith.scale settings.learningRate d) ∧
      H g g' ∧ realArith.sqNorm q' = realArith.sqNorm q := by
    intro l hl d d' q q' g g' h1 h2 h3 h4 h5 h6
    have o1 := onlySolution_damped hL hl h1
    have o2 := onlySolution_damped hL hl h2
    obtain ⟨e1, e2⟩ := o1.correspond hB hM hgr (by simpa using o2)
    have hg := hstep _ d d' g g' o1.length o2.length e1 h3 h4
    exact ⟨e2 _, hg, by simpa using hcor.cost g g' q q' hg h5 h6⟩
  have failed : ∀ {l l' l'' : ℝ} {b b' : Bool}, 0 < l → FailedTrial realArith L settings h vars facs r J l l' b →
      FailedTrial realArith L settings h' vars' facs' r' J' l l'' b' → l'' = l' ∧ b' = b := by
    intro l l' l'' b b' hl h1 h2
    cases h1 with
    | unsolved h => obtain ⟨d, hd⟩ := hacc l hl; exact absurd hd (h d)
    | worse _ _ _ _ =>
      cases h2 with
      | unsolved h => obtain ⟨d, hd⟩ := hacc' l hl; exact absurd hd (h d)
      | worse _ _ _ _ => exact ⟨rfl, rfl⟩
  have clash : ∀ {l l' : ℝ} {b : Bool} {d q : List ℝ} {g : Heap V}, 0 < l →
      FailedTrial realArith L settings h vars facs r J l l' b →
      SystemSolved realArith L (damped realArith (L.gram J') l) (L.rhs J' r') d →
      Stepped h' g vars' (realArith.scale settings.learningRate d) → IsResidual g facs' q →
      realArith.lt (realArith.mul (realArith.lit (1 / 2)) (realArith.sqNorm q))
        (realArith.mul (realArith.lit (1 / 2)) (realArith.sqNorm r')) = true → False := by
    intro l l' b d q g hl h1 h2 h3 h4 h5
    cases h1 with
    | unsolved h => obtain ⟨d, hd⟩ := hacc l hl; exact absurd hd (h d)
    | worse g1 g2 g3 g4 =>
      obtain ⟨_, _, e⟩ := key hl g1 h2 g2 h3 g3 h4
      rw [e, hsq, g4] at h5
      cases h5
  have clash' : ∀ {l l' : ℝ} {b : Bool} {d q : List ℝ} {g : Heap V}, 0 < l →
      FailedTrial realArith L settings h' vars' facs' r' J' l l' b →
      SystemSolved realArith L (damped realArith (L.gram J) l) (L.rhs J r) d →
      Stepped h g vars (realArith.scale settings.learningRate d) → IsResidual g facs q →
      realArith.lt (realArith.mul (realArith.lit (1 / 2)) (realArith.sqNorm q))
        (realArith.mul (realArith.lit (1 / 2)) (realArith.sqNorm r)) = true → False := by
    intro l l' b d q g hl h1 h2 h3 h4 h5
    cases h1 with
    | unsolved h => obtain ⟨d, hd⟩ := hacc' l hl; exact absurd hd (h d)
    | worse g1 g2 g3 g4 =>
      obtain ⟨_, _, e⟩ := key hl h2 g1 h3 g2 h4 g3
      rw [← e, ← hsq, g4] at h5
      cases h5
  clear hH hlin hlin' hstep
  induction ht with
  | exhausted => cases ht'; exact ⟨rfl, .none⟩
  | accepted h1 h2 h3 h4 =>
    cases ht' with
    | accepted h1' h2' h3' h4' =>
      obtain ⟨e1, e2, e3⟩ := key hl h1 h1' h2 h2' h3 h3'
      exact ⟨rfl, .some e1 e2 e3⟩
    | retry hf _ => exact (clash' hl hf h1 h2 h3 h4).elim
    | limit hf => exact (clash' hl hf h1 h2 h3 h4).elim
  | retry hf _ ih =>
    cases ht' with
    | accepted h1' h2' h3' h4' => exact (clash hl hf h1' h2' h3' h4').elim
    | retry hf' ht' =>
      obtain ⟨rfl, _⟩ := failed hl hf hf'
      exact ih (Props.failed_positive hup hmax hl hf) ht'
    | limit hf' => obtain ⟨_, e⟩ := failed hl hf hf'; cases e
  | limit hf =>
    cases ht' with
    | accepted h1' h2' h3' h4' => exact (clash hl hf h1' h2' h3' h4').elim
    | retry hf' _ => obtain ⟨_, e⟩ := failed hl hf hf'; cases e
    | limit hf' =>
      obtain ⟨rfl, _⟩ := failed hl hf hf'
      exact ⟨rfl, .none⟩
end

/-! ### Runs of corresponding problems -/
section
variable [LawfulVar ℝ V]

/-- Gauss-Newton on corresponding problems goes in step. -/
theorem Spec.Correspond.gaussNewton_inStep {c : ℝ} (hc : 0 < c) {H : Heap V → Heap V → Prop} (hL : ExactLinAlg L) (env env' : Env ℝ V)
    (s s' : OptWorld ℝ V Fact) (hp : Prepared s) (hp' : Prepared s')
    (hcor : Correspond c H s.graph.getAllVariables s.graph.getAllFactors s'.graph.getAllVariables s'.graph.getAllFactors)
    (hset : s'.opt.settings = scaledSettings c s.opt.settings) (hm : s.opt.settings.method = .gaussNewton) (r0 r0' : List ℝ) :
    InStepBy c H L env env' (loopStart realArith env s r0) (loopStart realArith env' s' r0') := by
  obtain ⟨h0, pre, post, hw, hpre⟩ := hp.history
  obtain ⟨h0', pre', post', hw', hpre'⟩ := hp'.history
  intro k s1 s1' s2 s2' hit hit' eh es ho ho' hne hne'
  obtain ⟨r, J, hlin, hcase⟩ := Props.C67_gauss_newton realArith L env s hw hpre hp.ids hp.noRepeats hp.safe hp.proper hp.graph hm
    r0 k s1 s2 hit ho
  obtain ⟨r', J', hlin', hcase'⟩ := Props.C67_gauss_newton realArith L env' s' hw' hpre' hp'.ids hp'.noRepeats hp'.safe hp'.proper
    hp'.graph (by rw [hset]; exact hm) r0' k s1' s2' hit' ho'
  have hrefused : ∀ {H : Mat ℝ} {b : List ℝ} {status : Status}, SystemRefused realArith L H b status →
      Status.isSystemError status := by
    intro H b status h
    cases h <;> simp [Status.isSystemError]
  rcases hcase with ⟨st, h1, _, e⟩ | ⟨d, q, h1, h2, h3, h4⟩
  · rw [e] at hne; exact absurd (hrefused h1) hne
  rcases hcase' with ⟨st, h1', _, e⟩ | ⟨d', q', h1', h2', h3', h4'⟩
  · rw [e] at hne'; exact absurd (hrefused h1') hne'
  obtain ⟨B, hB, _, hM, hgr, hstep⟩ := hcor.step _ _ r r' J J' eh hlin hlin'
  have o1 := onlySolution_undamped hL h1
  have o2 := onlySolution_undamped hL h1'
  obtain ⟨e1, e2⟩ := o1.correspond hB hM hgr (by simpa using o2)
  have hrate : s'.opt.settings.learningRate = s.opt.settings.learningRate := by rw [hset]; rfl
  rw [hrate] at h2' h4'
  have hg := hstep _ d d' _ _ o1.length o2.length e1 h2 h2'
  have hq := hcor.cost _ _ q q' hg h3 h3'
  refine ⟨hg, ?_⟩
  rw [h4, h4', es, e2, norm_eq_of_sq hc hq, hq]
  rfl

/-- Gauss-Newton on corresponding problems. -/
theorem Spec.Correspond.gaussNewton {c : ℝ} (hc : 0 < c) {H : Heap V → Heap V → Prop} (hL : ExactLinAlg L) (env env' : Env ℝ V)
    (s s' : OptWorld ℝ V Fact) (hp : Prepared s) (hp' : Prepared s')
    (hcor : Correspond c H s.graph.getAllVariables s.graph.getAllFactors s'.graph.getAllVariables s'.graph.getAllFactors)
    (hH : H s.heap s'.heap) (hset : s'.opt.settings = scaledSettings c s.opt.settings)
    (hm : s.opt.settings.method = .gaussNewton) (r0 r0' : List ℝ)
    (hr : (Graph.computeResidual env s.heap s.graph).2 = .ok r0)
    (hr' : (Graph.computeResidual env' s'.heap s'.graph).2 = .ok r0') (t t' : OptWorld ℝ V Fact)
    (hret : optimize realArith L env s = (t, .ok ())) (hret' : optimize realArith L env' s' = (t', .ok ()))
    (hst : t.opt.stats.status = .success ∨ t.opt.stats.status = .diverged)
    (hst' : t'.opt.stats.status = .success ∨ t'.opt.stats.status = .diverged) :
    H t.heap t'.heap ∧ t'.opt.stats = scaledStats c t.opt.stats := by
  obtain ⟨h0, pre, post, hw, hpre⟩ := hp.history
  obtain ⟨h0', pre', post', hw', hpre'⟩ := hp'.history
  have hres0 := evaluated_isResidual (finalizedAfter_layout hw) (computeResidual_evaluated hr)
  have hres0' := evaluated_isResidual (finalizedAfter_layout hw') (computeResidual_evaluated hr')
  have hsys : ∀ st : Status, st = .success ∨ st = .diverged → ¬ Status.isSystemError st := by
    rintro st (rfl | rfl) <;> simp [Status.isSystemError]
  exact InStepBy.ends hc (hcor.gaussNewton_inStep hc hL env env' s s' hp hp' hset hm r0 r0') hH
    (startStats_scaled hc (hcor.cost _ _ _ _ hH hres0 hres0')) hset hp.graph hp'.graph hr hr' hret hret' (hsys _ hst) (hsys _ hst')

/-- Levenberg-Marquardt on corresponding problems of the same scale goes in step. -/
theorem Spec.Correspond.levenbergMarquardt_inStep {H : Heap V → Heap V → Prop} (hL : ExactLinAlg L) (hP : ExactPivots L)
    (env env' : Env ℝ V) (s s' : OptWorld ℝ V Fact) (hp : Prepared s) (hp' : Prepared s')
    (hcor : Correspond 1 H s.graph.getAllVariables s.graph.getAllFactors s'.graph.getAllVariables s'.graph.getAllFactors)
    (hH : H s.heap s'.heap) (hset : s'.opt.settings = s.opt.settings)
    (hm : s.opt.settings.method = .levenbergMarquardt) (hrest : Restorable s)
    (hrest' : Restorable s') (hini : 0 < s.opt.settings.initialLambda) (hup : 0 < s.opt.settings.lambdaUp)
    (hmax : 0 < s.opt.settings.maxLambda) (hfree : 0 < freeTotal s.heap s.graph.getAllVariables)
    (hfree' : 0 < freeTotal s'.heap s'.graph.getAllVariables) (r0 r0' : List ℝ)
    (hr : (Graph.computeResidual env s.heap s.graph).2 = .ok r0)
    (hr' : (Graph.computeResidual env' s'.heap s'.graph).2 = .ok r0')
    (hwell : ∀ k s1 r J, Iterations realArith L env k (loopStart realArith env s r0) s1 →
      Linearised s1.heap s.graph.getAllVariables s.graph.getAllFactors r J → WellConditioned J) :
    InStepBy 1 H L env env' (loopStart realArith env s r0) (loopStart realArith env' s' r0') := by
  have hone : ∀ x : Stats ℝ, scaledStats 1 x = x := fun x => by simp [scaledStats]
  obtain ⟨h0, pre, post, hw, hpre⟩ := hp.history
  obtain ⟨h0', pre', post', hw', hpre'⟩ := hp'.history
  have hres0 := evaluated_isResidual (finalizedAfter_layout hw) (computeResidual_evaluated hr)
  have hres0' := evaluated_isResidual (finalizedAfter_layout hw') (computeResidual_evaluated hr')
  have hq0 := hcor.cost _ _ _ _ hH hres0 hres0'
  intro k s1 s1' s2 s2' hit hit' eh es ho ho' _ _
  rw [hone] at es ⊢
  obtain ⟨r, J, o, l1, hlin, ht, hcase⟩ := Props.C67_levenberg_marquardt_partial realArith L env s hw hpre hp.ids hp.noRepeats hp.safe
    hp.proper hp.graph hm hrest r0 hr k s1 s2 hit ho
  obtain ⟨r', J', o', l1', hlin', ht', hcase'⟩ := Props.C67_levenberg_marquardt_partial realArith L env' s' hw' hpre' hp'.ids hp'.noRepeats
    hp'.safe hp'.proper hp'.graph (by rw [hset]; exact hm) hrest' r0' hr' k s1' s2' hit' ho'
  have hpos := (Props.C79.iteration env s hw hpre hp.ids hp.noRepeats hp.safe hp.proper hp.graph hm hrest hini hup hmax r0 hr hit).1
  obtain ⟨_, _, hshape, _, _⟩ := iterations_ready hw hpre hp.ids hp.noRepeats hit
  obtain ⟨_, _, hshape', _, _⟩ := iterations_ready hw' hpre' hp'.ids hp'.noRepeats hit'
  rw [hset, es] at ht'
  rw [hset] at hcase'
  have hJ := hwell k s1 r J hit hlin
  have hJ' := hcor.wellConditioned eh hlin hlin' hJ
  have hc : 0 < J.columns.length := by rw [hlin.columns, hshape.freeTotal_eq]; exact hfree
  have hc' : 0 < J'.columns.length := by rw [hlin'.columns, hshape'.freeTotal_eq]; exact hfree'
  obtain ⟨rfl, hsame⟩ := hcor.trials hL eh hlin hlin' (Props.C85_accepted_partial hL hP hc hJ r).2
    (Props.C85_accepted_partial hL hP hc' hJ' r').2 hup hmax hpos ht ht'
  have hzero : ∀ n : Nat, realArith.norm (List.replicate n (realArith.lit 0)) = 0 := by
    intro n
    have e : realArith.sqNorm (List.replicate n (realArith.lit 0)) = 0 := by
      show ((List.replicate n (((0 : ℚ) : ℝ))).map fun x => x * x).sum = 0
      simp
    show √ (realArith.sqNorm _) = 0
    rw [e, Real.sqrt_zero]
  have hq1 := hcor.cost _ _ r r' eh hlin.residual hlin'.residual
  rw [one_pow, one_mul] at hq0 hq1
  cases hsame with
  | none =>
    rcases hcase with ⟨_, _, e, _⟩ | ⟨_, e1, n, e2⟩
    · cases e
    rcases hcase' with ⟨_, _, e, _⟩ | ⟨_, e1', n', e2'⟩
    · cases e
    refine ⟨by rw [e1, e1']; exact eh, ?_⟩
    rw [e2, e2', hzero, hzero, es]
    simp only [Arith.norm, hq0, hq1]
  | some hnorm hheap hq =>
    rcases hcase with ⟨dx1, q1, e, e2⟩ | ⟨e, _⟩
    swap
    · cases e
    rcases hcase' with ⟨dx1', q1', e', e2'⟩ | ⟨e', _⟩
    swap
    · cases e'
    injection e with e
    injection e' with e'
    injection e with a1 e
    injection e with a2 a3
    injection e' with b1 e'
    injection e' with b2 b3
    refine ⟨by rw [← a2, ← b2]; exact hheap, ?_⟩
    rw [e2, e2', es, ← a1, ← b1, hnorm, ← a3, ← b3]
    simp only [Arith.norm, hq]

/-- Levenberg-Marquardt on corresponding problems of the same scale. -/
theorem Spec.Correspond.levenbergMarquardt {H : Heap V → Heap V → Prop} (hL : ExactLinAlg L) (hP : ExactPivots L)
    (env env' : Env ℝ V) (s s' : OptWorld ℝ V Fact) (hp : Prepared s) (hp' : Prepared s')
    (hcor : Correspond 1 H s.graph.getAllVariables s.graph.getAllFactors s'.graph.getAllVariables s'.graph.getAllFactors)
    (hH : H s.heap s'.heap) (hset : s'.opt.settings = s.opt.settings)
    (hm : s.opt.settings.method = .levenbergMarquardt) (hrest : Restorable s)
    (hrest' : Restorable s') (hini : 0 < s.opt.settings.initialLambda) (hup : 0 < s.opt.settings.lambdaUp)
    (hmax : 0 < s.opt.settings.maxLambda) (hfree : 0 < freeTotal s.heap s.graph.getAllVariables)
    (hfree' : 0 < freeTotal s'.heap s'.graph.getAllVariables) (r0 r0' : List ℝ)
    (hr : (Graph.computeResidual env s.heap s.graph).2 = .ok r0)
    (hr' : (Graph.computeResidual env' s'.heap s'.graph).2 = .ok r0')
    (hwell : ∀ k s1 r J, Iterations realArith L env k (loopStart realArith env s r0) s1 →
      Linearised s1.heap s.graph.getAllVariables s.graph.getAllFactors r J → WellConditioned J) (t t' : OptWorld ℝ V Fact)
    (hret : optimize realArith L env s = (t, .ok ())) (hret' : optimize realArith L env' s' = (t', .ok ()))
    (hst : t.opt.stats.status = .success ∨ t.opt.stats.status = .diverged)
    (hst' : t'.opt.stats.status = .success ∨ t'.opt.stats.status = .diverged) :
    H t.heap t'.heap ∧ t'.opt.stats = t.opt.stats := by
  have hone : ∀ x : Stats ℝ, scaledStats 1 x = x := fun x => by simp [scaledStats]
  obtain ⟨h0, pre, post, hw, hpre⟩ := hp.history
  obtain ⟨h0', pre', post', hw', hpre'⟩ := hp'.history
  have hres0 := evaluated_isResidual (finalizedAfter_layout hw) (computeResidual_evaluated hr)
  have hres0' := evaluated_isResidual (finalizedAfter_layout hw') (computeResidual_evaluated hr')
  have hsys : ∀ st : Status, st = .success ∨ st = .diverged → ¬ Status.isSystemError st := by
    rintro st (rfl | rfl) <;> simp [Status.isSystemError]
  have hq0 := hcor.cost _ _ _ _ hH hres0 hres0'
  suffices hs : H t.heap t'.heap ∧ t'.opt.stats = scaledStats 1 t.opt.stats by rwa [hone] at hs
  exact InStepBy.ends one_pos
    (hcor.levenbergMarquardt_inStep hL hP env env' s s' hp hp' hH hset hm hrest hrest' hini hup hmax hfree hfree' r0 r0' hr hr' hwell) hH
    (startStats_scaled one_pos hq0) (by rw [hset]; simp [scaledSettings]) hp.graph hp'.graph hr hr' hret hret' (hsys _ hst) (hsys _ hst')

end
end Factorama
