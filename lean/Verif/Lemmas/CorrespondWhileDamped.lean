import Verif.Lemmas.CorrespondWhile

/-! Helper lemmas: Levenberg-Marquardt on problems that correspond to each other while a condition on the steps holds. -/

namespace Factorama
open Spec Opt Matrix Graph Props
variable {V Fact : Type} [VarLike ℝ V] {L : LinAlg ℝ Fact}

section
variable {H : Heap V → Heap V → Prop} {vars vars' : List VRef} {facs facs' : List (Factor ℝ V)}

theorem Spec.CorrespondWhile.wellConditioned {G : V → List ℝ → V → Prop} (hcor : CorrespondWhile G 1 H vars facs vars' facs') {h h' : Heap V} {r r' : List ℝ}
    {J J' : SpMat ℝ} (hH : H h h') (hlin : Linearised h vars facs r J) (hlin' : Linearised h' vars' facs' r' J')
    (hw : WellConditioned J) : WellConditioned J' := by
  obtain ⟨B, hB, hB', hM, _⟩ := hcor.step h h' r r' J J' hH hlin hlin'
  obtain ⟨low, high, hb, h1, h2⟩ := hw
  refine ⟨low, high, fun x => ?_, h1, h2⟩
  have key : (jacobianMatrix J')ᵀ * jacobianMatrix J' = B * ((jacobianMatrix J)ᵀ * jacobianMatrix J) * Bᵀ := by
    have := congrArg (· * Bᵀ) hM
    simpa [Matrix.mul_assoc, hB'] using this
  have := hb (Bᵀ *ᵥ x)
  have e1 : (Bᵀ *ᵥ x) ⬝ᵥ (Bᵀ *ᵥ x) = x ⬝ᵥ x := by
    rw [dotProduct_mulVec, vecMul_mulVec, Matrix.transpose_transpose, hB', vecMul_one]
  have e2 : (jacobianMatrix J *ᵥ (Bᵀ *ᵥ x)) ⬝ᵥ (jacobianMatrix J *ᵥ (Bᵀ *ᵥ x)) = (jacobianMatrix J' *ᵥ x) ⬝ᵥ (jacobianMatrix J' *ᵥ x) := by
    have quad : ∀ {m n : Nat} (M : Matrix (Fin m) (Fin n) ℝ) (y : Fin n → ℝ), (M *ᵥ y) ⬝ᵥ (M *ᵥ y) = y ⬝ᵥ ((Mᵀ * M) *ᵥ y) := by
      intro m n M y
      rw [dotProduct_mulVec, vecMul_mulVec, dotProduct_comm, ← mulVec_transpose, Matrix.transpose_mul, Matrix.transpose_transpose]
    rw [quad, quad, key, dotProduct_mulVec (Bᵀ *ᵥ x), ← dotProduct_mulVec, mulVec_mulVec]
    rw [dotProduct_comm, dotProduct_mulVec, vecMul_transpose, dotProduct_comm, mulVec_mulVec, ← Matrix.mul_assoc]
  rwa [e1, e2] at this

/-- If no system is refused, the trials of corresponding iterations take the same course, while the tried steps are of the right kind. -/
theorem Spec.CorrespondWhile.trials {G : V → List ℝ → V → Prop} (hcor : CorrespondWhile G 1 H vars facs vars' facs') (hL : ExactLinAlg L) {h h' : Heap V} {r r' : List ℝ}
    {J J' : SpMat ℝ} (hH : H h h') (hlin : Linearised h vars facs r J) (hlin' : Linearised h' vars' facs' r' J')
    (hacc : ∀ l > 0, ∃ d, SystemSolved realArith L (damped realArith (L.gram J) l) (L.rhs J r) d)
    (hacc' : ∀ l > 0, ∃ d, SystemSolved realArith L (damped realArith (L.gram J') l) (L.rhs J' r') d)
    {settings : Settings ℝ} (hup : 0 < settings.lambdaUp) (hmax : 0 < settings.maxLambda) {n : Nat} {l l1 l1' : ℝ}
    (hl : 0 < l) {o o' : Option (List ℝ × Heap V × List ℝ)}
    (hG : ∀ d g, TriedStep realArith L settings h vars facs r J n l d g → StepsAre G h g vars d)
    (hG' : ∀ d g, TriedStep realArith L settings h' vars' facs' r' J' n l d g → StepsAre G h' g vars' d)
    (ht : Trials realArith L settings h vars facs r J n l o l1)
    (ht' : Trials realArith L settings h' vars' facs' r' J' n l o' l1') : l1' = l1 ∧ SameOutcomeBy H o o' := by
  have hsq : realArith.sqNorm r' = realArith.sqNorm r := by
    have := hcor.cost h h' r r' hH hlin.residual hlin'.residual
    simpa using this
  obtain ⟨B, hB, _, hM, hgr, hstep⟩ := hcor.step h h' r r' J J' hH hlin hlin'
  have key : ∀ {l : ℝ}, 0 < l → ∀ {d d' q q' : List ℝ} {g g' : Heap V},
      SystemSolved realArith L (damped realArith (L.gram J) l) (L.rhs J r) d →
      SystemSolved realArith L (damped realArith (L.gram J') l) (L.rhs J' r') d' →
      Stepped h g vars (realArith.scale settings.learningRate d) →
      Stepped h' g' vars' (realArith.scale settings.learningRate d') → IsResidual g facs q → IsResidual g' facs' q' →
      (∀ d g, SystemSolved realArith L (damped realArith (L.gram J) l) (L.rhs J r) d →
        Stepped h g vars (realArith.scale settings.learningRate d) → StepsAre G h g vars (realArith.scale settings.learningRate d)) →
      (∀ d g, SystemSolved realArith L (damped realArith (L.gram J') l) (L.rhs J' r') d →
        Stepped h' g vars' (realArith.scale settings.learningRate d) → StepsAre G h' g vars' (realArith.scale settings.learningRate d)) →
      realArith.norm (realArith.scale settings.learningRate d') = realArith.norm (realArith.scale settings.learningRate d) ∧
      H g g' ∧ realArith.sqNorm q' = realArith.sqNorm q := by
    intro l hl d d' q q' g g' h1 h2 h3 h4 h5 h6 k1 k2
    have o1 := onlySolution_damped hL hl h1
    have o2 := onlySolution_damped hL hl h2
    obtain ⟨e1, e2⟩ := o1.correspond hB hM hgr (by simpa using o2)
    have hg := hstep _ d d' g g' o1.length o2.length e1 h3 h4 (k1 d g h1 h3) (k2 d' g' h2 h4)
    exact ⟨e2 _, hg, by simpa using hcor.cost g g' q q' hg h5 h6⟩
  have failed : ∀ {l l' l'' : ℝ} {b b' : Bool}, 0 < l → FailedTrial realArith L settings h vars facs r J l l' b →
      FailedTrial realArith L settings h' vars' facs' r' J' l l'' b' → l'' = l' ∧ b' = b := by
    intro l l' l'' b b' hl h1 h2
    cases h1 with
    | unsolved h => obtain ⟨d, hd⟩ := hacc l hl; exact absurd hd (h d)
    | worse _ _ _ _ =>
      cases h2 with
      | unsolved h => obtain ⟨d, hd⟩ := hacc' l hl; exact absurd hd (h d)
      | worse _ _ _ _ => exact ⟨rfl, rfl⟩
  have clash : ∀ {l l' : ℝ} {b : Bool} {d q : List ℝ} {g : Heap V}, 0 < l →
      FailedTrial realArith L settings h vars facs r J l l' b →
      SystemSolved realArith L (damped realArith (L.gram J') l) (L.rhs J' r') d →
      Stepped h' g vars' (realArith.scale settings.learningRate d) → IsResidual g facs' q →
      realArith.lt (realArith.mul (realArith.lit (1 / 2)) (realArith.sqNorm q))
        (realArith.mul (realArith.lit (1 / 2)) (realArith.sqNorm r')) = true →
      (∀ d g, SystemSolved realArith L (damped realArith (L.gram J) l) (L.rhs J r) d →
        Stepped h g vars (realArith.scale settings.learningRate d) → StepsAre G h g vars (realArith.scale settings.learningRate d)) →
      (∀ d g, SystemSolved realArith L (damped realArith (L.gram J') l) (L.rhs J' r') d →
        Stepped h' g vars' (realArith.scale settings.learningRate d) → StepsAre G h' g vars' (realArith.scale settings.learningRate d)) →
      False := by
    intro l l' b d q g hl h1 h2 h3 h4 h5 k1 k2
    cases h1 with
    | unsolved h => obtain ⟨d, hd⟩ := hacc l hl; exact absurd hd (h d)
    | worse g1 g2 g3 g4 =>
      obtain ⟨_, _, e⟩ := key hl g1 h2 g2 h3 g3 h4 k1 k2
      rw [e, hsq, g4] at h5
      cases h5
  have clash' : ∀ {l l' : ℝ} {b : Bool} {d q : List ℝ} {g : Heap V}, 0 < l →
      FailedTrial realArith L settings h' vars' facs' r' J' l l' b →
      SystemSolved realArith L (damped realArith (L.gram J) l) (L.rhs J r) d →
      Stepped h g vars (realArith.scale settings.learningRate d) → IsResidual g facs q →
      realArith.lt (realArith.mul (realArith.lit (1 / 2)) (realArith.sqNorm q))
        (realArith.mul (realArith.lit (1 / 2)) (realArith.sqNorm r)) = true →
      (∀ d g, SystemSolved realArith L (damped realArith (L.gram J) l) (L.rhs J r) d →
        Stepped h g vars (realArith.scale settings.learningRate d) → StepsAre G h g vars (realArith.scale settings.learningRate d)) →
      (∀ d g, SystemSolved realArith L (damped realArith (L.gram J') l) (L.rhs J' r') d →
        Stepped h' g vars' (realArith.scale settings.learningRate d) → StepsAre G h' g vars' (realArith.scale settings.learningRate d)) →
      False := by
    intro l l' b d q g hl h1 h2 h3 h4 h5 k1 k2
    cases h1 with
    | unsolved h => obtain ⟨d, hd⟩ := hacc' l hl; exact absurd hd (h d)
    | worse g1 g2 g3 g4 =>
      obtain ⟨_, _, e⟩ := key hl h2 g1 h3 g2 h4 g3 k1 k2
      rw [← e, ← hsq, g4] at h5
      cases h5
  clear hH hlin hlin' hstep
  have now : ∀ {n : Nat} {l : ℝ}, (∀ d g, TriedStep realArith L settings h vars facs r J (n + 1) l d g → StepsAre G h g vars d) →
      ∀ d g, SystemSolved realArith L (damped realArith (L.gram J) l) (L.rhs J r) d →
        Stepped h g vars (realArith.scale settings.learningRate d) → StepsAre G h g vars (realArith.scale settings.learningRate d) :=
    fun hG d g h1 h2 => hG _ g (.now h1 h2)
  have now' : ∀ {n : Nat} {l : ℝ}, (∀ d g, TriedStep realArith L settings h' vars' facs' r' J' (n + 1) l d g → StepsAre G h' g vars' d) →
      ∀ d g, SystemSolved realArith L (damped realArith (L.gram J') l) (L.rhs J' r') d →
        Stepped h' g vars' (realArith.scale settings.learningRate d) → StepsAre G h' g vars' (realArith.scale settings.learningRate d) :=
    fun hG d g h1 h2 => hG _ g (.now h1 h2)
  induction ht with
  | exhausted => cases ht'; exact ⟨rfl, .none⟩
  | accepted h1 h2 h3 h4 =>
    cases ht' with
    | accepted h1' h2' h3' h4' =>
      obtain ⟨e1, e2, e3⟩ := key hl h1 h1' h2 h2' h3 h3' (now hG) (now' hG')
      exact ⟨rfl, .some e1 e2 e3⟩
    | retry hf _ => exact (clash' hl hf h1 h2 h3 h4 (now hG) (now' hG')).elim
    | limit hf => exact (clash' hl hf h1 h2 h3 h4 (now hG) (now' hG')).elim
  | retry hf _ ih =>
    cases ht' with
    | accepted h1' h2' h3' h4' => exact (clash hl hf h1' h2' h3' h4' (now hG) (now' hG')).elim
    | retry hf' ht' =>
      obtain ⟨rfl, _⟩ := failed hl hf hf'
      exact ih (Props.failed_positive hup hmax hl hf) (fun d g h => hG d g (.later hf h)) (fun d g h => hG' d g (.later hf' h)) ht'
    | limit hf' => obtain ⟨_, e⟩ := failed hl hf hf'; cases e
  | limit hf =>
    cases ht' with
    | accepted h1' h2' h3' h4' => exact (clash hl hf h1' h2' h3' h4' (now hG) (now' hG')).elim
    | retry hf' _ => obtain ⟨_, e⟩ := failed hl hf hf'; cases e
    | limit hf' =>
      obtain ⟨rfl, _⟩ := failed hl hf hf'
      exact ⟨rfl, .none⟩

end

variable [LawfulVar ℝ V]

/-- Levenberg-Marquardt on such problems goes in step. -/
theorem Spec.CorrespondWhile.levenbergMarquardt_inStep {G : V → List ℝ → V → Prop} {H : Heap V → Heap V → Prop} (hL : ExactLinAlg L) (hP : ExactPivots L)
    (env env' : Env ℝ V) (s s' : OptWorld ℝ V Fact) (hp : Prepared s) (hp' : Prepared s')
    (hcor : CorrespondWhile G 1 H s.graph.getAllVariables s.graph.getAllFactors s'.graph.getAllVariables s'.graph.getAllFactors)
    (hH : H s.heap s'.heap) (hset : s'.opt.settings = s.opt.settings)
    (hm : s.opt.settings.method = .levenbergMarquardt) (hrest : Restorable s)
    (hrest' : Restorable s') (hini : 0 < s.opt.settings.initialLambda) (hup : 0 < s.opt.settings.lambdaUp)
    (hmax : 0 < s.opt.settings.maxLambda) (hfree : 0 < freeTotal s.heap s.graph.getAllVariables)
    (hfree' : 0 < freeTotal s'.heap s'.graph.getAllVariables) (r0 r0' : List ℝ)
    (hr : (Graph.computeResidual env s.heap s.graph).2 = .ok r0)
    (hr' : (Graph.computeResidual env' s'.heap s'.graph).2 = .ok r0')
    (hwell : ∀ k s1 r J, Iterations realArith L env k (loopStart realArith env s r0) s1 →
      Linearised s1.heap s.graph.getAllVariables s.graph.getAllFactors r J → WellConditioned J)
    (hG : TriesAre L env s r0 G) (hG' : TriesAre L env' s' r0' G) :
    InStepBy 1 H L env env' (loopStart realArith env s r0) (loopStart realArith env' s' r0') := by
  have hone : ∀ x : Stats ℝ, scaledStats 1 x = x := fun x => by simp [scaledStats]
  obtain ⟨h0, pre, post, hw, hpre⟩ := hp.history
  obtain ⟨h0', pre', post', hw', hpre'⟩ := hp'.history
  have hres0 := evaluated_isResidual (finalizedAfter_layout hw) (computeResidual_evaluated hr)
  have hres0' := evaluated_isResidual (finalizedAfter_layout hw') (computeResidual_evaluated hr')
  have hq0 := hcor.cost _ _ _ _ hH hres0 hres0'
  intro k s1 s1' s2 s2' hit hit' eh es ho ho' _ _
  rw [hone] at es ⊢
  obtain ⟨r, J, o, l1, hlin, ht, hcase⟩ := Props.C67_levenberg_marquardt_partial realArith L env s hw hpre hp.ids hp.noRepeats hp.safe
    hp.proper hp.graph hm hrest r0 hr k s1 s2 hit ho
  obtain ⟨r', J', o', l1', hlin', ht', hcase'⟩ := Props.C67_levenberg_marquardt_partial realArith L env' s' hw' hpre' hp'.ids hp'.noRepeats
    hp'.safe hp'.proper hp'.graph (by rw [hset]; exact hm) hrest' r0' hr' k s1' s2' hit' ho'
  have hpos := (Props.C79.iteration env s hw hpre hp.ids hp.noRepeats hp.safe hp.proper hp.graph hm hrest hini hup hmax r0 hr hit).1
  obtain ⟨_, _, hshape, _, _⟩ := iterations_ready hw hpre hp.ids hp.noRepeats hit
  obtain ⟨_, _, hshape', _, _⟩ := iterations_ready hw' hpre' hp'.ids hp'.noRepeats hit'
  have hT := hG k s1 r J hit hlin
  have hT' := hG' k s1' r' J' hit' hlin'
  rw [hset, es] at ht' hT'
  rw [hset] at hcase'
  have hJ := hwell k s1 r J hit hlin
  have hJ' := hcor.wellConditioned eh hlin hlin' hJ
  have hc : 0 < J.columns.length := by rw [hlin.columns, hshape.freeTotal_eq]; exact hfree
  have hc' : 0 < J'.columns.length := by rw [hlin'.columns, hshape'.freeTotal_eq]; exact hfree'
  obtain ⟨rfl, hsame⟩ := hcor.trials hL eh hlin hlin' (Props.C85_accepted_partial hL hP hc hJ r).2
    (Props.C85_accepted_partial hL hP hc' hJ' r').2 hup hmax hpos hT hT' ht ht'
  have hzero : ∀ n : Nat, realArith.norm (List.replicate n (realArith.lit 0)) = 0 := by
    intro n
    have e : realArith.sqNorm (List.replicate n (realArith.lit 0)) = 0 := by
      show ((List.replicate n (((0 : ℚ) : ℝ))).map fun x => x * x).sum = 0
      simp
    show √ (realArith.sqNorm _) = 0
    rw [e, Real.sqrt_zero]
  have hq1 := hcor.cost _ _ r r' eh hlin.residual hlin'.residual
  rw [one_pow, one_mul] at hq0 hq1
  cases hsame with
  | none =>
    rcases hcase with ⟨_, _, e, _⟩ | ⟨_, e1, n, e2⟩
    · cases e
    rcases hcase' with ⟨_, _, e, _⟩ | ⟨_, e1', n', e2'⟩
    · cases e
    refine ⟨by rw [e1, e1']; exact eh, ?_⟩
    rw [e2, e2', hzero, hzero, es]
    simp only [Arith.norm, hq0, hq1]
  | some hnorm hheap hq =>
    rcases hcase with ⟨dx1, q1, e, e2⟩ | ⟨e, _⟩
    swap
    · cases e
    rcases hcase' with ⟨dx1', q1', e', e2'⟩ | ⟨e', _⟩
    swap
    · cases e'
    injection e with e
    injection e' with e'
    injection e with a1 e
    injection e with a2 a3
    injection e' with b1 e'
    injection e' with b2 b3
    refine ⟨by rw [← a2, ← b2]; exact hheap, ?_⟩
    rw [e2, e2', es, ← a1, ← b1, hnorm, ← a3, ← b3]
    simp only [Arith.norm, hq]

/-- Levenberg-Marquardt on such problems. -/
theorem Spec.CorrespondWhile.levenbergMarquardt {G : V → List ℝ → V → Prop} {H : Heap V → Heap V → Prop} (hL : ExactLinAlg L) (hP : ExactPivots L)
    (env env' : Env ℝ V) (s s' : OptWorld ℝ V Fact) (hp : Prepared s) (hp' : Prepared s')
    (hcor : CorrespondWhile G 1 H s.graph.getAllVariables s.graph.getAllFactors s'.graph.getAllVariables s'.graph.getAllFactors)
    (hH : H s.heap s'.heap) (hset : s'.opt.settings = s.opt.settings)
    (hm : s.opt.settings.method = .levenbergMarquardt) (hrest : Restorable s)
    (hrest' : Restorable s') (hini : 0 < s.opt.settings.initialLambda) (hup : 0 < s.opt.settings.lambdaUp)
    (hmax : 0 < s.opt.settings.maxLambda) (hfree : 0 < freeTotal s.heap s.graph.getAllVariables)
    (hfree' : 0 < freeTotal s'.heap s'.graph.getAllVariables) (r0 r0' : List ℝ)
    (hr : (Graph.computeResidual env s.heap s.graph).2 = .ok r0)
    (hr' : (Graph.computeResidual env' s'.heap s'.graph).2 = .ok r0')
    (hwell : ∀ k s1 r J, Iterations realArith L env k (loopStart realArith env s r0) s1 →
      Linearised s1.heap s.graph.getAllVariables s.graph.getAllFactors r J → WellConditioned J)
    (hG : TriesAre L env s r0 G) (hG' : TriesAre L env' s' r0' G) (t t' : OptWorld ℝ V Fact)
    (hret : optimize realArith L env s = (t, .ok ())) (hret' : optimize realArith L env' s' = (t', .ok ()))
    (hst : t.opt.stats.status = .success ∨ t.opt.stats.status = .diverged)
    (hst' : t'.opt.stats.status = .success ∨ t'.opt.stats.status = .diverged) :
    H t.heap t'.heap ∧ t'.opt.stats = t.opt.stats := by
  have hone : ∀ x : Stats ℝ, scaledStats 1 x = x := fun x => by simp [scaledStats]
  obtain ⟨h0, pre, post, hw, hpre⟩ := hp.history
  obtain ⟨h0', pre', post', hw', hpre'⟩ := hp'.history
  have hres0 := evaluated_isResidual (finalizedAfter_layout hw) (computeResidual_evaluated hr)
  have hres0' := evaluated_isResidual (finalizedAfter_layout hw') (computeResidual_evaluated hr')
  have hsys : ∀ st : Status, st = .success ∨ st = .diverged → ¬ Status.isSystemError st := by
    rintro st (rfl | rfl) <;> simp [Status.isSystemError]
  have hq0 := hcor.cost _ _ _ _ hH hres0 hres0'
  suffices hs : H t.heap t'.heap ∧ t'.opt.stats = scaledStats 1 t.opt.stats by rwa [hone] at hs
  exact InStepBy.ends one_pos
    (hcor.levenbergMarquardt_inStep hL hP env env' s s' hp hp' hH hset hm hrest hrest' hini hup hmax hfree hfree' r0 r0' hr hr' hwell hG hG') hH
    (startStats_scaled one_pos hq0) (by rw [hset]; simp [scaledSettings]) hp.graph hp'.graph hr hr' hret hret' (hsys _ hst) (hsys _ hst')

end Factorama
