import Verif.Lemmas.Columns
import Verif.Lemmas.InStep
import Verif.Props.NoDrift
import Verif.Props.Conditioning
import Verif.Examples.TinyReordered

/-!
# C84: the order of the variables

The negation is in Props/InsertionOrder.lean: whether a linear system is refused depends on the order of the variables. Here:
this is the only influence of that order.
-/

namespace Factorama.Props
open Spec Graph Opt
variable {V Fact : Type} [VarLike ℝ V] {L : LinAlg ℝ Fact}

/-- **C84, the part that holds**, one linear system. The same variables and factors in two orders, linearised at the same
values. If the system with the same damping (none, or a positive one) is accepted in both orders and the solver is exact, the
same increment is computed for every variable: scaled steps lead to the same variables and have the same norm. -/
theorem C84_system_partial (hL : ExactLinAlg L) {h : Heap V} {vars vars' : List VRef} (hp : vars.Perm vars') (hn : vars.Nodup)
    {facs facs' : List (Factor ℝ V)} (hpf : facs.Perm facs') {r r' : List ℝ} {J J' : SpMat ℝ}
    (hlin : Linearised h vars facs r J) (hlin' : Linearised h vars' facs' r' J') (hnr : NoRepeats facs)
    (hmem : ∀ f ∈ facs, ∀ r, some r ∈ f.variables → VarLike.isConst (h r) = false → r ∈ vars) {d d' : List ℝ}
    (hd : (SystemSolved realArith L (L.gram J) (L.rhs J r) d ∧ SystemSolved realArith L (L.gram J') (L.rhs J' r') d') ∨
      ∃ lambda > 0, SystemSolved realArith L (damped realArith (L.gram J) lambda) (L.rhs J r) d ∧
        SystemSolved realArith L (damped realArith (L.gram J') lambda) (L.rhs J' r') d') (rate : ℝ) :
    (∀ v ∈ vars, VarLike.isConst (h v) = false → partOf h vars' d' v = partOf h vars d v) ∧
    realArith.norm (realArith.scale rate d') = realArith.norm (realArith.scale rate d) ∧
    ∀ h2 h2', Stepped h h2 vars (realArith.scale rate d) → Stepped h h2' vars' (realArith.scale rate d') → h2' = h2 := by
  have key : ∃ lambda, OnlySolution J r lambda d ∧ OnlySolution J' r' lambda d' := by
    rcases hd with ⟨h1, h2⟩ | ⟨l, hl, h1, h2⟩
    · exact ⟨0, onlySolution_undamped hL h1, onlySolution_undamped hL h2⟩
    · exact ⟨l, onlySolution_damped hL hl h1, onlySolution_damped hL hl h2⟩
  obtain ⟨lambda, h1, h2⟩ := key
  obtain ⟨hm, hparts⟩ := h1.order hp hn hpf hlin hlin' hnr hmem h2
  refine ⟨hparts, ?_, fun g g' hg hg' => ?_⟩
  · have e : ∀ d : List ℝ, realArith.sqNorm (realArith.scale rate d) =
        ∑ c ∈ Finset.range d.length, d.getD c 0 * rate * (d.getD c 0 * rate) := by
      intro d
      show ((d.map fun x => x * rate).map fun x => x * x).sum = _
      rw [sum_range_list, List.map_map]
      congr 1
      apply List.ext_getElem
      · simp
      · intro i h1 h2
        simp only [List.length_map] at h1
        simp [h1]
    have e2 := Matching.dot hp hn (x := fun c => d.getD c 0 * rate) (x' := fun c => d'.getD c 0 * rate)
      (y := fun c => d.getD c 0 * rate) (y' := fun c => d'.getD c 0 * rate)
      (fun v hv hc j hj => congrArg (· * rate) (hm v hv hc j hj)) (fun v hv hc j hj => congrArg (· * rate) (hm v hv hc j hj))
    rw [← hlin.columns, ← hlin'.columns, ← h1.length, ← h2.length, ← e, ← e] at e2
    show realArith.sqrt _ = realArith.sqrt _
    rw [e2]
  · funext v
    by_cases hv : v ∈ vars ∧ VarLike.isConst (h v) = false
    · have a := (hg v).1 hv
      have b := (hg' v).1 ⟨hp.mem_iff.1 hv.1, hv.2⟩
      have e : partOf h vars' (realArith.scale rate d') v = partOf h vars (realArith.scale rate d) v := by
        have := hparts v hv.1 hv.2
        unfold partOf at this ⊢
        show ((d'.map _).drop _).take _ = ((d.map _).drop _).take _
        rw [← List.map_drop, ← List.map_take, ← List.map_drop, ← List.map_take, this]
      rw [e, a] at b
      exact (Res.ok.inj b).symm
    · rw [(hg v).2 hv, (hg' v).2 fun hv' => hv ⟨hp.mem_iff.2 hv'.1, hv'.2⟩]

/-- Two graphs with the same variables and factors, added in any order, with optimizers in the same state. -/
structure C84.Reordered (s s' : OptWorld ℝ V Fact) : Prop where
  heap : s'.heap = s.heap
  vars : s.graph.getAllVariables.Perm s'.graph.getAllVariables
  facs : s.graph.getAllFactors.Perm s'.graph.getAllFactors
  opt : s'.opt = s.opt

/-- The norms of rearranged residuals are equal. -/
theorem C84.sqNorm_perm {r r' : List ℝ} (h : r.Perm r') : realArith.sqNorm r' = realArith.sqNorm r :=
  (h.map _).sum_eq.symm

theorem C84.startStats_perm {r r' : List ℝ} (h : r.Perm r') : startStats realArith r' = startStats realArith r := by
  simp only [startStats, Arith.norm, C84.sqNorm_perm h]

/-- Being well conditioned does not depend on the order. -/
theorem C84.wellConditioned {h : Heap V} {vars vars' : List VRef} (hp : vars.Perm vars') (hn : vars.Nodup)
    {facs facs' : List (Factor ℝ V)} (hpf : facs.Perm facs') {r r' : List ℝ} {J J' : SpMat ℝ}
    (hlin : Linearised h vars facs r J) (hlin' : Linearised h vars' facs' r' J') (hnr : NoRepeats facs)
    (hmem : ∀ f ∈ facs, ∀ r, some r ∈ f.variables → VarLike.isConst (h r) = false → r ∈ vars)
    (hw : WellConditioned J) : WellConditioned J' := by
  obtain ⟨low, high, hb, h1, h2⟩ := hw
  refine ⟨low, high, fun x => ?_, h1, h2⟩
  obtain ⟨d, hl, hm, _⟩ := exists_matching (h := h) hp.symm (d := List.ofFn x) (by simp [hlin'.columns])
  have hm := hm.symm hp.symm
  obtain ⟨e1, e2⟩ := stretch_order hp hn hpf hlin hlin' hnr hmem hm
  have ex : asVec J'.columns.length (List.ofFn x) = x := by
    funext c
    simp [asVec]
  rw [ex] at e1 e2
  have := hb (asVec J.columns.length d)
  rwa [e1, e2] at this

/-- Two outcomes of the trials of an iteration that differ by the order only. -/
inductive C84.SameOutcome : Option (List ℝ × Heap V × List ℝ) → Option (List ℝ × Heap V × List ℝ) → Prop where
  | none : C84.SameOutcome none none
  | some {dx dx' q q' : List ℝ} {h : Heap V} : realArith.norm dx' = realArith.norm dx → q.Perm q' →
      C84.SameOutcome (some (dx, h, q)) (some (dx', h, q'))

/-- If no system is refused, the trials of an iteration take the same course in both orders. -/
theorem C84.trials (hL : ExactLinAlg L) {h : Heap V} {vars vars' : List VRef} (hp : vars.Perm vars') (hn : vars.Nodup)
    {facs facs' : List (Factor ℝ V)} (hpf : facs.Perm facs') {r r' : List ℝ} {J J' : SpMat ℝ}
    (hlin : Linearised h vars facs r J) (hlin' : Linearised h vars' facs' r' J') (hnr : NoRepeats facs)
    (hmem : ∀ f ∈ facs, ∀ r, some r ∈ f.variables → VarLike.isConst (h r) = false → r ∈ vars)
    (hacc : ∀ l > 0, ∃ d, SystemSolved realArith L (damped realArith (L.gram J) l) (L.rhs J r) d)
    (hacc' : ∀ l > 0, ∃ d, SystemSolved realArith L (damped realArith (L.gram J') l) (L.rhs J' r') d)
    {settings : Settings ℝ} (hup : 0 < settings.lambdaUp) (hmax : 0 < settings.maxLambda) {n : Nat} {l l1 l1' : ℝ}
    (hl : 0 < l) {o o' : Option (List ℝ × Heap V × List ℝ)}
    (ht : Trials realArith L settings h vars facs r J n l o l1)
    (ht' : Trials realArith L settings h vars' facs' r' J' n l o' l1') : l1' = l1 ∧ C84.SameOutcome o o' := by
  have hsq : realArith.sqNorm r' = realArith.sqNorm r := C84.sqNorm_perm (isResidual_perm hpf hlin.residual hlin'.residual)
  have key : ∀ {l : ℝ}, 0 < l → ∀ {d d' q q' : List ℝ} {g g' : Heap V},
      SystemSolved realArith L (damped realArith (L.gram J) l) (L.rhs J r) d →
      SystemSolved realArith L (damped realArith (L.gram J') l) (L.rhs J' r') d' →
      Stepped h g vars (realArith.scale settings.learningRate d) →
      Stepped h g' vars' (realArith.scale settings.learningRate d') → IsResidual g facs q → IsResidual g' facs' q' →
      realArith.norm (realArith.scale settings.learningRate d') = realArith.norm (realArith.scale settings.learningRate d) ∧
      g' = g ∧ q.Perm q' := by
    intro l hl d d' q q' g g' h1 h2 h3 h4 h5 h6
    obtain ⟨_, e1, e2⟩ := C84_system_partial hL hp hn hpf hlin hlin' hnr hmem (.inr ⟨l, hl, h1, h2⟩) settings.learningRate
    obtain rfl := e2 g g' h3 h4
    exact ⟨e1, rfl, isResidual_perm hpf h5 h6⟩
  have failed : ∀ {l l' l'' : ℝ} {b b' : Bool}, 0 < l → FailedTrial realArith L settings h vars facs r J l l' b →
      FailedTrial realArith L settings h vars' facs' r' J' l l'' b' → l'' = l' ∧ b' = b := by
    intro l l' l'' b b' hl h1 h2
    cases h1 with
    | unsolved h => obtain ⟨d, hd⟩ := hacc l hl; exact absurd hd (h d)
    | worse _ _ _ _ =>
      cases h2 with
      | unsolved h => obtain ⟨d, hd⟩ := hacc' l hl; exact absurd hd (h d)
      | worse _ _ _ _ => exact ⟨rfl, rfl⟩
  have clash : ∀ {l l' : ℝ} {b : Bool} {d q : List ℝ} {g : Heap V}, 0 < l →
      FailedTrial realArith L settings h vars facs r J l l' b →
      SystemSolved realArith L (damped realArith (L.gram J') l) (L.rhs J' r') d →
      Stepped h g vars' (realArith.scale settings.learningRate d) → IsResidual g facs' q →
      realArith.lt (realArith.mul (realArith.lit (1 / 2)) (realArith.sqNorm q))
        (realArith.mul (realArith.lit (1 / 2)) (realArith.sqNorm r')) = true → False := by
    intro l l' b d q g hl h1 h2 h3 h4 h5
    cases h1 with
    | unsolved h => obtain ⟨d, hd⟩ := hacc l hl; exact absurd hd (h d)
    | worse g1 g2 g3 g4 =>
      obtain ⟨_, _, e⟩ := key hl g1 h2 g2 h3 g3 h4
      rw [C84.sqNorm_perm e, hsq, g4] at h5
      cases h5
  have clash' : ∀ {l l' : ℝ} {b : Bool} {d q : List ℝ} {g : Heap V}, 0 < l →
      FailedTrial realArith L settings h vars' facs' r' J' l l' b →
      SystemSolved realArith L (damped realArith (L.gram J) l) (L.rhs J r) d →
      Stepped h g vars (realArith.scale settings.learningRate d) → IsResidual g facs q →
      realArith.lt (realArith.mul (realArith.lit (1 / 2)) (realArith.sqNorm q))
        (realArith.mul (realArith.lit (1 / 2)) (realArith.sqNorm r)) = true → False := by
    intro l l' b d q g hl h1 h2 h3 h4 h5
    cases h1 with
    | unsolved h => obtain ⟨d, hd⟩ := hacc' l hl; exact absurd hd (h d)
    | worse g1 g2 g3 g4 =>
      obtain ⟨_, _, e⟩ := key hl h2 g1 h3 g2 h4 g3
      rw [← C84.sqNorm_perm e, ← hsq, g4] at h5
      cases h5
  induction ht with
  | exhausted => cases ht'; exact ⟨rfl, .none⟩
  | accepted h1 h2 h3 h4 =>
    cases ht' with
    | accepted h1' h2' h3' h4' =>
      obtain ⟨e1, rfl, e3⟩ := key hl h1 h1' h2 h2' h3 h3'
      exact ⟨rfl, .some e1 e3⟩
    | retry hf _ => exact (clash' hl hf h1 h2 h3 h4).elim
    | limit hf => exact (clash' hl hf h1 h2 h3 h4).elim
  | retry hf _ ih =>
    cases ht' with
    | accepted h1' h2' h3' h4' => exact (clash hl hf h1' h2' h3' h4').elim
    | retry hf' ht' =>
      obtain ⟨rfl, _⟩ := failed hl hf hf'
      exact ih (failed_positive hup hmax hl hf) ht'
    | limit hf' => obtain ⟨_, e⟩ := failed hl hf hf'; cases e
  | limit hf =>
    cases ht' with
    | accepted h1' h2' h3' h4' => exact (clash hl hf h1' h2' h3' h4').elim
    | retry hf' _ => obtain ⟨_, e⟩ := failed hl hf hf'; cases e
    | limit hf' =>
      obtain ⟨rfl, _⟩ := failed hl hf hf'
      exact ⟨rfl, .none⟩

section
variable [LawfulVar ℝ V]

/-- What finalizing says about the variables of factors. -/
theorem C84.free_added {s : OptWorld ℝ V Fact} {h0 : Heap V} {pre post : List (Op ℝ V × Res Unit)}
    (hw : FinalizedAfter h0 pre post ⟨s.heap, s.graph⟩)
    (hid : IdsIdentify s.heap s.graph.getAllVariables s.graph.getAllFactors) :
    s.graph.getAllVariables.Nodup ∧ ∀ f ∈ s.graph.getAllFactors, ∀ r, some r ∈ f.variables →
      VarLike.isConst (s.heap r) = false → r ∈ s.graph.getAllVariables := by
  have hlay := finalizedAfter_layout hw
  refine ⟨List.Nodup.of_map _ hlay.ids, fun f hf r hr hc => ?_⟩
  obtain ⟨r1, e, h⟩ := hlay.wp.1 f hf (some r) hr
  obtain rfl := Option.some.inj e
  obtain ⟨r2, hr2, e2⟩ := h hc
  exact hid f hf r hr r2 hr2 e2 ▸ hr2

/-- **C84, the part that holds**, Gauss-Newton. Two graphs with the same variables and the same factors, each added in any
order, and an exact solver. If both `optimize()` calls return without reporting a singular or ill-conditioned system or a
failure, they end with the same variables and the same statistics. -/
theorem C84_gauss_newton_partial (hL : ExactLinAlg L) (env env' : Env ℝ V) (s s' : OptWorld ℝ V Fact)
    {h0 h0' : Heap V} {pre post pre' post' : List (Op ℝ V × Res Unit)} (hw : FinalizedAfter h0 pre post ⟨s.heap, s.graph⟩)
    (hw' : FinalizedAfter h0' pre' post' ⟨s'.heap, s'.graph⟩) (hpre : NoJacobianYet pre) (hpre' : NoJacobianYet pre')
    (hre : C84.Reordered s s') (hid : IdsIdentify s.heap s.graph.getAllVariables s.graph.getAllFactors)
    (hnr : NoRepeats s.graph.getAllFactors) (hsafe : ∀ f ∈ s.graph.getAllFactors, ReuseSafe f)
    (hproper : ∀ h, SameShape s.heap h → ∀ f ∈ s.graph.getAllFactors, ∀ js, f.computeJacobians h [] = .ok js →
      ProperBlocks h f js)
    (hg : s.opt.hasGraph = true) (hm : s.opt.settings.method = .gaussNewton)
    (r0 r0' : List ℝ) (hr : (computeResidual env s.heap s.graph).2 = .ok r0)
    (hr' : (computeResidual env' s'.heap s'.graph).2 = .ok r0') (t t' : OptWorld ℝ V Fact)
    (hret : optimize realArith L env s = (t, .ok ())) (hret' : optimize realArith L env' s' = (t', .ok ()))
    (hst : t.opt.stats.status = .success ∨ t.opt.stats.status = .diverged)
    (hst' : t'.opt.stats.status = .success ∨ t'.opt.stats.status = .diverged) :
    t'.heap = t.heap ∧ t'.opt.stats = t.opt.stats := by
  obtain ⟨hn, hmem⟩ := C84.free_added hw hid
  have hid' : IdsIdentify s'.heap s'.graph.getAllVariables s'.graph.getAllFactors := by
    rw [hre.heap]
    exact fun f hf v hv r hr => hid f (hre.facs.mem_iff.2 hf) v hv r (hre.vars.mem_iff.2 hr)
  have hres0 := evaluated_isResidual (finalizedAfter_layout hw) (computeResidual_evaluated hr)
  have hres0' := evaluated_isResidual (finalizedAfter_layout hw') (computeResidual_evaluated hr')
  have hperm0 : r0.Perm r0' := isResidual_perm hre.facs hres0 (by rw [← hre.heap]; exact hres0')
  have hsys : ∀ st : Status, st = .success ∨ st = .diverged → ¬ Status.isSystemError st := by
    rintro st (rfl | rfl) <;> simp [Status.isSystemError]
  refine InStep.ends (r0 := r0) (r0' := r0') ?_ hre.heap (C84.startStats_perm hperm0) hre.opt hg hr hr' hret hret'
    (hsys _ hst) (hsys _ hst')
  intro k s1 s1' s2 s2' hit hit' eh es ho ho' hne hne'
  obtain ⟨r, J, hlin, hcase⟩ := C67_gauss_newton realArith L env s hw hpre hid hnr hsafe hproper hg hm r0 k s1 s2 hit ho
  obtain ⟨r', J', hlin', hcase'⟩ := C67_gauss_newton realArith L env' s' hw' hpre' hid'
    (fun f hf => hnr f (hre.facs.mem_iff.2 hf)) (fun f hf => hsafe f (hre.facs.mem_iff.2 hf))
    (fun h hs f hf => hproper h (by rw [← hre.heap]; exact hs) f (hre.facs.mem_iff.2 hf))
    (by rw [hre.opt]; exact hg) (by rw [hre.opt]; exact hm) r0' k s1' s2' hit' ho'
  have hrefused : ∀ {H : Mat ℝ} {b : List ℝ} {status : Status}, SystemRefused realArith L H b status →
      Status.isSystemError status := by
    intro H b status h
    cases h <;> simp [Status.isSystemError]
  rcases hcase with ⟨st, h1, _, e⟩ | ⟨d, q, h1, h2, h3, h4⟩
  · rw [e] at hne; exact absurd (hrefused h1) hne
  rcases hcase' with ⟨st, h1', _, e⟩ | ⟨d', q', h1', h2', h3', h4'⟩
  · rw [e] at hne'; exact absurd (hrefused h1') hne'
  obtain ⟨_, _, hshape, _, _⟩ := iterations_ready hw hpre hid hnr hit
  rw [eh] at hlin' h2'
  rw [congrArg Optimizer.settings hre.opt] at h2' h4'
  obtain ⟨_, hnorm, hheaps⟩ := C84_system_partial hL hre.vars hn hre.facs hlin hlin' hnr
    (fun f hf r hr hc => hmem f hf r hr ((hshape r).2.1.symm.trans hc)) (.inl ⟨h1, h1'⟩) s.opt.settings.learningRate
  have e2 : s2'.heap = s2.heap := hheaps _ _ h2 h2'
  rw [e2] at h3'
  have hq := isResidual_perm hre.facs h3 h3'
  refine ⟨e2, ?_⟩
  rw [h4, h4', es, hnorm]
  simp only [Arith.norm, C84.sqNorm_perm hq]

/-- **C84, the part that holds**, Levenberg-Marquardt. Two graphs with the same variables and the same factors, each added in
any order, an exact solver and positive damping parameters. If the problem is well conditioned wherever the first run gets
and both `optimize()` calls return without reporting a failure, they end with the same variables and the same statistics. -/
theorem C84_levenberg_marquardt_partial (hL : ExactLinAlg L) (hP : ExactPivots L) (env env' : Env ℝ V)
    (s s' : OptWorld ℝ V Fact)
    {h0 h0' : Heap V} {pre post pre' post' : List (Op ℝ V × Res Unit)} (hw : FinalizedAfter h0 pre post ⟨s.heap, s.graph⟩)
    (hw' : FinalizedAfter h0' pre' post' ⟨s'.heap, s'.graph⟩) (hpre : NoJacobianYet pre) (hpre' : NoJacobianYet pre')
    (hre : C84.Reordered s s') (hid : IdsIdentify s.heap s.graph.getAllVariables s.graph.getAllFactors)
    (hnr : NoRepeats s.graph.getAllFactors) (hsafe : ∀ f ∈ s.graph.getAllFactors, ReuseSafe f)
    (hproper : ∀ h, SameShape s.heap h → ∀ f ∈ s.graph.getAllFactors, ∀ js, f.computeJacobians h [] = .ok js →
      ProperBlocks h f js)
    (hg : s.opt.hasGraph = true) (hm : s.opt.settings.method = .levenbergMarquardt) (hrest : Restorable s)
    (hrest' : Restorable s') (hini : 0 < s.opt.settings.initialLambda) (hup : 0 < s.opt.settings.lambdaUp)
    (hmax : 0 < s.opt.settings.maxLambda) (hfree : 0 < freeTotal s.heap s.graph.getAllVariables)
    (r0 r0' : List ℝ) (hr : (computeResidual env s.heap s.graph).2 = .ok r0)
    (hr' : (computeResidual env' s'.heap s'.graph).2 = .ok r0')
    (hwell : ∀ k s1 r J, Iterations realArith L env k (loopStart realArith env s r0) s1 →
      Linearised s1.heap s.graph.getAllVariables s.graph.getAllFactors r J → WellConditioned J)
    (t t' : OptWorld ℝ V Fact)
    (hret : optimize realArith L env s = (t, .ok ())) (hret' : optimize realArith L env' s' = (t', .ok ()))
    (hst : t.opt.stats.status = .success ∨ t.opt.stats.status = .diverged)
    (hst' : t'.opt.stats.status = .success ∨ t'.opt.stats.status = .diverged) :
    t'.heap = t.heap ∧ t'.opt.stats = t.opt.stats := by
  obtain ⟨hn, hmem⟩ := C84.free_added hw hid
  have hid' : IdsIdentify s'.heap s'.graph.getAllVariables s'.graph.getAllFactors := by
    rw [hre.heap]
    exact fun f hf v hv r hr => hid f (hre.facs.mem_iff.2 hf) v hv r (hre.vars.mem_iff.2 hr)
  have hres0 := evaluated_isResidual (finalizedAfter_layout hw) (computeResidual_evaluated hr)
  have hres0' := evaluated_isResidual (finalizedAfter_layout hw') (computeResidual_evaluated hr')
  have hperm0 : r0.Perm r0' := isResidual_perm hre.facs hres0 (by rw [← hre.heap]; exact hres0')
  have hsys : ∀ st : Status, st = .success ∨ st = .diverged → ¬ Status.isSystemError st := by
    rintro st (rfl | rfl) <;> simp [Status.isSystemError]
  refine InStep.ends (r0 := r0) (r0' := r0') ?_ hre.heap (C84.startStats_perm hperm0) hre.opt hg hr hr' hret hret'
    (hsys _ hst) (hsys _ hst')
  intro k s1 s1' s2 s2' hit hit' eh es ho ho' _ _
  obtain ⟨r, J, o, l1, hlin, ht, hcase⟩ := C67_levenberg_marquardt_partial realArith L env s hw hpre hid hnr hsafe hproper hg hm hrest
    r0 hr k s1 s2 hit ho
  obtain ⟨r', J', o', l1', hlin', ht', hcase'⟩ := C67_levenberg_marquardt_partial realArith L env' s' hw' hpre' hid'
    (fun f hf => hnr f (hre.facs.mem_iff.2 hf)) (fun f hf => hsafe f (hre.facs.mem_iff.2 hf))
    (fun h hs f hf => hproper h (by rw [← hre.heap]; exact hs) f (hre.facs.mem_iff.2 hf))
    (by rw [hre.opt]; exact hg) (by rw [hre.opt]; exact hm) hrest' r0' hr' k s1' s2' hit' ho'
  have hpos := (C79.iteration env s hw hpre hid hnr hsafe hproper hg hm hrest hini hup hmax r0 hr hit).1
  obtain ⟨_, _, hshape, _, _⟩ := iterations_ready hw hpre hid hnr hit
  rw [eh] at hlin' ht'
  rw [congrArg Optimizer.settings hre.opt, es] at ht'
  rw [congrArg Optimizer.settings hre.opt] at hcase'
  have hmem1 : ∀ f ∈ s.graph.getAllFactors, ∀ r, some r ∈ f.variables → VarLike.isConst (s1.heap r) = false →
      r ∈ s.graph.getAllVariables := fun f hf r hr hc => hmem f hf r hr ((hshape r).2.1.symm.trans hc)
  have hJ := hwell k s1 r J hit hlin
  have hJ' := C84.wellConditioned hre.vars hn hre.facs hlin hlin' hnr hmem1 hJ
  have hc : 0 < J.columns.length := by rw [hlin.columns, hshape.freeTotal_eq]; exact hfree
  have hc' : 0 < J'.columns.length := by
    rw [hlin'.columns, ← freeTotal_perm s1.heap hre.vars, hshape.freeTotal_eq]; exact hfree
  obtain ⟨rfl, hsame⟩ := C84.trials hL hre.vars hn hre.facs hlin hlin' hnr hmem1 (C85_accepted_partial hL hP hc hJ r).2
    (C85_accepted_partial hL hP hc' hJ' r').2 hup hmax hpos ht ht'
  have hzero : ∀ n : Nat, realArith.norm (List.replicate n (realArith.lit 0)) = 0 := by
    intro n
    have e : realArith.sqNorm (List.replicate n (realArith.lit 0)) = 0 := by
      show ((List.replicate n (((0 : ℚ) : ℝ))).map fun x => x * x).sum = 0
      simp
    show √ (realArith.sqNorm _) = 0
    rw [e, Real.sqrt_zero]
  cases hsame with
  | none =>
    rcases hcase with ⟨_, _, e, _⟩ | ⟨_, e1, n, e2⟩
    · cases e
    rcases hcase' with ⟨_, _, e, _⟩ | ⟨_, e1', n', e2'⟩
    · cases e
    refine ⟨by rw [e1, e1', eh], ?_⟩
    have hq := C84.sqNorm_perm (isResidual_perm hre.facs hlin.residual hlin'.residual)
    rw [e2, e2', hzero, hzero, es]
    simp only [Arith.norm, hq, C84.sqNorm_perm hperm0]
  | some hnorm hq =>
    rcases hcase with ⟨dx1, q1, e, e2⟩ | ⟨e, _⟩
    swap
    · cases e
    rcases hcase' with ⟨dx1', q1', e', e2'⟩ | ⟨e', _⟩
    swap
    · cases e'
    injection e with e
    injection e' with e'
    injection e with a1 e
    injection e with a2 a3
    injection e' with b1 e'
    injection e' with b2 b3
    refine ⟨b2.symm.trans a2, ?_⟩
    rw [e2, e2', es, ← a1, ← b1, hnorm, ← a3, ← b3]
    simp only [Arith.norm, C84.sqNorm_perm hq]

end

/-! ### The hypotheses are met by the small graph -/

namespace C84

/-- The blocks of the factors of the small graph exist. -/
theorem tiny_blocks (facs' : List (Factor ℝ (GenVar ℝ))) (hsub : ∀ f ∈ facs', f ∈ TinyWorld.facs (4 : ℝ) 7 2 3 1) :
    ∃ blocks : Nat → List (Mat ℝ), ∀ (k : Nat) f, facs'[k]? = some f →
      f.computeJacobians (TinyWorld.heap 0 0 1) [] = .ok (blocks k) ∧ ProperBlocks (TinyWorld.heap 0 0 1) f (blocks k) := by
  have hblk : ∀ k : Nat, ∃ js, ∀ f, facs'[k]? = some f → f.computeJacobians (TinyWorld.heap 0 0 1) [] = .ok js ∧
      ProperBlocks (TinyWorld.heap 0 0 1) f js := by
    intro k
    cases hk : facs'[k]? with
    | none => exact ⟨[], fun f hf => by simp at hf⟩
    | some f =>
      obtain ⟨js, h1, h2⟩ := TinyWorld.jacobians 4 7 2 3 1 (TinyWorld.inv_heap 0 0 1) (hsub f (List.mem_of_getElem? hk)) []
      exact ⟨js, fun f' hf' => by obtain rfl := Option.some.inj hf'; exact ⟨h1, h2⟩⟩
  exact ⟨fun k => (hblk k).choose, fun k => (hblk k).choose_spec⟩

/-- The small graph has a linearisation, in both orders. -/
theorem tiny_linearised : ∃ r J r' J', Linearised (TinyWorld.heap 0 0 1) [0, 1, 2] (TinyWorld.facs (4 : ℝ) 7 2 3 1) r J ∧
    Linearised (TinyWorld.heap 0 0 1) [1, 2, 0] (TinyWorld.facs (4 : ℝ) 7 2 3 1).reverse r' J' := by
  have hfree : some 0 ∈ (genericPrior 10 0 [4] 2 : Factor ℝ (GenVar ℝ)).variables := by simp [genericPrior]
  have hconst : VarLike.isConst (F := ℝ) (TinyWorld.heap (0 : ℝ) 0 1 0) = false := rfl
  have hres := (TinyWorld.residual_eq (4 : ℝ) 7 2 3 1 (TinyWorld.heap 0 0 1) (a := 0) (c := 0) (m := 1) rfl rfl rfl _).2 rfl
  obtain ⟨b1, hb1⟩ := tiny_blocks (TinyWorld.facs 4 7 2 3 1) fun _ h => h
  obtain ⟨b2, hb2⟩ := tiny_blocks (TinyWorld.facs 4 7 2 3 1).reverse fun f h => List.mem_reverse.1 h
  have hw1 := TinyWorld.finalizedAfter (0 : ℝ) 0 1 4 7 2 3 1
  have hw2 := TinyReordered.finalizedAfter (0 : ℝ) 0 1 4 7 2 3 1
  obtain ⟨_, J, _, _, h3, h4, h5, _⟩ := C07_sparse hw1 (TinyWorld.noJacobianYet 0 0 1 4 7 2 3 1)
    (TinyWorld.identify 0 0 1 4 7 2 3 1) (TinyWorld.noRepeats 0 0 1 4 7 2 3 1) (TinyWorld.reuseSafe 0 0 1 4 7 2 3 1) b1
    (by rw [TinyWorld.facs_eq, TinyWorld.heap_eq]; exact hb1)
    (by rw [TinyWorld.facs_eq, TinyWorld.heap_eq]; exact ⟨_, by simp [TinyWorld.facs], 0, hfree, hconst⟩)
  have mem : ∀ {f}, f ∈ (TinyReordered.world (0 : ℝ) 0 1 4 7 2 3 1).graph.getAllFactors →
      f ∈ (TinyWorld.world (0 : ℝ) 0 1 4 7 2 3 1).graph.getAllFactors :=
    fun h => (TinyReordered.facs_perm 0 0 1 4 7 2 3 1).mem_iff.2 h
  obtain ⟨_, J', _, _, h3', h4', h5', _⟩ := C07_sparse hw2 (TinyReordered.noJacobianYet 0 0 1 4 7 2 3 1)
    (by
      have := TinyWorld.identify (0 : ℝ) 0 1 4 7 2 3 1
      rw [TinyReordered.heap_eq]
      rw [TinyWorld.heap_eq] at this
      exact fun f hf v hv r hr => this f (mem hf) v hv r ((TinyReordered.vars_perm 0 0 1 4 7 2 3 1).mem_iff.2 hr))
    (fun f hf => TinyWorld.noRepeats 0 0 1 4 7 2 3 1 f (mem hf)) (fun f hf => TinyWorld.reuseSafe 0 0 1 4 7 2 3 1 f (mem hf)) b2
    (by rw [TinyReordered.facs_eq, TinyReordered.heap_eq]; exact hb2)
    (by rw [TinyReordered.facs_eq, TinyReordered.heap_eq]; exact ⟨_, by simp [TinyWorld.facs]; left; rfl, 1, by simp [genericPrior], rfl⟩)
  have hl1 := finalizedAfter_layout hw1
  have hl2 := finalizedAfter_layout hw2
  have n1 := hl1.nv
  have n2 := hl2.nv
  have m1 := hl1.nr
  have m2 := hl2.nr
  have hres2 : IsResidual (TinyWorld.heap 0 0 1) (TinyWorld.facs (4 : ℝ) 7 2 3 1).reverse
      [1 * (0 - 7), 3 * (0 - 0 - 1), 2 * (0 - 4)] := by
    refine ⟨[[1 * (0 - 7)], [3 * (0 - 0 - 1)], [2 * (0 - 4)]], rfl, fun k f hk => ?_, rfl⟩
    match k with
    | 0 => obtain rfl := Option.some.inj hk; exact ⟨_, rfl, rfl, rfl⟩
    | 1 => obtain rfl := Option.some.inj hk; exact ⟨_, rfl, rfl, rfl⟩
    | 2 => obtain rfl := Option.some.inj hk; exact ⟨_, rfl, rfl, rfl⟩
    | k + 3 => simp [TinyWorld.facs] at hk
  refine ⟨_, J, _, J', ⟨hres, ?_, ?_, b1, hb1, ?_⟩, ⟨hres2, ?_, ?_, b2, hb2, ?_⟩⟩
  · exact h3.trans (m1.trans (congrArg rowTotal (TinyWorld.facs_eq 0 0 1 4 7 2 3 1)))
  · rw [h4, n1]
    show freeTotal (TinyWorld.world (0 : ℝ) 0 1 4 7 2 3 1).heap (TinyWorld.world (0 : ℝ) 0 1 4 7 2 3 1).graph.getAllVariables = _
    rw [TinyWorld.heap_eq, TinyWorld.vars_eq]
  · rwa [TinyWorld.heap_eq, TinyWorld.vars_eq, TinyWorld.facs_eq] at h5
  · exact h3'.trans (m2.trans (congrArg rowTotal (TinyReordered.facs_eq 0 0 1 4 7 2 3 1)))
  · rw [h4', n2]
    show freeTotal (TinyReordered.world (0 : ℝ) 0 1 4 7 2 3 1).heap (TinyReordered.world (0 : ℝ) 0 1 4 7 2 3 1).graph.getAllVariables = _
    rw [TinyReordered.heap_eq, TinyReordered.vars_eq]
  · rwa [TinyReordered.heap_eq, TinyReordered.vars_eq, TinyReordered.facs_eq] at h5'

/-- Every linearisation of the small graph is well conditioned. -/
theorem tiny_well {h : Heap (GenVar ℝ)} (hi : TinyWorld.Inv h) {r : List ℝ} {J : SpMat ℝ}
    (hlin : Linearised h [0, 1, 2] (TinyWorld.facs (4 : ℝ) 7 2 3 1) r J) : WellConditioned J := by
  obtain ⟨c0, c1, c2, hl⟩ := hi
  have s0 := hl 0 (by decide)
  have s1 := hl 1 (by decide)
  obtain ⟨_, hrows, hcols, blocks, hb, hst⟩ := hlin
  have z0 : Spec.freeSize (F := ℝ) (h 0) = 1 := by simp [Spec.freeSize, VarLike.isConst, VarLike.size, c0, s0]
  have z1 : Spec.freeSize (F := ℝ) (h 1) = 1 := by simp [Spec.freeSize, VarLike.isConst, VarLike.size, c1, s1]
  have z2 : Spec.freeSize (F := ℝ) (h 2) = 0 := by simp [Spec.freeSize, VarLike.isConst, c2]
  have t0 : colStart h [0, 1, 2] 0 = 0 := by simp [colStart, freeTotal]
  have t1 : colStart h [0, 1, 2] 1 = 1 := by simp [colStart, freeTotal, z0]
  have e0 := (hb 0 _ rfl).1
  have e1 := (hb 1 _ rfl).1
  have e2 := (hb 2 _ rfl).1
  simp only [genericPrior, genericBetween, betweenBlock, VarLike.isConst, c0, c1, c2] at e0 e1 e2
  have b0 := (Res.ok.inj e0).symm
  have b1 := (Res.ok.inj e1).symm
  have b2 := (Res.ok.inj e2).symm
  have q0 := hst 0 _ rfl 0 (by simp [genericPrior])
  have q1 := hst 1 _ rfl 0 (by simp [genericBetween])
  have q2 := hst 2 _ rfl 0 (by simp [genericPrior])
  have a00 : J.coeff 0 0 = 2 := by
    have := q0.1 0 0 _ rfl c0 (by rw [b0]; rfl) 0 (by simp [VarLike.size, s0])
    rw [t0] at this; simpa [rowStart, rowTotal, Mat.entry, Mat.diag] using this
  have a01 : J.coeff 0 1 = 0 := by
    have := q0.2 1 (by simp) c1 (by simp [genericPrior]) 0 (by simp [VarLike.size, s1])
    rw [t1] at this; simpa [rowStart, rowTotal] using this
  have a10 : J.coeff 1 0 = -3 := by
    have := q1.1 0 0 _ rfl c0 (by rw [b1]; rfl) 0 (by simp [VarLike.size, s0])
    rw [t0] at this; simpa [rowStart, rowTotal, TinyWorld.facs, genericPrior, Mat.entry, Mat.diag] using this
  have a11 : J.coeff 1 1 = 3 := by
    have := q1.1 1 1 _ rfl c1 (by rw [b1]; rfl) 0 (by simp [VarLike.size, s1])
    rw [t1] at this; simpa [rowStart, rowTotal, TinyWorld.facs, genericPrior, Mat.entry, Mat.diag] using this
  have a20 : J.coeff 2 0 = 0 := by
    have := q2.2 0 (by simp) c0 (by simp [genericPrior]) 0 (by simp [VarLike.size, s0])
    rw [t0] at this
    simpa [rowStart, rowTotal, TinyWorld.facs, genericPrior, genericBetween] using this
  have a21 : J.coeff 2 1 = 1 := by
    have := q2.1 0 1 _ rfl c1 (by rw [b2]; rfl) 0 (by simp [VarLike.size, s1])
    rw [t1] at this
    simpa [rowStart, rowTotal, TinyWorld.facs, genericPrior, genericBetween, Mat.entry, Mat.diag] using this
  have hR : J.rows = 3 := by simpa [rowTotal, TinyWorld.facs, genericPrior, genericBetween] using hrows
  have hC : J.columns.length = 2 := by simpa [freeTotal, z0, z1, z2] using hcols
  refine ⟨2, 21, fun x => ?_, by norm_num, by norm_num⟩
  obtain ⟨x0, x1, hx, hJ⟩ : ∃ x0 x1 : ℝ, dotProduct x x = x0 * x0 + x1 * x1 ∧ dotProduct (Matrix.mulVec (jacobianMatrix J) x) (Matrix.mulVec (jacobianMatrix J) x) =
      2 * x0 * (2 * x0) + (-3 * x0 + 3 * x1) * (-3 * x0 + 3 * x1) + x1 * x1 := by
    match J, hR, hC with
    | ⟨_, [p, q], n⟩, rfl, _ =>
      refine ⟨x (0 : Fin 2), x (1 : Fin 2), Fin.sum_univ_two (fun i => x i * x i), ?_⟩
      have e : ∀ i : Fin 3, Matrix.mulVec (jacobianMatrix ⟨3, [p, q], n⟩) x i =
          SpMat.coeff ⟨3, [p, q], n⟩ i 0 * x (0 : Fin 2) + SpMat.coeff ⟨3, [p, q], n⟩ i 1 * x (1 : Fin 2) :=
        fun i => Fin.sum_univ_two (fun c : Fin 2 => SpMat.coeff ⟨3, [p, q], n⟩ i c * x c)
      refine (Fin.sum_univ_three (fun i : Fin 3 => Matrix.mulVec (jacobianMatrix ⟨3, [p, q], n⟩) x i *
        Matrix.mulVec (jacobianMatrix ⟨3, [p, q], n⟩) x i)).trans ?_
      rw [e 0, e 1, e 2]
      simp only [Fin.val_zero, Fin.val_one, Fin.val_two, a00, a01, a10, a11, a20, a21]
      ring
  rw [hx, hJ]
  constructor
  · nlinarith [sq_nonneg (11 * x0 - 9 * x1), sq_nonneg x1]
  · nlinarith [sq_nonneg (8 * x0 + 9 * x1), sq_nonneg x1]

/-- An optimizer on the small graph and on the reordered one. -/
noncomputable def start (method : Method) : OptWorld ℝ (GenVar ℝ) (Ldlt.Fact ℝ) :=
  ⟨(TinyWorld.world 0 0 1 4 7 2 3 1).heap, (TinyWorld.world 0 0 1 4 7 2 3 1).graph,
    { Optimizer.init realArith with hasGraph := true, settings := { Settings.default realArith with method := method } }⟩
noncomputable def start' (method : Method) : OptWorld ℝ (GenVar ℝ) (Ldlt.Fact ℝ) :=
  ⟨(TinyReordered.world 0 0 1 4 7 2 3 1).heap, (TinyReordered.world 0 0 1 4 7 2 3 1).graph,
    { Optimizer.init realArith with hasGraph := true, settings := { Settings.default realArith with method := method } }⟩

theorem reordered (method : Method) : Reordered (start method) (start' method) :=
  ⟨(TinyReordered.heap_eq 0 0 1 4 7 2 3 1).trans (TinyWorld.heap_eq 0 0 1 4 7 2 3 1).symm,
    TinyReordered.vars_perm 0 0 1 4 7 2 3 1, TinyReordered.facs_perm 0 0 1 4 7 2 3 1, rfl⟩
end C84

/-- The two systems of the small graph are solved, and the steps have the same norm. -/
example : ∃ (r r' : List ℝ) (J J' : SpMat ℝ) (d d' : List ℝ),
    SystemSolved realArith Ldlt.linAlg (Ldlt.linAlg.gram J) (Ldlt.linAlg.rhs J r) d ∧
    SystemSolved realArith Ldlt.linAlg (Ldlt.linAlg.gram J') (Ldlt.linAlg.rhs J' r') d' ∧
    realArith.norm (realArith.scale 1 d') = realArith.norm (realArith.scale 1 d) := by
  obtain ⟨r, J, r', J', h1, h2⟩ := C84.tiny_linearised
  have hp : List.Perm [0, 1, 2] [1, 2, 0] := by decide
  have hn : List.Nodup [0, 1, 2] := by decide
  have hnr := TinyWorld.noRepeats (0 : ℝ) 0 1 4 7 2 3 1
  rw [TinyWorld.facs_eq] at hnr
  have hmem : ∀ f ∈ TinyWorld.facs (4 : ℝ) 7 2 3 1, ∀ r, some r ∈ f.variables →
      VarLike.isConst (F := ℝ) (TinyWorld.heap (0 : ℝ) 0 1 r) = false → r ∈ [0, 1, 2] := by
    intro f hf r hr _
    simp only [TinyWorld.facs, List.mem_cons, List.not_mem_nil, or_false] at hf
    rcases hf with rfl | rfl | rfl
    · simp [genericPrior] at hr; simp [hr]
    · simpa [genericBetween] using hr
    · simp [genericPrior] at hr; simp [hr]
  have hJ := C84.tiny_well (TinyWorld.inv_heap 0 0 1) h1
  have hJ' := C84.wellConditioned hp hn (List.reverse_perm _).symm h1 h2 hnr hmem hJ
  have hc : 0 < J.columns.length := by rw [h1.columns]; decide
  have hc' : 0 < J'.columns.length := by rw [h2.columns]; decide
  obtain ⟨d, hd⟩ := (C85_accepted_partial Ldlt.exact Ldlt.exact_pivots hc hJ r).1
  obtain ⟨d', hd'⟩ := (C85_accepted_partial Ldlt.exact Ldlt.exact_pivots hc' hJ' r').1
  exact ⟨r, r', J, J', d, d', hd, hd',
    (C84_system_partial Ldlt.exact hp hn (List.reverse_perm _).symm h1 h2 hnr hmem (.inl ⟨hd, hd'⟩) 1).2.1⟩

/-- Gauss-Newton on the small graph in both orders. -/
example (r0 r0' : List ℝ) (hr : (computeResidual (TinyWorld.env 0) (C84.start .gaussNewton).heap (C84.start .gaussNewton).graph).2 = .ok r0)
    (hr' : (computeResidual (TinyWorld.env 0) (C84.start' .gaussNewton).heap (C84.start' .gaussNewton).graph).2 = .ok r0')
    (t t' : OptWorld ℝ (GenVar ℝ) (Ldlt.Fact ℝ))
    (hret : optimize realArith Ldlt.linAlg (TinyWorld.env 0) (C84.start .gaussNewton) = (t, .ok ()))
    (hret' : optimize realArith Ldlt.linAlg (TinyWorld.env 0) (C84.start' .gaussNewton) = (t', .ok ()))
    (hst : t.opt.stats.status = .success) (hst' : t'.opt.stats.status = .success) :
    t'.heap = t.heap ∧ t'.opt.stats = t.opt.stats :=
  C84_gauss_newton_partial Ldlt.exact (TinyWorld.env 0) (TinyWorld.env 0) (C84.start .gaussNewton) (C84.start' .gaussNewton)
    (TinyWorld.finalizedAfter 0 0 1 4 7 2 3 1) (TinyReordered.finalizedAfter 0 0 1 4 7 2 3 1)
    (TinyWorld.noJacobianYet 0 0 1 4 7 2 3 1) (TinyReordered.noJacobianYet 0 0 1 4 7 2 3 1) (C84.reordered _)
    (TinyWorld.identify 0 0 1 4 7 2 3 1) (TinyWorld.noRepeats 0 0 1 4 7 2 3 1) (TinyWorld.reuseSafe 0 0 1 4 7 2 3 1)
    (TinyWorld.proper 0 0 1 4 7 2 3 1) rfl rfl r0 r0' hr hr' t t' hret hret' (.inl hst) (.inl hst')

/-- Levenberg-Marquardt on the small graph in both orders. -/
example (r0 r0' : List ℝ)
    (hr : (computeResidual (TinyWorld.env 0) (C84.start .levenbergMarquardt).heap (C84.start .levenbergMarquardt).graph).2 = .ok r0)
    (hr' : (computeResidual (TinyWorld.env 0) (C84.start' .levenbergMarquardt).heap (C84.start' .levenbergMarquardt).graph).2 =
      .ok r0')
    (t t' : OptWorld ℝ (GenVar ℝ) (Ldlt.Fact ℝ))
    (hret : optimize realArith Ldlt.linAlg (TinyWorld.env 0) (C84.start .levenbergMarquardt) = (t, .ok ()))
    (hret' : optimize realArith Ldlt.linAlg (TinyWorld.env 0) (C84.start' .levenbergMarquardt) = (t', .ok ()))
    (hst : t.opt.stats.status = .success) (hst' : t'.opt.stats.status = .success) :
    t'.heap = t.heap ∧ t'.opt.stats = t.opt.stats :=
  C84_levenberg_marquardt_partial Ldlt.exact Ldlt.exact_pivots (TinyWorld.env 0) (TinyWorld.env 0)
    (C84.start .levenbergMarquardt) (C84.start' .levenbergMarquardt)
    (TinyWorld.finalizedAfter 0 0 1 4 7 2 3 1) (TinyReordered.finalizedAfter 0 0 1 4 7 2 3 1)
    (TinyWorld.noJacobianYet 0 0 1 4 7 2 3 1) (TinyReordered.noJacobianYet 0 0 1 4 7 2 3 1) (C84.reordered _)
    (TinyWorld.identify 0 0 1 4 7 2 3 1) (TinyWorld.noRepeats 0 0 1 4 7 2 3 1) (TinyWorld.reuseSafe 0 0 1 4 7 2 3 1)
    (TinyWorld.proper 0 0 1 4 7 2 3 1) rfl rfl
    (fun _ => ⟨_, GenVar.restoresExactly, fun _ _ => trivial⟩) (fun _ => ⟨_, GenVar.restoresExactly, fun _ _ => trivial⟩)
    (by show 0 < (Settings.default realArith).initialLambda; simp [Settings.default, realArith])
    (by show 0 < (Settings.default realArith).lambdaUp; simp [Settings.default, realArith])
    (by show 0 < (Settings.default realArith).maxLambda; simp [Settings.default, realArith])
    (by
      show 0 < freeTotal (TinyWorld.world (0 : ℝ) 0 1 4 7 2 3 1).heap (TinyWorld.world (0 : ℝ) 0 1 4 7 2 3 1).graph.getAllVariables
      rw [TinyWorld.heap_eq, TinyWorld.vars_eq]; decide)
    r0 r0' hr hr'
    (fun k s1 r J hit hlin => by
      obtain ⟨_, _, hshape, _, _⟩ := iterations_ready (s0 := C84.start .levenbergMarquardt)
        (TinyWorld.finalizedAfter 0 0 1 4 7 2 3 1) (TinyWorld.noJacobianYet 0 0 1 4 7 2 3 1)
        (TinyWorld.identify 0 0 1 4 7 2 3 1) (TinyWorld.noRepeats 0 0 1 4 7 2 3 1) hit
      have e1 : (C84.start .levenbergMarquardt).graph.getAllVariables = [0, 1, 2] := TinyWorld.vars_eq 0 0 1 4 7 2 3 1
      have e2 : (C84.start .levenbergMarquardt).graph.getAllFactors = TinyWorld.facs 4 7 2 3 1 := TinyWorld.facs_eq 0 0 1 4 7 2 3 1
      rw [e1, e2] at hlin
      exact C84.tiny_well (TinyWorld.inv_shape 0 0 1 4 7 2 3 1 hshape) hlin)
    t t' hret hret' (.inl hst) (.inl hst')

/-- In rational arithmetic these runs return and succeed. -/
example : ∀ st ∈ [ToyOpt.gn, ToyOpt.lm],
    (optimize ToyOpt.rat Ldlt.linAlg (TinyWorld.env 0) (ToyOpt.start (TinyWorld.world 0 0 1 4 7 2 3 1) st)).2 = .ok () ∧
    (optimize ToyOpt.rat Ldlt.linAlg (TinyWorld.env 0) (ToyOpt.start (TinyReordered.world 0 0 1 4 7 2 3 1) st)).2 = .ok () ∧
    (optimize ToyOpt.rat Ldlt.linAlg (TinyWorld.env 0) (ToyOpt.start (TinyWorld.world 0 0 1 4 7 2 3 1) st)).1.opt.stats.status =
      .success ∧
    (optimize ToyOpt.rat Ldlt.linAlg (TinyWorld.env 0) (ToyOpt.start (TinyReordered.world 0 0 1 4 7 2 3 1) st)).1.opt.stats.status =
      .success := by decide +kernel

end Factorama.Props
