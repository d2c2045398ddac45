import Verif.Props.Floating

/-!
# Property C79: Levenberg-Marquardt does not move what is not measured
-/

namespace Factorama.Props
open Spec Graph Opt Geo Matrix
variable {Fact : Type} {L : LinAlg ℝ Fact}

/-- **C79**, directions. If the residual does not notice a step along `u`, no damped step has a part along `u`. -/
theorem C79_orthogonal (hL : ExactLinAlg L) {J : SpMat ℝ} {r : List ℝ} {lambda : ℝ} (hl : 0 < lambda) {d : List ℝ}
    (hd : SystemSolved realArith L (damped realArith (L.gram J) lambda) (L.rhs J r) d) :
    d.length = J.columns.length ∧
      ∀ u : Fin J.columns.length → ℝ, jacobianMatrix J *ᵥ u = 0 → u ⬝ᵥ asVec J.columns.length d = 0 := by
  obtain ⟨f, d', h1, h2, hlen, h3, _⟩ := C25_damped hL J r lambda hl
  obtain ⟨f', hf', _, _, hs⟩ := hd
  obtain rfl : f = f' := Option.some.inj (h1.symm.trans hf')
  obtain rfl : d' = d := Option.some.inj (h2.symm.trans hs)
  refine ⟨hlen, fun u hu => ?_⟩
  have he := (h3 _).2 rfl
  have h0 : ∀ x, u ⬝ᵥ ((jacobianMatrix J)ᵀ *ᵥ x) = 0 := fun x => by
    rw [dotProduct_mulVec, vecMul_transpose, hu, zero_dotProduct]
  have := congrArg (u ⬝ᵥ ·) he
  simp only [add_mulVec, ← mulVec_mulVec, dotProduct_add, smul_mulVec, one_mulVec, dotProduct_smul, dotProduct_neg,
    gradient, h0, neg_zero, zero_add, smul_eq_mul] at this
  exact (mul_eq_zero.1 this).resolve_left hl.ne'

section
variable {V : Type} [VarLike ℝ V]

theorem failed_positive {h : Heap V} {vars : List VRef} {facs : List (Factor ℝ V)} {r : List ℝ} {J : SpMat ℝ}
    {settings : Settings ℝ} (hup : 0 < settings.lambdaUp) (hmax : 0 < settings.maxLambda) {lambda lambda' : ℝ} {b : Bool}
    (hl : 0 < lambda) (hf : FailedTrial realArith L settings h vars facs r J lambda lambda' b) : 0 < lambda' := by
  have h1 : 0 < realArith.mul lambda settings.lambdaUp := mul_pos hl hup
  cases hf with
  | unsolved _ => exact h1
  | worse _ _ _ _ =>
    unfold Arith.stdMin
    split
    · exact hmax
    · exact h1

/-- The damping stays positive, and an accepted step is a damped step. -/
theorem trials_damped {h : Heap V} {vars : List VRef} {facs : List (Factor ℝ V)} {r : List ℝ} {J : SpMat ℝ}
    {settings : Settings ℝ} (hup : 0 < settings.lambdaUp) (hmax : 0 < settings.maxLambda) {n : Nat} {lambda lambda' : ℝ}
    (hl : 0 < lambda) {o : Option (List ℝ × Heap V × List ℝ)}
    (ht : Trials realArith L settings h vars facs r J n lambda o lambda') :
    0 < lambda' ∧ ∀ dx h' r', o = some (dx, h', r') → ∃ l > 0, ∃ d,
      SystemSolved realArith L (damped realArith (L.gram J) l) (L.rhs J r) d ∧
      dx = realArith.scale settings.learningRate d ∧ Stepped h h' vars dx := by
  induction ht with
  | exhausted => exact ⟨hl, fun _ _ _ e => by cases e⟩
  | @accepted n lambda d r' h' e1 e2 _ _ =>
    refine ⟨?_, fun dx h'' r'' e => ?_⟩
    · have h12 : (0 : ℝ) < realArith.lit (1 / 10 ^ 12) := by
        show (0 : ℝ) < ((1 / 10 ^ 12 : ℚ) : ℝ)
        push_cast
        positivity
      unfold Arith.stdMax
      split
      · exact h12
      · rename_i hn
        have hn : ¬ realArith.mul lambda settings.lambdaDown < realArith.lit (1 / 10 ^ 12) := fun h => hn (decide_eq_true h)
        exact lt_of_lt_of_le h12 (not_lt.1 hn)
    · cases e
      exact ⟨lambda, hl, d, e1, rfl, e2⟩
  | retry hf _ ih => exact ih (failed_positive hup hmax hl hf)
  | limit hf => exact ⟨failed_positive hup hmax hl hf, fun _ _ _ e => by cases e⟩

variable [LawfulVar ℝ V]

/-- One iteration: the damping is positive, and the step is a damped step or there is none. -/
theorem C79.iteration (env : Env ℝ V) (s : OptWorld ℝ V Fact)
    {h0 : Heap V} {pre post : List (Op ℝ V × Res Unit)} (hw : FinalizedAfter h0 pre post ⟨s.heap, s.graph⟩)
    (hpre : NoJacobianYet pre) (hid : IdsIdentify s.heap s.graph.getAllVariables s.graph.getAllFactors)
    (hnr : NoRepeats s.graph.getAllFactors) (hsafe : ∀ f ∈ s.graph.getAllFactors, ReuseSafe f)
    (hproper : ∀ h, SameShape s.heap h → ∀ f ∈ s.graph.getAllFactors, ∀ js, f.computeJacobians h [] = .ok js →
      ProperBlocks h f js)
    (hg : s.opt.hasGraph = true) (hm : s.opt.settings.method = .levenbergMarquardt) (hrest : Restorable s)
    (hini : 0 < s.opt.settings.initialLambda) (hup : 0 < s.opt.settings.lambdaUp) (hmax : 0 < s.opt.settings.maxLambda)
    (r0 : List ℝ) (hr : (computeResidual env s.heap s.graph).2 = .ok r0) {k : Nat} {s1 : OptWorld ℝ V Fact}
    (hit : Iterations realArith L env k (loopStart realArith env s r0) s1) :
    0 < firstDamping s.opt.settings s1.opt.stats ∧ ∀ s2, oneStep realArith L env s1 = (s2, .ok ()) →
      ∃ r J, Linearised s1.heap s.graph.getAllVariables s.graph.getAllFactors r J ∧
        (s2.heap = s1.heap ∨ ∃ l > 0, ∃ d, SystemSolved realArith L (damped realArith (L.gram J) l) (L.rhs J r) d ∧
          Stepped s1.heap s2.heap s.graph.getAllVariables (realArith.scale s.opt.settings.learningRate d)) := by
  have hpos : 0 < firstDamping s.opt.settings s1.opt.stats := by
    generalize hs0 : loopStart realArith env s r0 = s0 at hit
    induction hit with
    | zero => subst hs0; exact hini
    | @succ k _ s s' hit hstep _ ih =>
      subst hs0
      obtain ⟨r, J, o, lambda, _, ht, hcase⟩ := C67_levenberg_marquardt_partial realArith L env _ hw hpre hid hnr hsafe hproper hg hm
        hrest r0 hr k s s' hit hstep
      have h1 := (trials_damped hup hmax (ih rfl) ht).1
      rcases hcase with ⟨dx, r', _, e⟩ | ⟨_, _, n, e⟩
      · rw [firstDamping, e, if_neg (Nat.succ_ne_zero _)]; exact h1
      · rw [firstDamping, e, if_neg (Nat.succ_ne_zero _)]; exact h1
  refine ⟨hpos, fun s2 hstep => ?_⟩
  obtain ⟨r, J, o, lambda, hlin, ht, hcase⟩ := C67_levenberg_marquardt_partial realArith L env _ hw hpre hid hnr hsafe hproper hg hm
    hrest r0 hr k s1 s2 hit hstep
  refine ⟨r, J, hlin, ?_⟩
  rcases hcase with ⟨dx, r', rfl, _⟩ | ⟨_, e, _⟩
  · obtain ⟨l, hl, d, h1, rfl, h2⟩ := (trials_damped hup hmax hpos ht).2 _ _ _ rfl
    exact .inr ⟨l, hl, d, h1, h2⟩
  · exact .inl e

/-- The part of a damped step that belongs to an unused variable is zero. -/
theorem C79.part (hL : ExactLinAlg L) {h : Heap V} {vars : List VRef} {facs : List (Factor ℝ V)} {r : List ℝ}
    {J : SpMat ℝ} (hlin : Linearised h vars facs r J) (q : VRef) (hq : q ∈ vars) (hc : VarLike.isConst (h q) = false)
    (hun : ∀ f ∈ facs, some q ∉ f.variables) {l : ℝ} (hl : 0 < l) {d : List ℝ}
    (hd : SystemSolved realArith L (damped realArith (L.gram J) l) (L.rhs J r) d) (rate : ℝ) :
    partOf h vars (realArith.scale rate d) q = List.replicate (VarLike.size (h q)) 0 := by
  obtain ⟨hlen, horth⟩ := C79_orthogonal hL hl hd
  have hcol := colStart_le h hq
  rw [freeSize, hc, ← hlin.columns] at hcol
  simp only [Bool.false_eq_true, if_false] at hcol
  have hzero : ∀ k (hk : k < VarLike.size (h q)), d.getD (colStart h vars q + k) 0 = 0 := by
    intro k hk
    obtain ⟨blocks, _, hM⟩ := hlin.jacobian
    have := horth (Pi.single ⟨colStart h vars q + k, by omega⟩ 1) (by
      rw [mulVec_single_one]
      funext i
      obtain ⟨k', f, i', hk', hi', e⟩ := exists_row (a := i) (by rw [← hlin.rows]; exact i.2)
      have := (hM k' f hk' i' hi').2 q hq hc (hun f (List.mem_of_getElem? hk')) k hk
      show J.coeff i (colStart h vars q + k) = 0
      rw [e]
      exact this)
    simpa [asVec] using this
  rw [show realArith.scale rate d = d.map (fun x : ℝ => x * rate) from rfl]
  apply List.ext_getElem
  · simp only [partOf, List.length_take, List.length_drop, List.length_replicate, List.length_map]
    omega
  · intro k h1 h2
    simp only [List.length_replicate] at h2
    have := hzero k h2
    rw [List.getD_eq_getElem?_getD, List.getElem?_eq_getElem (by omega), Option.getD_some] at this
    simp [partOf, this]

/-- **C79**, unused variables. A free variable that no factor uses keeps its state exactly during a Levenberg-Marquardt
run. (That a zero increment changes nothing is C69.) -/
theorem C79_unused_partial (hL : ExactLinAlg L) (env : Env ℝ V) (s : OptWorld ℝ V Fact)
    {h0 : Heap V} {pre post : List (Op ℝ V × Res Unit)} (hw : FinalizedAfter h0 pre post ⟨s.heap, s.graph⟩)
    (hpre : NoJacobianYet pre) (hid : IdsIdentify s.heap s.graph.getAllVariables s.graph.getAllFactors)
    (hnr : NoRepeats s.graph.getAllFactors) (hsafe : ∀ f ∈ s.graph.getAllFactors, ReuseSafe f)
    (hproper : ∀ h, SameShape s.heap h → ∀ f ∈ s.graph.getAllFactors, ∀ js, f.computeJacobians h [] = .ok js →
      ProperBlocks h f js)
    (hg : s.opt.hasGraph = true) (hm : s.opt.settings.method = .levenbergMarquardt) (hrest : Restorable s)
    (hini : 0 < s.opt.settings.initialLambda) (hup : 0 < s.opt.settings.lambdaUp) (hmax : 0 < s.opt.settings.maxLambda)
    (r0 : List ℝ) (hr : (computeResidual env s.heap s.graph).2 = .ok r0) (q : VRef)
    (hun : ∀ f ∈ s.graph.getAllFactors, some q ∉ f.variables)
    (hzero : VarLike.applyIncr (s.heap q) (List.replicate (VarLike.size (s.heap q)) (0 : ℝ)) = .ok (s.heap q))
    (k : Nat) (s1 : OptWorld ℝ V Fact) (hit : Iterations realArith L env k (loopStart realArith env s r0) s1) :
    s1.heap q = s.heap q ∧ ∀ s2, oneStep realArith L env s1 = (s2, .ok ()) → s2.heap q = s.heap q := by
  have key : ∀ {k s1 s2}, Iterations realArith L env k (loopStart realArith env s r0) s1 → s1.heap q = s.heap q →
      oneStep realArith L env s1 = (s2, .ok ()) → s2.heap q = s.heap q := by
    intro k s1 s2 hit h1 hstep
    obtain ⟨r, J, hlin, hcase⟩ := (C79.iteration env s hw hpre hid hnr hsafe hproper hg hm hrest hini hup hmax r0 hr hit).2 s2 hstep
    rcases hcase with e | ⟨l, hl, d, hd, hst⟩
    · rw [e, h1]
    · by_cases hq : q ∈ s.graph.getAllVariables ∧ VarLike.isConst (s1.heap q) = false
      · have := (hst q).1 hq
        rw [C79.part hL hlin q hq.1 hq.2 hun hl hd, h1, hzero] at this
        exact (Res.ok.inj this).symm
      · rw [(hst q).2 hq, h1]
  have h1 : s1.heap q = s.heap q := by
    generalize hs0 : loopStart realArith env s r0 = s0 at hit
    induction hit with
    | zero => subst hs0; rfl
    | succ hit hstep _ ih => subst hs0; exact key hit (ih rfl) hstep
  exact ⟨h1, fun s2 hstep => key hit h1 hstep⟩

end

/-! The two numbers of `C76.idle`, of which the second is not used, with Levenberg-Marquardt. -/
namespace C79
noncomputable abbrev start : OptWorld ℝ RVar (Ldlt.Fact ℝ) :=
  ⟨C76.idle.heap, C76.idle.graph, { Optimizer.init realArith with
    hasGraph := true, settings := { Settings.default realArith with method := .levenbergMarquardt } }⟩

theorem lit_pos {q : ℚ} (h : 0 < q) : (0 : ℝ) < realArith.lit q := by
  show (0 : ℝ) < (q : ℝ)
  exact_mod_cast h
end C79

/-- The cost has a slope in the first number. -/
theorem C79.slope {J : SpMat ℝ}
    (hJ : Linearised C76.idle.heap C76.idle.graph.getAllVariables C76.idle.graph.getAllFactors [3, 2] J) :
    gradient J [3, 2] ≠ 0 := by
  rw [C76.idle_heap, C76.idle_vars, C76.idle_facs] at hJ
  have h0 : 0 < J.columns.length := by rw [hJ.columns]; exact Nat.succ_pos _
  obtain ⟨blocks, hb, hS⟩ := hJ.jacobian
  have hc : ∀ k < 2, J.coeff k 0 = 1 := by
    intro k hk
    have hk' : IdleWorld.facs[k]? = some (IdleWorld.prior k) := by
      match k with
      | 0 | 1 => rfl
    have h1 := (hb k _ hk').1
    have h2 : blocks k = [Mat.diag 1 (1 / 1 : ℝ)] := by
      match k with
      | 0 | 1 => exact (Res.ok.inj h1).symm
    have := (hS k _ hk' 0 Nat.one_pos).1 0 0 _ rfl rfl (by rw [h2]; rfl) 0 Nat.one_pos
    have e : rowStart IdleWorld.facs k + 0 = k := by
      match k with
      | 0 | 1 => rfl
    have e' : colStart (F := ℝ) (IdleWorld.heap 3 4) [0, 1] 0 + 0 = 0 := by simp [colStart, freeTotal]
    rw [e, e'] at this
    rw [this]
    simp [Mat.diag]
  intro h
  have := congrFun h ⟨0, h0⟩
  rw [gradient_apply, show J.rows = 2 from hJ.rows] at this
  simp [Finset.sum_range_succ, hc 0, hc 1] at this
  norm_num at this

/-- There are damped steps here, and they have no part along the second number. -/
example : ∃ J lambda d, 0 < lambda ∧
    SystemSolved realArith Ldlt.linAlg (damped realArith (Ldlt.linAlg.gram J) lambda) (Ldlt.linAlg.rhs J [3, 2]) d ∧
    ∃ u : Fin J.columns.length → ℝ, u ≠ 0 ∧ u ⬝ᵥ asVec J.columns.length d = 0 := by
  obtain ⟨J, hJ⟩ := C76.idle_linearised
  obtain ⟨Λ, hΛ, h⟩ := C70_large_damping Ldlt.exact Ldlt.exact_pivots
    (closed_of_finalized (IdleWorld.finalizedAfter 3 4) (IdleWorld.identify 3 4)) C76.idle_smooth hJ (C79.slope hJ) 1 one_pos
  obtain ⟨d, _, _, hd, _⟩ := h Λ le_rfl J hJ
  obtain ⟨u, hu, hk⟩ := C76.idle_undetermined hJ
  exact ⟨J, Λ, d, hΛ, hd, u, hu, (C79_orthogonal Ldlt.exact hΛ hd).2 u hk⟩

/-- The second number is 4 after any number of iterations. -/
example (env : Env ℝ RVar) : ∃ r0, (computeResidual env C79.start.heap C79.start.graph).2 = .ok r0 ∧ ∀ k s1,
    Iterations realArith Ldlt.linAlg env k (loopStart realArith env C79.start r0) s1 → s1.heap 1 = RVar.generic ⟨2, false, [4]⟩ := by
  obtain ⟨segs, h1, h2, h3⟩ := C76.idle_residual
  have hw : FinalizedAfter _ _ _ ⟨C79.start.heap, C79.start.graph⟩ := IdleWorld.finalizedAfter 3 4
  obtain ⟨⟨g', hres, _⟩, _⟩ := C05_residual hw segs h1 h2 env
  have hres' : (computeResidual env C79.start.heap C79.start.graph).2 = .ok segs.flatten := by rw [hres]
  have hreach : Reaches Ldlt.linAlg env C79.start segs.flatten 0 (loopStart realArith env C79.start segs.flatten) :=
    ⟨⟨_, _, _, hw, IdleWorld.noJacobianYet 3 4⟩, IdleWorld.identify 3 4, IdleWorld.noRepeats 3 4, rfl, hres', .zero _⟩
  refine ⟨_, hres', fun k s1 hit => ?_⟩
  have hq : C79.start.heap 1 = RVar.generic ⟨2, false, [4]⟩ := by
    rw [show C79.start.heap = _ from C76.idle_heap]; rfl
  rw [← hq]
  refine (C79_unused_partial Ldlt.exact env C79.start hw (IdleWorld.noJacobianYet 3 4) (IdleWorld.identify 3 4) (IdleWorld.noRepeats 3 4)
    (fun f hf => (smooth_built (C76.idle_smooth.factors f hf)).elim fun _ hb => C57_reuse _ _ _ hb)
    (hreach.proper C76.idle_smooth.factors) rfl rfl ?_ (C79.lit_pos (by norm_num)) (C79.lit_pos (by norm_num))
    (C79.lit_pos (by norm_num)) _ hres' 1 ?_ ?_ k s1 hit).1
  · refine fun _ => ⟨_, C41_partial, ?_⟩
    rw [show C79.start.heap = _ from C76.idle_heap, show C79.start.graph.getAllVariables = _ from C76.idle_vars]
    intro r hr
    simp only [List.mem_cons, List.not_mem_nil, or_false] at hr
    rcases hr with rfl | rfl <;> exact .generic _
  · rw [show C79.start.graph.getAllFactors = _ from C76.idle_facs]
    simp [IdleWorld.facs, IdleWorld.prior, genericPrior]
  · rw [hq]
    exact C69_partial _ (.inl (.generic _)) trivial


/-- Sum of the products of the entries. -/
def dotList (x y : List ℝ) : ℝ := (List.zipWith (· * ·) x y).sum

theorem dotList_append (x1 x2 y : List ℝ) : dotList (x1 ++ x2) y = dotList x1 (y.take x1.length) + dotList x2 (y.drop x1.length) := by
  induction x1 generalizing y with
  | nil => simp [dotList]
  | cons a x1 ih =>
    cases y with
    | nil => simp [dotList]
    | cons b y =>
      have := ih y
      simp only [dotList, List.cons_append, List.zipWith_cons_cons, List.sum_cons, List.length_cons, List.take_succ_cons,
        List.drop_succ_cons] at this ⊢
      rw [this, add_assoc]

theorem dotList_asVec {n : Nat} {x y : List ℝ} (hx : x.length = n) (hy : y.length = n) : asVec n x ⬝ᵥ asVec n y = dotList x y := by
  induction n generalizing x y with
  | zero => simp [List.length_eq_zero_iff.1 hx, dotList, dotProduct]
  | succ n ih =>
    match x, y, hx, hy with
    | a :: x, b :: y, hx, hy =>
      have := ih (x := x) (y := y) (by simpa using hx) (by simpa using hy)
      rw [dotProduct, Fin.sum_univ_succ]
      simp only [dotProduct, asVec, dotList] at this
      simp [asVec, dotList, ← this]

/-- The product with a vector of all free values, variable by variable. -/
theorem dotList_allFree (h : Heap RVar) {vars : List VRef} (hnd : vars.Nodup) {d : VRef → List ℝ}
    (hd : ∀ r ∈ vars, VarLike.isConst (h r) = false → (d r).length = VarLike.size (h r)) (x : List ℝ) :
    dotList (allFree h vars d) x =
      (vars.map fun r => if VarLike.isConst (h r) then 0 else dotList (d r) (partOf h vars x r)).sum := by
  induction vars generalizing x with
  | nil => simp [allFree, dotList]
  | cons q vars ih =>
    have hq : q ∉ vars := (List.nodup_cons.1 hnd).1
    have e : allFree h (q :: vars) d = (if VarLike.isConst (h q) then [] else d q) ++ allFree h vars d := rfl
    have hlen : (if VarLike.isConst (h q) then [] else d q).length = freeSize (h q) := by
      unfold freeSize
      cases hc : VarLike.isConst (h q)
      · simpa using hd q List.mem_cons_self hc
      · simp
    rw [e, dotList_append, hlen, ih (List.nodup_cons.1 hnd).2 (fun r hr => hd r (List.mem_cons_of_mem _ hr))]
    rw [List.map_cons, List.sum_cons]
    congr 1
    · cases hc : VarLike.isConst (h q)
      · simp [partOf, colStart, freeSize, freeTotal, hc]
      · simp [dotList]
    · congr 1
      apply List.map_congr_left
      intro r hr
      have hne : q ≠ r := fun e => hq (e ▸ hr)
      have : partOf h vars (x.drop (freeSize (h q))) r = partOf h (q :: vars) x r := by
        simp only [partOf, List.drop_drop, colStart, List.takeWhile_cons, bne_iff_ne, ne_eq, hne, not_false_eq_true, ↓reduceIte,
          freeTotal, List.map_cons, List.sum_cons]
      rw [this]

theorem dotList_zeros (n : Nat) (x : List ℝ) : dotList (List.replicate n 0) x = 0 := by
  induction n generalizing x with
  | zero => simp [dotList]
  | succ n ih =>
    cases x with
    | nil => simp [dotList]
    | cons b x =>
      have := ih x
      simp only [dotList] at this ⊢
      simp [List.replicate_succ, this]

/-- How far an increment moves an object. -/
theorem place_moves {a : V3} {b : Bool} {v v' : RVar} {x : List ℝ} (hplane : ∀ p, v ≠ .plane p)
    (hp : ∀ g, v = .generic g → b = true → g.value.length = 2 ∨ g.value.length = 3)
    (h : VarLike.applyIncr v x = .ok v') : a ⬝ᵥ (place b v' - place b v) = dotList (shiftBy a b v) x := by
  cases v with
  | pose v =>
    replace h : (v.applyIncr x).map RVar.pose = .ok v' := h
    rw [PoseVar.applyIncr] at h
    split at h
    · cases h
    · rename_i hl
      simp only [Res.map, Res.ok.injEq] at h
      subst h
      match x, not_not.1 hl with
      | [x0, x1, x2, x3, x4, x5], _ =>
        simp [place, PoseVar.recompute, dotList, shiftBy, dotProduct, Fin.sum_univ_three, read3]
        ring
  | landmark v =>
    replace h : (v.applyIncr x).map RVar.landmark = .ok v' := h
    rw [LandmarkVar.applyIncr] at h
    split at h
    · cases h
    · rename_i hl
      split at h
      · cases h
      · rename_i hl'
        simp only [Res.map, Res.ok.injEq] at h
        subst h
        obtain ⟨x0, x1, x2, rfl⟩ := List.length_eq_three.1 (not_not.1 hl)
        obtain ⟨y0, y1, y2, e⟩ := List.length_eq_three.1 (not_not.1 hl')
        simp [place, dotList, shiftBy, dotProduct, Fin.sum_univ_three, e]
        ring
  | plane v => exact absurd rfl (hplane v)
  | pose2d v =>
    replace h : (v.applyIncr x).map RVar.pose2d = .ok v' := h
    rw [Pose2DVar.applyIncr] at h
    split at h
    · cases h
    · rename_i hl
      simp only [Res.map, Res.ok.injEq] at h
      subst h
      obtain ⟨x0, x1, x2, rfl⟩ := List.length_eq_three.1 (not_not.1 hl)
      simp [place, dotList, shiftBy, dotProduct, Fin.sum_univ_three]
  | generic v =>
    replace h : (v.applyIncr x).map RVar.generic = .ok v' := h
    rw [GenVar.applyIncr] at h
    split at h
    · cases h
    · rename_i hl
      simp only [Res.map, Res.ok.injEq] at h
      subst h
      cases b with
      | false => simp [place, shiftBy, dotList_zeros]
      | true =>
        rcases hp v rfl rfl with hl2 | hl3
        · obtain ⟨y0, y1, e⟩ := List.length_eq_two.1 hl2
          obtain ⟨x0, x1, rfl⟩ := List.length_eq_two.1 ((not_not.1 hl).trans hl2)
          obtain ⟨id, c, value⟩ := v
          obtain rfl : value = _ := e
          simp [place, dotList, shiftBy, dotProduct, Fin.sum_univ_three, toList]
        · obtain ⟨y0, y1, y2, e⟩ := List.length_eq_three.1 hl3
          obtain ⟨x0, x1, x2, rfl⟩ := List.length_eq_three.1 ((not_not.1 hl).trans hl3)
          obtain ⟨id, c, value⟩ := v
          obtain rfl : value = _ := e
          simp [place, dotList, shiftBy, dotProduct, Fin.sum_univ_three, toList]
          ring
  | rotation v =>
    replace h : (v.applyIncr x).map RVar.rotation = .ok v' := h
    obtain ⟨w, _, rfl⟩ : ∃ w, v.applyIncr x = .ok w ∧ v' = .rotation w := by
      cases e : v.applyIncr x <;> rw [e] at h <;> simp_all [Res.map]
    rw [shiftBy, dotList_zeros]
    simp [place]
  | invRange v =>
    replace h : (v.applyIncr x).map RVar.invRange = .ok v' := h
    obtain ⟨w, _, rfl⟩ : ∃ w, v.applyIncr x = .ok w ∧ v' = .invRange w := by
      cases e : v.applyIncr x <;> rw [e] at h <;> simp_all [Res.map]
    rw [shiftBy, dotList_zeros]
    simp [place]

/-- **C79**, the whole. On a graph that does not measure where in the world things are and has no free plane, a
Levenberg-Marquardt iteration does not move the whole: the sum of the places of all variables is the same before and
after. -/
theorem C79_centroid_partial (hL : ExactLinAlg L) (env : Env ℝ RVar) (s s1 s2 : OptWorld ℝ RVar Fact) (r0 : List ℝ) (k : Nat)
    (hreach : Reaches L env s r0 k s1) (hm : s.opt.settings.method = .levenbergMarquardt) (hrest : Restorable s)
    (hini : 0 < s.opt.settings.initialLambda) (hup : 0 < s.opt.settings.lambdaUp) (hmax : 0 < s.opt.settings.maxLambda)
    (hs : SmoothGraph s1.heap s.graph.getAllVariables s.graph.getAllFactors) (point : VRef → Bool)
    (hpoint : ∀ r g, s1.heap r = .generic g → point r = true → g.value.length = 2 ∨ g.value.length = 3)
    (hf : ∀ f ∈ s.graph.getAllFactors, Floating point s1.heap f)
    (hfree : ∀ f ∈ s.graph.getAllFactors, ∀ r, some r ∈ f.variables → HasPlace (point r) (s1.heap r) →
      VarLike.isConst (s1.heap r) = false)
    (hplane : ∀ r ∈ s.graph.getAllVariables, ∀ p, s1.heap r = .plane p → p.isConst = true)
    (hstep : oneStep realArith L env s1 = (s2, .ok ())) :
    (s.graph.getAllVariables.map fun r => place (point r) (s2.heap r)).sum =
      (s.graph.getAllVariables.map fun r => place (point r) (s1.heap r)).sum := by
  obtain ⟨h0, pre, post, hw, hpre⟩ := hreach.history
  obtain ⟨r, J, hlin, hcase⟩ := (C79.iteration env s hw hpre hreach.identify hreach.noRepeats
    (fun f hf => (smooth_built (hs.factors f hf)).elim fun _ hb => C57_reuse _ _ _ hb) (hreach.proper hs.factors)
    hreach.hasGraph hm hrest hini hup hmax r0 hreach.start hreach.iterations).2 s2 hstep
  rcases hcase with e | ⟨l, hl, d, hd, hst⟩
  · rw [e]
  · have hnd : s.graph.getAllVariables.Nodup := List.Nodup.of_map _ (finalizedAfter_layout hw).ids
    obtain ⟨hlen, horth⟩ := C79_orthogonal hL hl hd
    have hcl := hreach.closed
    generalize s.graph.getAllVariables = vars at *
    have key : ∀ a : V3, a ⬝ᵥ ((vars.map fun r => place (point r) (s2.heap r)).sum -
        (vars.map fun r => place (point r) (s1.heap r)).sum) = 0 := by
      intro a
      have h1 := horth _ (C78.kernel hcl hs point hpoint hf hfree hlin a)
      have h2 : dotList (shiftAll s1.heap vars point a) (realArith.scale s.opt.settings.learningRate d) = 0 := by
        have e : asVec J.columns.length (realArith.scale s.opt.settings.learningRate d) =
            s.opt.settings.learningRate • asVec J.columns.length d := by
          funext i
          simp only [asVec, Arith.scale, List.getD_eq_getElem?_getD, List.getElem?_map, Pi.smul_apply, smul_eq_mul]
          cases d[i.val]? with
          | none => simp
          | some y => exact mul_comm _ _
        rw [← dotList_asVec (n := J.columns.length) ((shiftAll_length _ _ _ _).trans hlin.columns.symm)
          (by simp [Arith.scale, hlen]), e, dotProduct_smul, h1, smul_zero]
      rw [shiftAll, dotList_allFree s1.heap hnd fun _ _ _ => shiftBy_length _ _ _] at h2
      have h3 : ∀ r ∈ vars, (if VarLike.isConst (s1.heap r) then 0 else dotList (shiftBy a (point r) (s1.heap r))
          (partOf s1.heap vars (realArith.scale s.opt.settings.learningRate d) r)) =
            a ⬝ᵥ (place (point r) (s2.heap r) - place (point r) (s1.heap r)) := by
        intro r hr
        cases hc : VarLike.isConst (s1.heap r) with
        | true => rw [(hst r).2 (by simp [hc])]; simp
        | false =>
          have := (hst r).1 ⟨hr, hc⟩
          rw [place_moves (fun p e => ?_) (hpoint r) this]
          · simp
          · rw [e] at hc
            have h5 := hplane r hr p e
            have h6 : p.isConst = false := hc
            rw [h5] at h6
            cases h6
      rw [List.map_congr_left h3] at h2
      rw [← h2]
      clear h2 h3 hst hnd hplane hs hcl hlin h1
      induction vars with
      | nil => simp
      | cons q vars ih =>
        simp only [List.map_cons, List.sum_cons]
        rw [← ih, ← dotProduct_add]
        congr 1
        abel
    have := key ((vars.map fun r => place (point r) (s2.heap r)).sum - (vars.map fun r => place (point r) (s1.heap r)).sum)
    exact sub_eq_zero.1 (dotProduct_self_eq_zero.1 this)

/-- The planar pose that sees a point (`C76.adrift`), with Levenberg-Marquardt: the first iteration keeps the sum of the
position of the pose and the point, which is `(3, 4)`. -/
example (env : Env ℝ RVar) (r0 : List ℝ) (s s2 : OptWorld ℝ RVar (Ldlt.Fact ℝ))
    (hs : s = { C78.start with opt := { C78.start.opt with settings := { Settings.default realArith with method := .levenbergMarquardt } } })
    (hr : (computeResidual env s.heap s.graph).2 = .ok r0)
    (hstep : oneStep realArith Ldlt.linAlg env (loopStart realArith env s r0) = (s2, .ok ())) :
    place true (s2.heap 0) + place true (s2.heap 1) = ![3, 4, 0] := by
  have hw : FinalizedAfter _ _ _ ⟨C78.start.heap, C78.start.graph⟩ := AdriftWorld.finalizedAfter ![0, 0] 0 3 4 C70.bearing
  have hv : s.graph.getAllVariables = [0, 1] := by subst hs; exact C76.adrift_vars
  have hh : s.heap = AdriftWorld.heap ![0, 0] 0 3 4 := by subst hs; exact C76.adrift_heap
  have hreach : Reaches Ldlt.linAlg env s r0 0 (loopStart realArith env s r0) := by
    subst hs
    exact ⟨⟨_, _, _, hw, AdriftWorld.noJacobianYet _ _ _ _ _⟩, AdriftWorld.identify _ _ _ _ _, AdriftWorld.noRepeats _ _ _ _ _,
      rfl, hr, .zero _⟩
  have hrest : Restorable s := by
    refine fun _ => ⟨_, C41_partial, ?_⟩
    rw [hv, hh]
    intro r hr
    simp only [List.mem_cons, List.not_mem_nil, or_false] at hr
    rcases hr with rfl | rfl
    · exact ((C70.smooth.states 0 (by simp) rfl).1).resolve_right (by rintro ⟨v, hv⟩; cases hv)
    · exact .generic _
  have := C79_centroid_partial Ldlt.exact env s _ s2 r0 0 hreach (by subst hs; rfl) hrest
    (by subst hs; exact C79.lit_pos (by norm_num)) (by subst hs; exact C79.lit_pos (by norm_num))
    (by subst hs; exact C79.lit_pos (by norm_num)) (by subst hs; exact C76.adrift_smooth) (fun _ => true)
    (by subst hs; exact C78.points) (by subst hs; exact C78.floating) (by subst hs; exact C78.free)
    (by
      show ∀ r ∈ s.graph.getAllVariables, ∀ p, s.heap r = .plane p → _
      rw [hv, hh]
      intro r hr p e
      simp only [List.mem_cons, List.not_mem_nil, or_false] at hr
      rcases hr with rfl | rfl <;> cases e) hstep
  rw [hv] at this
  simp only [List.map_cons, List.map_nil, List.sum_cons, List.sum_nil, add_zero] at this
  rw [this]
  show place true (s.heap 0) + place true (s.heap 1) = _
  rw [hh]
  funext i
  fin_cases i <;> simp [place, AdriftWorld.heap]

end Factorama.Props
