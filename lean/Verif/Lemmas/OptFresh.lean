import Verif.Lemmas.OptSteps

/-! Helper lemmas: runs of two optimizers on the same graph in lockstep. -/

set_option linter.unusedSectionVars false

namespace Factorama
open Spec
namespace Graph
variable {F V : Type} [Zero F] [VarLike F V]

/-- Every row of a finalized graph belongs to a placed factor. -/
def Covered (g : Graph F V) : Prop :=
  g.finalized = true → ∀ a, a < g.numResiduals → ∃ it ∈ g.facPl,
    it.2.residualIndex ≤ a ∧ a < it.2.residualIndex + it.2.residualDim

theorem Covered.kept {g g' : Graph F V} (hc : Covered g) (hk : Kept g g') : Covered g' := by
  intro hf a ha
  rw [hk.finalized] at hf
  rw [hk.numResiduals] at ha
  rw [hk.facPl]
  exact hc hf a ha

theorem Laid.covered {h : Heap V} {g : Graph F V} (hl : Laid h g) : Covered g := by
  intro _ a ha
  rw [hl.nr] at ha
  obtain ⟨k, f, i, hf, hi, rfl⟩ := row_decomp g.facs a ha
  refine ⟨(k, (⟨f, rowStart g.facs k, f.residualSize, (colsOf h (plOf h g.varsVec) f.variables).map (·.1),
    (colsOf h (plOf h g.varsVec) f.variables).map (·.2)⟩ : FacPlacement F V)), ?_, ?_, ?_⟩
  · rw [hl.fpl, List.mem_iff_getElem?]
    exact ⟨k, by simp [getElem?_placedList, hf]⟩
  · simp
  · simpa using hi

/-- A loop over placed factors gives the same outcome for any two vectors of the same size, and the same entries where
the vectors agreed or a factor wrote. -/
theorem residualLoop_agree {h : Heap V} (l : List (Nat × FacPlacement F V)) (b b' : List F) (hb : b.length = b'.length) :
    (SE.forEach l (residualOne h) b).2 = (SE.forEach l (residualOne h) b').2 ∧
    (SE.forEach l (residualOne h) b).1.length = (SE.forEach l (residualOne h) b').1.length ∧
    ((SE.forEach l (residualOne h) b).2 = .ok () → ∀ a : Nat,
      (b[a]? = b'[a]? ∨ ∃ it ∈ l, it.2.residualIndex ≤ a ∧ a < it.2.residualIndex + it.2.residualDim) →
        (SE.forEach l (residualOne h) b).1[a]? = (SE.forEach l (residualOne h) b').1[a]?) := by
  induction l generalizing b b' with
  | nil => simp [SE.forEach_nil, hb]
  | cons it l ih =>
    rw [SE.forEach_cons, SE.forEach_cons]
    by_cases hlen : it.2.residualIndex + it.2.residualDim > b.length
    · have e : residualOne h it b = (b, .ub) := by simp [residualOne, hlen]
      have e' : residualOne h it b' = (b', .ub) := by rw [hb] at hlen; simp [residualOne, hlen]
      rw [SE.bind_ub e, SE.bind_ub e']
      simp [hb]
    · have hlen' : ¬ it.2.residualIndex + it.2.residualDim > b'.length := by rw [← hb]; exact hlen
      cases hr : it.2.factor.computeResidual h with
      | threw =>
        have e : residualOne h it b = (b, .threw) := by simp [residualOne, hlen, hr]
        have e' : residualOne h it b' = (b', .threw) := by simp [residualOne, hlen', hr]
        rw [SE.bind_threw e, SE.bind_threw e']
        simp [hb]
      | ub =>
        have e : residualOne h it b = (b, .ub) := by simp [residualOne, hlen, hr]
        have e' : residualOne h it b' = (b', .ub) := by simp [residualOne, hlen', hr]
        rw [SE.bind_ub e, SE.bind_ub e']
        simp [hb]
      | ok seg =>
        by_cases hs : seg.length = it.2.residualDim
        · have e : residualOne h it b = (b.take it.2.residualIndex ++ seg ++
              b.drop (it.2.residualIndex + it.2.residualDim), .ok ()) := by simp [residualOne, hlen, hr, hs]
          have e' : residualOne h it b' = (b'.take it.2.residualIndex ++ seg ++
              b'.drop (it.2.residualIndex + it.2.residualDim), .ok ()) := by simp [residualOne, hlen', hr, hs]
          rw [SE.bind_ok e, SE.bind_ok e']
          obtain ⟨i1, i2, i3⟩ := ih (b.take it.2.residualIndex ++ seg ++
            b.drop (it.2.residualIndex + it.2.residualDim)) (b'.take it.2.residualIndex ++ seg ++
            b'.drop (it.2.residualIndex + it.2.residualDim)) (by simp [hb])
          refine ⟨i1, i2, fun hok a ha => i3 hok a ?_⟩
          rw [← hs, getElem?_splice (by omega), getElem?_splice (by omega)]
          rcases ha with ha | ⟨it', hit, ha⟩
          · left; split
            · rfl
            · exact ha
          · rcases List.mem_cons.1 hit with rfl | hm
            · left; rw [if_pos (by omega), if_pos (by omega)]
            · exact .inr ⟨it', hm, ha⟩
        · have e : residualOne h it b = (b, .ub) := by simp [residualOne, hlen, hr, hs]
          have e' : residualOne h it b' = (b', .ub) := by simp [residualOne, hlen', hr, hs]
          rw [SE.bind_ub e, SE.bind_ub e']
          simp [hb]

/-- In a covered graph the previous contents of the caller's vector do not matter. -/
theorem computeResidualInto_fresh {g : Graph F V} (hc : Covered g) (env : Env F V) (h : Heap V) (b b' : List F) :
    (computeResidualInto env g h b).2 = (computeResidualInto env g h b').2 ∧
    ((computeResidualInto env g h b).2 = .ok () →
      (computeResidualInto env g h b).1 = (computeResidualInto env g h b').1) := by
  unfold computeResidualInto
  cases hf : g.finalized with
  | false => simp [SE.throw]
  | true =>
    simp only [Bool.not_true, Bool.false_eq_true, if_false, SE.bind_modify]
    have hlen : ∀ b : List F, (resizeTo env g.numResiduals b).length = g.numResiduals := by
      intro b; unfold resizeTo; split <;> simp_all
    obtain ⟨h1, h2, h3⟩ := residualLoop_agree (h := h) (env.order g.facPl) (resizeTo env g.numResiduals b)
      (resizeTo env g.numResiduals b') (by rw [hlen, hlen])
    refine ⟨h1, fun hok => ?_⟩
    have hl := residualLoop_length (h := h) (env.order g.facPl) (resizeTo env g.numResiduals b)
    apply List.ext_getElem?
    intro a
    by_cases ha : a < g.numResiduals
    · obtain ⟨it, hm, hi⟩ := hc hf a ha
      exact h3 hok a (.inr ⟨it, (env.order_perm _).mem_iff.mpr hm, hi⟩)
    · refine h3 hok a (.inl ?_)
      rw [List.getElem?_eq_none (by rw [hlen]; omega), List.getElem?_eq_none (by rw [hlen]; omega)]

end Graph

namespace Opt
open Graph
variable {F V Fact : Type} [Zero F] [VarLike F V]

/-- The optimizers agree in everything but statistics and working memory. -/
structure Weak (s s' : OptWorld F V Fact) : Prop where
  heap : s'.heap = s.heap
  graph : s'.graph = s.graph
  settings : s'.opt.settings = s.opt.settings
  hasGraph : s'.opt.hasGraph = s.opt.hasGraph
  complete : s'.opt.complete = s.opt.complete
  hessianValid : s'.opt.hessianValid = s.opt.hessianValid
  cache : s.opt.hessianValid = true → s'.opt.hessian = s.opt.hessian ∧ s'.opt.solver = s.opt.solver
  cov : Covered s.graph

/-- They agree in the statistics as well, and in the residual buffers if the flags say so. -/
structure Sim (p1 p2 : Prop) (s s' : OptWorld F V Fact) : Prop extends Weak s s' where
  stats : s'.opt.stats = s.opt.stats
  initialStats : s'.opt.initialStats = s.opt.initialStats
  r1 : p1 → s'.opt.residual1 = s.opt.residual1
  r2 : p2 → s'.opt.residual2 = s.opt.residual2

theorem Sim.mono {p1 p2 q1 q2 : Prop} {s s' : OptWorld F V Fact} (h : Sim p1 p2 s s') (h1 : q1 → p1) (h2 : q2 → p2) :
    Sim q1 q2 s s' := ⟨h.toWeak, h.stats, h.initialStats, fun q => h.r1 (h1 q), fun q => h.r2 (h2 q)⟩

theorem Sim.forget {p1 p2 : Prop} {s s' : OptWorld F V Fact} (h : Sim p1 p2 s s') : Sim False False s s' :=
  h.mono False.elim False.elim

/-- Two computations end alike. -/
structure Same {α : Type} (Q : α → OptWorld F V Fact → OptWorld F V Fact → Prop) (x y : OptWorld F V Fact × Res α) :
    Prop where
  out : y.2 = x.2
  sim : Sim False False x.1 y.1
  post : ∀ a, x.2 = .ok a → Q a x.1 y.1

theorem Same.bind {α β : Type} {Q : α → OptWorld F V Fact → OptWorld F V Fact → Prop}
    {R : β → OptWorld F V Fact → OptWorld F V Fact → Prop} {m m' : SE (OptWorld F V Fact) α}
    {k k' : α → SE (OptWorld F V Fact) β} {s s' : OptWorld F V Fact} (hm : Same Q (m s) (m' s'))
    (hk : ∀ a t t', Q a t t' → Same R (k a t) (k' a t')) : Same R (SE.bind m k s) (SE.bind m' k' s') := by
  obtain ⟨h1, h2, h3⟩ := hm
  rcases e : m s with ⟨t, r⟩
  rcases e' : m' s' with ⟨t', r'⟩
  rw [e] at h1 h2 h3
  rw [e'] at h1 h2 h3
  dsimp only at h1 h2 h3
  subst h1
  cases r' with
  | ok a => rw [SE.bind_ok e, SE.bind_ok e']; exact hk a t t' (h3 a rfl)
  | threw => rw [SE.bind_threw e, SE.bind_threw e']; exact ⟨rfl, h2, by simp⟩
  | ub => rw [SE.bind_ub e, SE.bind_ub e']; exact ⟨rfl, h2, by simp⟩

theorem Same.ret {α : Type} {Q : α → OptWorld F V Fact → OptWorld F V Fact → Prop} {p1 p2 : Prop} (a : α)
    {s s' : OptWorld F V Fact} (h : Sim p1 p2 s s') (hq : Q a s s') : Same Q (SE.ret a s) (SE.ret a s') :=
  ⟨rfl, h.forget, fun b e => by cases e; exact hq⟩

theorem Same.throw {α : Type} {Q : α → OptWorld F V Fact → OptWorld F V Fact → Prop} {p1 p2 : Prop}
    {s s' : OptWorld F V Fact} (h : Sim p1 p2 s s') : Same Q (SE.throw s) (SE.throw s') :=
  ⟨rfl, h.forget, fun b e => by cases e⟩

theorem Same.undefined {α : Type} {Q : α → OptWorld F V Fact → OptWorld F V Fact → Prop} {p1 p2 : Prop}
    {s s' : OptWorld F V Fact} (h : Sim p1 p2 s s') : Same Q (SE.undefined s) (SE.undefined s') :=
  ⟨rfl, h.forget, fun b e => by cases e⟩

theorem Same.mono {α : Type} {Q R : α → OptWorld F V Fact → OptWorld F V Fact → Prop} {x y : OptWorld F V Fact × Res α}
    (h : Same Q x y) (hq : ∀ a t t', Q a t t' → R a t t') : Same R x y :=
  ⟨h.out, h.sim, fun a e => hq a _ _ (h.post a e)⟩

theorem modStats_same {p1 p2 : Prop} {s s' : OptWorld F V Fact} (h : Sim p1 p2 s s') (f : Stats F → Stats F) :
    Same (fun _ => Sim p1 p2) (modStats f s) (modStats f s') := by
  have : Sim p1 p2 (modStats f s).1 (modStats f s').1 :=
    ⟨⟨h.heap, h.graph, h.settings, h.hasGraph, h.complete, h.hessianValid, h.cache, h.cov⟩,
      congrArg f h.stats, h.initialStats, h.r1, h.r2⟩
  exact ⟨rfl, this.forget, fun _ _ => this⟩

theorem solver_same {p1 p2 : Prop} {s s' : OptWorld F V Fact} (h : Sim p1 p2 s s') (x : Option Fact) :
    Same (fun _ => Sim p1 p2) (modOpt (fun o => { o with solver := x }) s) (modOpt (fun o => { o with solver := x }) s') := by
  have : Sim p1 p2 (modOpt (fun o => { o with solver := x }) s).1 (modOpt (fun o => { o with solver := x }) s').1 :=
    ⟨⟨h.heap, h.graph, h.settings, h.hasGraph, h.complete, h.hessianValid, fun hv => ⟨(h.cache hv).1, rfl⟩, h.cov⟩,
      h.stats, h.initialStats, h.r1, h.r2⟩
  exact ⟨rfl, this.forget, fun _ _ => this⟩

theorem evalResidual1_same {p1 p2 : Prop} {s s' : OptWorld F V Fact} (h : Sim p1 p2 s s') (env : Env F V) :
    Same (fun _ => Sim True p2) (evalResidual1 env s) (evalResidual1 env s') := by
  obtain ⟨e1, e2⟩ := computeResidualInto_fresh h.cov env s.heap s.opt.residual1 s'.opt.residual1
  unfold evalResidual1
  rw [h.heap, h.graph]
  refine ⟨e1.symm, ?_, fun u e => ?_⟩
  · exact ⟨⟨rfl, rfl, h.settings, h.hasGraph, h.complete, h.hessianValid, h.cache, h.cov⟩,
      h.stats, h.initialStats, False.elim, False.elim⟩
  · exact ⟨⟨rfl, rfl, h.settings, h.hasGraph, h.complete, h.hessianValid, h.cache, h.cov⟩,
      h.stats, h.initialStats, fun _ => (e2 e).symm, h.r2⟩

theorem evalResidual2_same {p1 p2 : Prop} {s s' : OptWorld F V Fact} (h : Sim p1 p2 s s') (env : Env F V) :
    Same (fun _ => Sim p1 True) (evalResidual2 env s) (evalResidual2 env s') := by
  obtain ⟨e1, e2⟩ := computeResidualInto_fresh h.cov env s.heap s.opt.residual2 s'.opt.residual2
  unfold evalResidual2
  rw [h.heap, h.graph]
  refine ⟨e1.symm, ?_, fun u e => ?_⟩
  · exact ⟨⟨rfl, rfl, h.settings, h.hasGraph, h.complete, h.hessianValid, h.cache, h.cov⟩,
      h.stats, h.initialStats, False.elim, False.elim⟩
  · exact ⟨⟨rfl, rfl, h.settings, h.hasGraph, h.complete, h.hessianValid, h.cache, h.cov⟩,
      h.stats, h.initialStats, h.r1, fun _ => (e2 e).symm⟩

theorem evalSparse_same {p1 p2 : Prop} {s s' : OptWorld F V Fact} (h : Sim p1 p2 s s') :
    Same (fun _ => Sim p1 p2) (evalSparse s) (evalSparse s') := by
  unfold evalSparse
  rw [h.heap, h.graph]
  have : Sim p1 p2 { s with graph := (computeSparse s.heap s.graph).1 }
      { heap := s.heap, graph := (computeSparse s.heap s.graph).1, opt := s'.opt } :=
    ⟨⟨rfl, rfl, h.settings, h.hasGraph, h.complete, h.hessianValid, h.cache, h.cov.kept (computeSparse_kept _ _)⟩,
      h.stats, h.initialStats, h.r1, h.r2⟩
  exact ⟨rfl, this.forget, fun _ _ => this⟩

theorem onHeap_same {α : Type} {p1 p2 : Prop} {s s' : OptWorld F V Fact} (h : Sim p1 p2 s s')
    (m : Graph F V → SE (Heap V) α) : Same (fun _ => Sim p1 p2) (onHeap m s) (onHeap m s') := by
  unfold onHeap
  rw [h.heap, h.graph]
  have : Sim p1 p2 { s with heap := (m s.graph s.heap).1 }
      { heap := (m s.graph s.heap).1, graph := s.graph, opt := s'.opt } :=
    ⟨⟨rfl, rfl, h.settings, h.hasGraph, h.complete, h.hessianValid, h.cache, h.cov⟩,
      h.stats, h.initialStats, h.r1, h.r2⟩
  exact ⟨rfl, this.forget, fun _ _ => this⟩

theorem gaussNewtonStep_same {p1 p2 : Prop} {s s' : OptWorld F V Fact} (h : Sim p1 p2 s s') (A : Arith F)
    (L : LinAlg F Fact) (env : Env F V) :
    Same (fun _ => Sim False False) (gaussNewtonStep A L env s) (gaussNewtonStep A L env s') := by
  unfold gaussNewtonStep
  simp only [SE.bind_get]
  rw [h.hasGraph]
  split
  · exact Same.throw h
  refine Same.bind (evalResidual1_same h env) fun _ t t' h => ?_
  refine Same.bind (evalSparse_same h) fun J t t' h => ?_
  simp only [SE.bind_get]
  rw [h.r1 trivial, h.settings]
  cases L.factorize (L.gram J) with
  | none => exact Same.bind (solver_same h none) fun _ t t' h => (modStats_same h _).mono fun _ _ _ h => h.forget
  | some f =>
    refine Same.bind (solver_same h (some f)) fun _ t t' h => ?_
    split
    · exact Same.undefined h
    split
    · exact (modStats_same h _).mono fun _ _ _ h => h.forget
    split
    · exact (modStats_same h _).mono fun _ _ _ h => h.forget
    cases L.solve f _ with
    | none => exact (modStats_same h _).mono fun _ _ _ h => h.forget
    | some d =>
      refine Same.bind (onHeap_same h _) fun _ t t' h => ?_
      refine Same.bind (evalResidual2_same h env) fun _ t t' h => ?_
      simp only [SE.bind_get]
      rw [h.r2 trivial]
      exact (modStats_same h _).mono fun _ _ _ h => h.forget

theorem raiseLambda_same {p1 p2 : Prop} {s s' : OptWorld F V Fact} (h : Sim p1 p2 s s') (A : Arith F) :
    Same (fun _ => Sim p1 p2) (raiseLambda A s) (raiseLambda A s') := by
  unfold raiseLambda
  simp only [SE.bind_get]
  rw [h.settings]
  exact modStats_same h _

theorem lmTrials_same {p2 : Prop} (A : Arith F) (L : LinAlg F Fact) (env : Env F V) (J : SpMat F) (cost : F) (k : Nat)
    (dx : List F) {s s' : OptWorld F V Fact} (h : Sim True p2 s s') :
    Same (fun res => Sim True (res.1 = true)) (lmTrials A L env J cost k dx s) (lmTrials A L env J cost k dx s') := by
  induction k generalizing p2 dx s s' with
  | zero => exact Same.ret _ h (h.mono id (by simp))
  | succ k ih =>
    unfold lmTrials
    simp only [SE.bind_get]
    rw [h.r1 trivial, h.settings, h.stats]
    have hsave : saveValues s' = saveValues s := by unfold saveValues; rw [h.graph, h.heap]
    rw [hsave]
    cases L.factorize _ with
    | none =>
      exact Same.bind (solver_same h none) fun _ t t' h => Same.bind (raiseLambda_same h A) fun _ t t' h => ih dx h
    | some f =>
      refine Same.bind (solver_same h (some f)) fun _ t t' h => ?_
      split
      · exact Same.undefined h
      split
      · exact Same.bind (raiseLambda_same h A) fun _ t t' h => ih dx h
      cases L.solve f _ with
      | none => exact Same.bind (raiseLambda_same h A) fun _ t t' h => ih _ h
      | some d =>
        refine Same.bind (onHeap_same h _) fun _ t t' h => ?_
        refine Same.bind (evalResidual2_same h env) fun _ t t' h => ?_
        simp only [SE.bind_get]
        rw [h.r2 trivial]
        split
        · exact Same.bind (modStats_same h _) fun _ t t' h => Same.ret _ h (h.mono id fun _ => trivial)
        · refine Same.bind (onHeap_same h _) fun _ t t' h => ?_
          refine Same.bind (modStats_same h _) fun _ t t' h => ?_
          simp only [SE.bind_get]
          rw [h.stats]
          split
          · exact Same.ret _ h (h.mono id (by simp))
          · exact ih _ h

theorem levenbergMarquardtStep_same {p1 p2 : Prop} {s s' : OptWorld F V Fact} (h : Sim p1 p2 s s') (A : Arith F)
    (L : LinAlg F Fact) (env : Env F V) :
    Same (fun _ => Sim False False) (levenbergMarquardtStep A L env s) (levenbergMarquardtStep A L env s') := by
  unfold levenbergMarquardtStep
  simp only [SE.bind_get]
  rw [h.hasGraph]
  split
  · exact Same.throw h
  refine Same.bind (evalResidual1_same h env) fun _ t t' h => ?_
  refine Same.bind (evalSparse_same h) fun J t t' h => ?_
  simp only [SE.bind_get]
  rw [h.r1 trivial, h.settings]
  refine Same.bind (modStats_same h _) fun _ t t' h => ?_
  refine Same.bind (lmTrials_same A L env J _ 5 [] h) fun res t t' h => ?_
  split
  · rename_i hres
    simp only [SE.bind_get]
    rw [h.r2 hres]
    exact (modStats_same h _).mono fun _ _ _ h => h.forget
  · have hrej : ∀ cost, Same (fun _ => Sim True False) (lmRejected A cost t) (lmRejected A cost t') := by
      intro cost
      unfold lmRejected
      simp only [SE.bind_get]
      rw [h.initialStats, h.settings]
      split
      · exact (modStats_same h _).mono fun _ _ _ h => h.mono id False.elim
      · exact (modStats_same h _).mono fun _ _ _ h => h.mono id False.elim
    refine Same.bind (hrej _) fun _ t t' h => ?_
    have hcopy : Same (fun _ => Sim True True) (modOpt (fun o : Optimizer F Fact => { o with residual2 := o.residual1 }) t)
        (modOpt (fun o : Optimizer F Fact => { o with residual2 := o.residual1 }) t') := by
      have : Sim True True (modOpt (fun o : Optimizer F Fact => { o with residual2 := o.residual1 }) t).1
          (modOpt (fun o : Optimizer F Fact => { o with residual2 := o.residual1 }) t').1 :=
        ⟨⟨h.heap, h.graph, h.settings, h.hasGraph, h.complete, h.hessianValid, h.cache, h.cov⟩,
          h.stats, h.initialStats, h.r1, fun _ => h.r1 trivial⟩
      exact ⟨rfl, this.forget, fun _ _ => this⟩
    refine Same.bind hcopy fun _ t t' h => ?_
    simp only [SE.bind_get]
    rw [h.r2 trivial]
    exact (modStats_same h _).mono fun _ _ _ h => h.forget

theorem oneStep_same {p1 p2 : Prop} {s s' : OptWorld F V Fact} (h : Sim p1 p2 s s') (A : Arith F)
    (L : LinAlg F Fact) (env : Env F V) :
    Same (fun _ => Sim False False) (oneStep A L env s) (oneStep A L env s') := by
  unfold oneStep
  simp only [SE.bind_get]
  rw [h.settings]
  cases s.opt.settings.method with
  | gaussNewton => exact gaussNewtonStep_same h A L env
  | levenbergMarquardt => exact levenbergMarquardtStep_same h A L env

theorem iterate_same (A : Arith F) (L : LinAlg F Fact) (env : Env F V) (n : Nat) {s s' : OptWorld F V Fact}
    (h : Sim False False s s') : Same (fun _ => Sim False False) (iterate A L env n s) (iterate A L env n s') := by
  induction n generalizing s s' with
  | zero => exact Same.ret _ h h
  | succ n ih =>
    have ho := oneStep_same h A L env
    unfold iterate
    rcases e : oneStep A L env s with ⟨t, r⟩
    rcases e' : oneStep A L env s' with ⟨t', r'⟩
    rw [e, e'] at ho
    obtain ⟨h1, h2, h3⟩ := ho
    dsimp only at h1 h2 h3
    subst h1
    cases r' with
    | ub => exact ⟨rfl, h2, by simp⟩
    | threw => exact (modStats_same h2 _).mono fun _ _ _ h => h
    | ok u =>
      dsimp only
      have ea : afterStep A t'.opt.settings t'.opt.initialStats s'.opt.stats t'.opt.stats =
          afterStep A t.opt.settings t.opt.initialStats s.opt.stats t.opt.stats := by
        rw [h2.settings, h2.initialStats, h.stats, h2.stats]
      rw [ea]
      have hn : Sim False False
          { t with opt := { t.opt with stats := (afterStep A t.opt.settings t.opt.initialStats s.opt.stats t.opt.stats).1 } }
          { t' with opt := { t'.opt with stats := (afterStep A t.opt.settings t.opt.initialStats s.opt.stats t.opt.stats).1 } } :=
        ⟨⟨h2.heap, h2.graph, h2.settings, h2.hasGraph, h2.complete, h2.hessianValid, h2.cache, h2.cov⟩,
          rfl, h2.initialStats, h2.r1, h2.r2⟩
      split
      · exact ⟨rfl, hn, fun _ _ => hn⟩
      · exact ih hn

/-! ### Calls -/

/-- How a call ends in the two worlds. -/
structure Alike (x y : OptWorld F V Fact × Res Unit) : Prop where
  out : y.2 = x.2
  weak : Weak x.1 y.1

theorem optimize_alike {s s' : OptWorld F V Fact} (h : Weak s s') (A : Arith F) (L : LinAlg F Fact) (env : Env F V) :
    Alike (optimize A L env s) (optimize A L env s') ∧
    (Sim False False s s' ∨ (optimize A L env s).2 = .ok () →
      Sim False False (optimize A L env s).1 (optimize A L env s').1) := by
  unfold optimize
  simp only [SE.bind_get]
  rw [h.hasGraph, h.settings]
  split
  · exact ⟨⟨rfl, h⟩, fun hs => hs.elim id (fun e => by cases e)⟩
  · simp only [modStats, SE.bind_modify]
    rcases e : evalInitial env ({ s with opt := { s.opt with stats := { Stats.default A with valid := true } } } :
      OptWorld F V Fact) with ⟨t, r⟩
    have e' : evalInitial env ({ s' with opt := { s'.opt with stats := { Stats.default A with valid := true } } } :
        OptWorld F V Fact) =
        ({ t with opt := { s'.opt with stats := { Stats.default A with valid := true } } }, r) := by
      unfold evalInitial at e ⊢
      simp only [Prod.mk.injEq] at e
      obtain ⟨rfl, rfl⟩ := e
      rw [h.heap, h.graph]
    have ht : t.opt = { s.opt with stats := { Stats.default A with valid := true } } ∧ t.heap = s.heap ∧
        Covered t.graph := by
      unfold evalInitial at e
      simp only [Prod.mk.injEq] at e
      obtain ⟨rfl, rfl⟩ := e
      exact ⟨rfl, rfl, h.cov.kept (computeResidual_kept _ _ _)⟩
    have hw : Weak t { t with opt := { s'.opt with stats := { Stats.default A with valid := true } } } :=
      ⟨rfl, rfl, by rw [ht.1]; exact h.settings, by rw [ht.1]; exact h.hasGraph, by rw [ht.1]; exact h.complete,
        by rw [ht.1]; exact h.hessianValid, by rw [ht.1]; exact h.cache, ht.2.2⟩
    cases r with
    | threw =>
      rw [SE.bind_threw e, SE.bind_threw e']
      refine ⟨⟨rfl, hw⟩, fun hs => hs.elim (fun hs => ?_) (fun e => by cases e)⟩
      exact ⟨hw, by rw [ht.1], by rw [ht.1]; exact hs.initialStats, False.elim, False.elim⟩
    | ub =>
      rw [SE.bind_ub e, SE.bind_ub e']
      refine ⟨⟨rfl, hw⟩, fun hs => hs.elim (fun hs => ?_) (fun e => by cases e)⟩
      exact ⟨hw, by rw [ht.1], by rw [ht.1]; exact hs.initialStats, False.elim, False.elim⟩
    | ok v =>
      rw [SE.bind_ok e, SE.bind_ok e']
      simp only [SE.bind_modify, modOpt]
      have hs : Sim False False
          ({ t with opt := { t.opt with
              stats := { t.opt.stats with residualNorm := A.norm v, chi2 := A.sqNorm v }
              initialStats := { t.opt.stats with residualNorm := A.norm v, chi2 := A.sqNorm v } } } : OptWorld F V Fact)
          ({ t with opt := { s'.opt with
              stats := { ({ Stats.default A with valid := true } : Stats F) with
                residualNorm := A.norm v, chi2 := A.sqNorm v }
              initialStats := { ({ Stats.default A with valid := true } : Stats F) with
                residualNorm := A.norm v, chi2 := A.sqNorm v } } } : OptWorld F V Fact) :=
        ⟨⟨hw.heap, hw.graph, hw.settings, hw.hasGraph, hw.complete, hw.hessianValid, hw.cache, hw.cov⟩,
          by rw [ht.1], by rw [ht.1], False.elim, False.elim⟩
      have hfin : Same (fun _ => Sim False False) _ _ := Same.bind (iterate_same A L env s.opt.settings.maxIterations hs)
        fun _ t t' h => (?_ : Same (fun _ => Sim False False)
          (SE.bind (SE.modify fun s : OptWorld F V Fact => { s with opt := { s.opt with stats :=
            if s.opt.stats.status = .running then { s.opt.stats with status := .success } else s.opt.stats } })
            (fun _ => SE.modify fun s : OptWorld F V Fact => { s with opt := { s.opt with complete := true } }) t)
          (SE.bind (SE.modify fun s : OptWorld F V Fact => { s with opt := { s.opt with stats :=
            if s.opt.stats.status = .running then { s.opt.stats with status := .success } else s.opt.stats } })
            (fun _ => SE.modify fun s : OptWorld F V Fact => { s with opt := { s.opt with complete := true } }) t'))
      · exact ⟨⟨hfin.out, hfin.sim.toWeak⟩, fun _ => hfin.sim⟩
      · refine Same.bind (modStats_same h fun st => if st.status = .running then { st with status := .success } else st)
          fun _ t t' h => ?_
        have : Sim False False ({ t with opt := { t.opt with complete := true } } : OptWorld F V Fact)
            { t' with opt := { t'.opt with complete := true } } :=
          ⟨⟨h.heap, h.graph, h.settings, h.hasGraph, rfl, h.hessianValid, h.cache, h.cov⟩,
            h.stats, h.initialStats, h.r1, h.r2⟩
        exact ⟨rfl, this, fun _ _ => this⟩

theorem prepare_alike {s s' : OptWorld F V Fact} (h : Weak s s') (A : Arith F) (L : LinAlg F Fact) :
    Alike (prepare A L s) (prepare A L s') ∧
    (Sim False False s s' → Sim False False (prepare A L s).1 (prepare A L s').1) := by
  unfold prepare
  simp only [SE.bind_get]
  rw [h.hessianValid, h.complete, h.graph]
  cases hv : s.opt.hessianValid with
  | true => exact ⟨⟨rfl, h⟩, id⟩
  | false =>
    simp only [Bool.false_eq_true, if_false]
    split
    · exact ⟨⟨rfl, h⟩, id⟩
    · cases s.graph.sparseJacobian with
      | threw => exact ⟨⟨rfl, h⟩, id⟩
      | ub => exact ⟨⟨rfl, h⟩, id⟩
      | ok J =>
        simp only [SE.bind_lift_ok]
        cases L.factorize (L.gram J) with
        | none =>
          have hw : Weak ({ s with opt := { s.opt with hessian := L.gram J, solver := none } } : OptWorld F V Fact)
              { s' with opt := { s'.opt with hessian := L.gram J, solver := none } } :=
            ⟨h.heap, h.graph, h.settings, h.hasGraph, h.complete, h.hessianValid, fun _ => ⟨rfl, rfl⟩, h.cov⟩
          exact ⟨⟨rfl, hw⟩, fun hs => ⟨hw, hs.stats, hs.initialStats, False.elim, False.elim⟩⟩
        | some f =>
          dsimp only
          split
          · have hw : Weak ({ s with opt := { s.opt with hessian := L.gram J, solver := some f } } : OptWorld F V Fact)
                { s' with opt := { s'.opt with hessian := L.gram J, solver := some f } } :=
              ⟨h.heap, h.graph, h.settings, h.hasGraph, h.complete, h.hessianValid, fun _ => ⟨rfl, rfl⟩, h.cov⟩
            exact ⟨⟨rfl, hw⟩, fun hs => ⟨hw, hs.stats, hs.initialStats, False.elim, False.elim⟩⟩
          · have hw : Weak ({ s with opt := { s.opt with
                  hessian := L.gram J, solver := some f, hessianValid := true } } : OptWorld F V Fact)
                { s' with opt := { s'.opt with hessian := L.gram J, solver := some f, hessianValid := true } } :=
              ⟨h.heap, h.graph, h.settings, h.hasGraph, h.complete, rfl, fun _ => ⟨rfl, rfl⟩, h.cov⟩
            exact ⟨⟨rfl, hw⟩, fun hs => ⟨hw, hs.stats, hs.initialStats, False.elim, False.elim⟩⟩

theorem setup_alike {s s' : OptWorld F V Fact} (h : Weak s s') (g : Bool) (st : Settings F) :
    Alike (setup g st s) (setup g st s') ∧
    (Sim False False s s' → Sim False False (setup g st s).1 (setup g st s').1) := by
  have hw : Weak (setup g st s).1 (setup g st s').1 :=
    ⟨h.heap, h.graph, rfl, rfl, rfl, rfl, fun e => (by cases e), h.cov⟩
  exact ⟨⟨rfl, hw⟩, fun hs => ⟨hw, hs.stats, hs.initialStats, False.elim, False.elim⟩⟩

/-- After `setup` nothing of the optimizer matters but what `setup` was given. -/
theorem setup_forgets {s s' : OptWorld F V Fact} (hh : s'.heap = s.heap) (hg : s'.graph = s.graph) (hc : Covered s.graph)
    (g : Bool) (st : Settings F) : Alike (setup g st s) (setup g st s') :=
  ⟨rfl, ⟨hh, hg, rfl, rfl, rfl, rfl, fun e => (by cases e), hc⟩⟩

end Opt

namespace Graph
variable {F V : Type} [Zero F] [VarLike F V] [LawfulVar F V]

/-- Only a failing `finalize_structure` can leave rows without a factor. -/
theorem covered_step {env : Env F V} {op : Op F V} {w w' : World F V} {r : Res Unit} (hc : Covered w.graph)
    (hs : World.step env op w = (w', r)) (hne : (op, r) ≠ (.finalize, .threw)) : Covered w'.graph := by
  cases op with
  | addVariable p =>
    simp only [World.step, World.onGraph, Prod.mk.injEq] at hs
    obtain ⟨rfl, _⟩ := hs
    cases p with
    | none => exact hc
    | some r =>
      unfold addVariable
      dsimp only
      split <;> exact hc
  | addFactor p =>
    simp only [World.step, World.onGraph, Prod.mk.injEq] at hs
    obtain ⟨rfl, _⟩ := hs
    cases p with
    | none => exact hc
    | some r =>
      unfold addFactor
      dsimp only
      split <;> exact hc
  | finalize =>
    by_cases hw : WellPosed w.heap w.graph.varsVec w.graph.facs
    · obtain ⟨g', e, hl, _⟩ := finalize_ok hw
      simp only [World.step, World.onGraph, e, Prod.mk.injEq] at hs
      obtain ⟨rfl, _⟩ := hs
      exact hl.covered
    · obtain ⟨g', e, _⟩ := finalize_threw hw
      simp only [World.step, World.onGraph, e, Prod.mk.injEq, Res.void] at hs
      exact absurd (by rw [← hs.2]) hne
  | setConstant r b => simp only [World.step, World.onHeap, Prod.mk.injEq] at hs; obtain ⟨rfl, _⟩ := hs; exact hc
  | residualInto buf => simp only [World.step, Prod.mk.injEq] at hs; obtain ⟨rfl, _⟩ := hs; exact hc
  | setValue r x =>
    have h := (kept_step (env := env) (w := w) (op := .setValue r x) trivial).1
    rw [hs] at h
    exact hc.kept h
  | incrOne r x =>
    have h := (kept_step (env := env) (w := w) (op := .incrOne r x) trivial).1
    rw [hs] at h
    exact hc.kept h
  | setVector x =>
    have h := (kept_step (env := env) (w := w) (op := .setVector x) trivial).1
    rw [hs] at h
    exact hc.kept h
  | applyIncrement x =>
    have h := (kept_step (env := env) (w := w) (op := .applyIncrement x) trivial).1
    rw [hs] at h
    exact hc.kept h
  | residual =>
    have h := (kept_step (env := env) (w := w) (op := .residual) trivial).1
    rw [hs] at h
    exact hc.kept h
  | dense =>
    have h := (kept_step (env := env) (w := w) (op := .dense) trivial).1
    rw [hs] at h
    exact hc.kept h
  | denseAndResidual =>
    have h := (kept_step (env := env) (w := w) (op := .denseAndResidual) trivial).1
    rw [hs] at h
    exact hc.kept h
  | sparse =>
    have h := (kept_step (env := env) (w := w) (op := .sparse) trivial).1
    rw [hs] at h
    exact hc.kept h
  | copy =>
    have h := (kept_step (env := env) (w := w) (op := .copy) trivial).1
    rw [hs] at h
    exact hc.kept h

theorem covered_init : Covered (Graph.init : Graph F V) := fun h => by cases h

theorem covered_runs {h0 : Heap V} {evs : List (Op F V × Res Unit)} {w : World F V}
    (hr : World.Runs (World.init h0) evs w) (hne : (.finalize, .threw) ∉ evs) : Covered w.graph := by
  have key : ∀ {w0 w : World F V} {evs}, World.Runs w0 evs w → Covered w0.graph → (.finalize, .threw) ∉ evs →
      Covered w.graph := by
    intro w0 w evs hr
    induction hr with
    | nil => exact fun hc _ => hc
    | cons env hs _ _ ih =>
      intro hc hne
      exact ih (covered_step hc hs (fun e => hne (by rw [e]; simp))) (fun hm => hne (by simp [hm]))
  exact key hr covered_init hne

end Graph

namespace Opt
open Graph
variable {F V Fact : Type} [Zero F] [VarLike F V] [LawfulVar F V]

theorem step_alike {s s' : OptWorld F V Fact} (h : Weak s s') (A : Arith F) (L : LinAlg F Fact) (env : Env F V)
    (c : Call F V) (hne : (c, (step A L env c s).2) ≠ (.user .finalize, .threw)) :
    Alike (step A L env c s) (step A L env c s') ∧
    (Sim False False s s' ∨ (c = .optimize ∧ (step A L env c s).2 = .ok ()) →
      Sim False False (step A L env c s).1 (step A L env c s').1) := by
  cases c with
  | user op =>
    have hc := covered_step (env := env) (op := op) (w := ⟨s.heap, s.graph⟩) h.cov rfl
      (fun e => hne (by
        simp only [Prod.mk.injEq] at e
        obtain ⟨rfl, e⟩ := e
        exact Prod.ext rfl e))
    have e' : step A L env (.user op) s' = (⟨(World.step env op ⟨s.heap, s.graph⟩).1.heap,
        (World.step env op ⟨s.heap, s.graph⟩).1.graph, s'.opt⟩, (World.step env op ⟨s.heap, s.graph⟩).2) := by
      show (let p := World.step env op ⟨s'.heap, s'.graph⟩; (_, p.2)) = _
      rw [h.heap, h.graph]
    rw [e']
    have hw : Weak (step A L env (.user op) s).1 ⟨(World.step env op ⟨s.heap, s.graph⟩).1.heap,
        (World.step env op ⟨s.heap, s.graph⟩).1.graph, s'.opt⟩ :=
      ⟨rfl, rfl, h.settings, h.hasGraph, h.complete, h.hessianValid, h.cache, hc⟩
    exact ⟨⟨rfl, hw⟩, fun hs => hs.elim (fun hs => ⟨hw, hs.stats, hs.initialStats, False.elim, False.elim⟩)
      (fun e => by cases e.1)⟩
  | setup g st => exact ⟨(setup_alike h g st).1, fun hs => hs.elim (setup_alike h g st).2 (fun e => by cases e.1)⟩
  | optimize =>
    exact ⟨(optimize_alike h A L env).1, fun hs => (optimize_alike h A L env).2 (hs.imp id And.right)⟩
  | prepare => exact ⟨(prepare_alike h A L).1, fun hs => hs.elim (prepare_alike h A L).2 (fun e => by cases e.1)⟩

theorem runs_alike {A : Arith F} {L : LinAlg F Fact} {s t : OptWorld F V Fact} {evs : List (Call F V × Res Unit)}
    (hr : Runs A L s evs t) {s' : OptWorld F V Fact} (h : Weak s s') (hne : (.user .finalize, .threw) ∉ evs) :
    ∃ t', Runs A L s' evs t' ∧ Weak t t' ∧
      (Sim False False s s' ∨ (.optimize, .ok ()) ∈ evs → Sim False False t t') := by
  induction hr generalizing s' with
  | nil s => exact ⟨s', .nil s', h, fun hs => hs.elim id (fun e => by cases e)⟩
  | @cons s s1 t c evs r env hs hub _ ih =>
    have hst := step_alike h A L env c (by rw [hs]; intro e; exact hne (by rw [← e]; simp))
    rw [hs] at hst
    rcases e : step A L env c s' with ⟨s1', r'⟩
    rw [e] at hst
    obtain ⟨⟨h1, h2⟩, h3⟩ := hst
    dsimp only at h1 h2 h3
    subst h1
    obtain ⟨t', ht, hw, hsim⟩ := ih h2 (fun hm => hne (by simp [hm]))
    refine ⟨t', .cons env e hub ht, hw, fun hs => hsim ?_⟩
    rcases hs with hs | hs
    · exact .inl (h3 (.inl hs))
    · rcases List.mem_cons.1 hs with e1 | hm
      · simp only [Prod.mk.injEq] at e1
        exact .inl (h3 (.inr ⟨e1.1.symm, e1.2.symm⟩))
      · exact .inr hm

theorem estimateCovariance_alike {s s' : OptWorld F V Fact} (h : Weak s s') (A : Arith F) (L : LinAlg F Fact)
    (v : Option VRef) : estimateCovariance A L s' v = estimateCovariance A L s v := by
  unfold estimateCovariance
  cases v with
  | none => rfl
  | some r =>
    dsimp only
    rw [h.heap, h.graph, h.complete, h.hessianValid]
    cases hv : s.opt.hessianValid with
    | false => simp
    | true => rw [(h.cache hv).1, (h.cache hv).2]

end Opt
end Factorama
