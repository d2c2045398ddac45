import Verif.Lemmas.Resume

/-! Helper lemmas: a Levenberg-Marquardt iteration looks at the variables and the damping, but not at what happened before. -/

namespace Factorama.Opt
open Spec Graph
variable {F V Fact : Type} [Zero F] [VarLike F V]

/-- The damping with which a step begins. -/
def beginsWith (s : OptWorld F V Fact) : F :=
  if s.opt.stats.iteration = 0 then s.opt.settings.initialLambda else s.opt.stats.damping

/-- Two states in which Levenberg-Marquardt iterations do the same; in the first one, `n` more iterations have been made. `pd` tells
whether a step is in progress. -/
structure AgainD (n : Nat) (pd p1 p2 : Prop) (s s' : OptWorld F V Fact) : Prop where
  heap : s'.heap = s.heap
  graph : ∃ c M, s'.graph = dress c M s.graph
  cov : Covered s.graph
  rv : s.graph.resValid = true
  hasGraph : s'.opt.hasGraph = s.opt.hasGraph
  method : s.opt.settings.method = .levenbergMarquardt
  method' : s'.opt.settings.method = .levenbergMarquardt
  rate : s'.opt.settings.learningRate = s.opt.settings.learningRate
  stepTol : s'.opt.settings.stepTolerance = s.opt.settings.stepTolerance
  resTol : s'.opt.settings.residualTolerance = s.opt.settings.residualTolerance
  up : s'.opt.settings.lambdaUp = s.opt.settings.lambdaUp
  down : s'.opt.settings.lambdaDown = s.opt.settings.lambdaDown
  maxL : s'.opt.settings.maxLambda = s.opt.settings.maxLambda
  status : s.opt.stats.status = .running ∨ s.opt.stats.status = .success
  status' : s'.opt.stats.status = .running ∨ s'.opt.stats.status = .success
  valid : s.opt.stats.valid = true
  valid' : s'.opt.stats.valid = true
  norm : s'.opt.stats.residualNorm = s.opt.stats.residualNorm
  iteration : s.opt.stats.iteration = s'.opt.stats.iteration + n
  damp : pd → s'.opt.stats.damping = s.opt.stats.damping
  entry : ¬ pd → beginsWith s' = beginsWith s
  r1 : p1 → s'.opt.residual1 = s.opt.residual1
  r2 : p2 → s'.opt.residual2 = s.opt.residual2

/-- A step has failed. -/
def BadEnd (t : OptWorld F V Fact) : Prop := t.opt.stats.valid = false ∧
  (t.opt.stats.status = .singularHessian ∨ t.opt.stats.status = .illConditioned ∨ t.opt.stats.status = .failed)

/-- How a Levenberg-Marquardt iteration ends in both runs. -/
def AgainEndD (n : Nat) (t t' : OptWorld F V Fact) : Prop :=
  (AgainD n False False False t t' ∧ t'.opt.stats.deltaNorm = t.opt.stats.deltaNorm ∧ t'.opt.stats.chi2 = t.opt.stats.chi2) ∨
  BadEnd t ∨ BadEnd t'

variable {n : Nat} {pd p1 p2 : Prop} {s s' : OptWorld F V Fact}

omit [Zero F] [VarLike F V] in
theorem againD_weaken (h : AgainD n pd p1 p2 s s') {q1 q2 : Prop} (h1 : q1 → p1) (h2 : q2 → p2) : AgainD n pd q1 q2 s s' :=
  ⟨h.heap, h.graph, h.cov, h.rv, h.hasGraph, h.method, h.method', h.rate, h.stepTol, h.resTol, h.up, h.down, h.maxL, h.status, h.status',
    h.valid, h.valid', h.norm, h.iteration, h.damp, h.entry, fun q => h.r1 (h1 q), fun q => h.r2 (h2 q)⟩

omit [Zero F] [VarLike F V] in
theorem againD_solver (h : AgainD n pd p1 p2 s s') (x : Option Fact) :
    Agrees (fun _ => AgainD n pd p1 p2) (modOpt (fun o => { o with solver := x }) s) (modOpt (fun o => { o with solver := x }) s') :=
  ⟨rfl, fun _ _ => ⟨h.heap, h.graph, h.cov, h.rv, h.hasGraph, h.method, h.method', h.rate, h.stepTol, h.resTol, h.up, h.down, h.maxL,
    h.status, h.status', h.valid, h.valid', h.norm, h.iteration, h.damp, h.entry, h.r1, h.r2⟩⟩

omit [Zero F] [VarLike F V] in
theorem againD_damping (h : AgainD n True p1 p2 s s') (g : F → F) :
    Agrees (fun _ => AgainD n True p1 p2) (modStats (fun st => { st with damping := g st.damping }) s)
      (modStats (fun st => { st with damping := g st.damping }) s') :=
  ⟨rfl, fun _ _ => ⟨h.heap, h.graph, h.cov, h.rv, h.hasGraph, h.method, h.method', h.rate, h.stepTol, h.resTol, h.up, h.down, h.maxL,
    h.status, h.status', h.valid, h.valid', h.norm, h.iteration, fun _ => congrArg g (h.damp trivial), fun k => absurd trivial k,
    h.r1, h.r2⟩⟩

omit [Zero F] [VarLike F V] in
theorem againD_begin (h : AgainD n False p1 p2 s s') :
    Agrees (fun _ => AgainD n True p1 p2)
      (modStats (fun st => if st.iteration = 0 then { st with damping := s.opt.settings.initialLambda } else st) s)
      (modStats (fun st => if st.iteration = 0 then { st with damping := s'.opt.settings.initialLambda } else st) s') := by
  have keep : ∀ (t : Stats F) (l : F), (if t.iteration = 0 then { t with damping := l } else t) =
      { t with damping := if t.iteration = 0 then l else t.damping } := by
    intro t l
    split <;> rfl
  refine ⟨rfl, fun _ _ => ?_⟩
  unfold modStats SE.modify
  dsimp only
  rw [keep, keep]
  exact ⟨h.heap, h.graph, h.cov, h.rv, h.hasGraph, h.method, h.method', h.rate, h.stepTol, h.resTol, h.up, h.down, h.maxL,
    h.status, h.status', h.valid, h.valid', h.norm, h.iteration, fun _ => h.entry id, fun k => absurd trivial k, h.r1, h.r2⟩

theorem againD_eval1 (h : AgainD n pd p1 p2 s s') (env : Env F V) :
    Agrees (fun _ => AgainD n pd True p2) (evalResidual1 env s) (evalResidual1 env s') := by
  obtain ⟨c, M, hg⟩ := h.graph
  obtain ⟨e1, e2⟩ := computeResidualInto_fresh h.cov env s.heap s.opt.residual1 s'.opt.residual1
  have e : computeResidualInto env s'.graph s'.heap s'.opt.residual1 = computeResidualInto env s.graph s.heap s'.opt.residual1 := by
    rw [h.heap, hg]; rfl
  unfold evalResidual1
  rw [e]
  exact ⟨e1.symm, fun u hu => ⟨h.heap, h.graph, h.cov, h.rv, h.hasGraph, h.method, h.method', h.rate, h.stepTol, h.resTol, h.up, h.down,
    h.maxL, h.status, h.status', h.valid, h.valid', h.norm, h.iteration, h.damp, h.entry, fun _ => (e2 hu).symm, h.r2⟩⟩

theorem againD_eval2 (h : AgainD n pd p1 p2 s s') (env : Env F V) :
    Agrees (fun _ => AgainD n pd p1 True) (evalResidual2 env s) (evalResidual2 env s') := by
  obtain ⟨c, M, hg⟩ := h.graph
  obtain ⟨e1, e2⟩ := computeResidualInto_fresh h.cov env s.heap s.opt.residual2 s'.opt.residual2
  have e : computeResidualInto env s'.graph s'.heap s'.opt.residual2 = computeResidualInto env s.graph s.heap s'.opt.residual2 := by
    rw [h.heap, hg]; rfl
  unfold evalResidual2
  rw [e]
  exact ⟨e1.symm, fun u hu => ⟨h.heap, h.graph, h.cov, h.rv, h.hasGraph, h.method, h.method', h.rate, h.stepTol, h.resTol, h.up, h.down,
    h.maxL, h.status, h.status', h.valid, h.valid', h.norm, h.iteration, h.damp, h.entry, h.r1, fun _ => (e2 hu).symm⟩⟩

omit [Zero F] in
theorem againD_step (h : AgainD n pd p1 p2 s s') (dx : List F) :
    Agrees (fun _ => AgainD n pd p1 p2) (stepVariables dx s) (stepVariables dx s') := by
  obtain ⟨c, M, hg⟩ := h.graph
  have e : SE.forEach s'.graph.varsVec (stepVariable s'.graph dx) s'.heap = SE.forEach s.graph.varsVec (stepVariable s.graph dx) s.heap := by
    rw [h.heap, hg]; rfl
  unfold stepVariables onHeap
  dsimp only
  rw [e]
  exact ⟨rfl, fun _ _ => ⟨rfl, ⟨c, M, hg⟩, h.cov, h.rv, h.hasGraph, h.method, h.method', h.rate, h.stepTol,
    h.resTol, h.up, h.down, h.maxL, h.status, h.status', h.valid, h.valid', h.norm, h.iteration, h.damp, h.entry, h.r1, h.r2⟩⟩

omit [Zero F] in
theorem againD_restore (h : AgainD n pd p1 p2 s s') (saved : List (VRef × List F)) :
    Agrees (fun _ => AgainD n pd p1 p2) (restoreValues saved s) (restoreValues saved s') := by
  unfold restoreValues onHeap
  dsimp only
  rw [h.heap]
  exact ⟨rfl, fun _ _ => ⟨rfl, h.graph, h.cov, h.rv, h.hasGraph, h.method, h.method', h.rate, h.stepTol,
    h.resTol, h.up, h.down, h.maxL, h.status, h.status', h.valid, h.valid', h.norm, h.iteration, h.damp, h.entry, h.r1, h.r2⟩⟩

variable [LawfulVar F V]

theorem againD_sparse (h : AgainD n pd p1 p2 s s') : Agrees (fun _ => AgainD n pd p1 p2) (evalSparse s) (evalSparse s') := by
  obtain ⟨c, M, hg⟩ := h.graph
  have e := computeSparse_dress c M s.heap s.graph
  unfold evalSparse
  rw [h.heap, hg, e]
  exact ⟨rfl, fun _ _ => ⟨rfl, ⟨c, M, rfl⟩, h.cov.kept (computeSparse_kept _ _),
    (computeSparse_flags s.heap s.graph).2.1.trans h.rv, h.hasGraph, h.method, h.method', h.rate, h.stepTol,
    h.resTol, h.up, h.down, h.maxL, h.status, h.status', h.valid, h.valid', h.norm, h.iteration, h.damp, h.entry, h.r1, h.r2⟩⟩

omit [LawfulVar F V] in
theorem againD_raise (h : AgainD n True p1 p2 s s') (A : Arith F) :
    Agrees (fun _ => AgainD n True p1 p2) (raiseLambda A s) (raiseLambda A s') := by
  unfold raiseLambda
  simp only [SE.bind_get]
  rw [h.up]
  exact againD_damping h (fun d => A.mul d s.opt.settings.lambdaUp)

theorem againD_trials {p2 : Prop} (A : Arith F) (L : LinAlg F Fact) (env : Env F V) (J : SpMat F) (cost : F) (k : Nat)
    (dx : List F) {s s' : OptWorld F V Fact} (h : AgainD n True True p2 s s') :
    Agrees (fun res => AgainD n True True (res.1 = true)) (lmTrials A L env J cost k dx s) (lmTrials A L env J cost k dx s') := by
  induction k generalizing p2 dx s s' with
  | zero =>
    refine ⟨rfl, fun a ha => ?_⟩
    obtain rfl : (false, dx) = a := Res.ok.inj ha
    exact againD_weaken h id (by simp)
  | succ k ih =>
    unfold lmTrials
    simp only [SE.bind_get]
    rw [h.r1 trivial, h.rate, h.up, h.down, h.maxL, h.damp trivial]
    have hsave : saveValues s' = saveValues s := by
      obtain ⟨c, M, hg⟩ := h.graph
      unfold saveValues; rw [hg, h.heap]; rfl
    rw [hsave]
    cases L.factorize _ with
    | none =>
      exact Agrees.bind (againD_solver h none) fun _ t t' h => Agrees.bind (againD_raise h A) fun _ t t' h => ih dx h
    | some f =>
      refine Agrees.bind (againD_solver h (some f)) fun _ t t' h => ?_
      split
      · exact ⟨rfl, fun _ h => by cases h⟩
      split
      · exact Agrees.bind (againD_raise h A) fun _ t t' h => ih dx h
      cases L.solve f _ with
      | none => exact Agrees.bind (againD_raise h A) fun _ t t' h => ih _ h
      | some d =>
        refine Agrees.bind (againD_step h _) fun _ t t' h => ?_
        refine Agrees.bind (againD_eval2 h env) fun _ t t' h => ?_
        simp only [SE.bind_get]
        rw [h.r2 trivial]
        split
        · refine Agrees.bind (againD_damping h fun d => A.stdMax (A.mul d s.opt.settings.lambdaDown) (A.lit (1 / 10 ^ 12)))
            fun _ t t' h => ⟨rfl, fun a ha => ?_⟩
          exact againD_weaken h id fun _ => trivial
        · refine Agrees.bind (againD_restore h _) fun _ t t' h => ?_
          refine Agrees.bind (againD_damping h fun d => A.stdMin (A.mul d s.opt.settings.lambdaUp) s.opt.settings.maxLambda)
            fun _ t t' h => ?_
          simp only [SE.bind_get]
          rw [h.damp trivial]
          split
          · refine ⟨rfl, fun a ha => ?_⟩
            obtain rfl := Res.ok.inj ha
            exact againD_weaken h id (by simp)
          · exact ih _ h

omit [Zero F] [VarLike F V] [LawfulVar F V] in
theorem againD_record (h : AgainD n True True True s s') (A : Arith F) (dx r : List F) :
    Agrees (fun _ => AgainEndD n) (recordStats A dx r s) (recordStats A dx r s') := by
  refine ⟨rfl, fun _ _ => .inl ⟨⟨h.heap, h.graph, h.cov, h.rv, h.hasGraph, h.method, h.method', h.rate, h.stepTol, h.resTol, h.up, h.down,
    h.maxL, h.status, h.status', h.valid, h.valid', rfl, ?_, False.elim, fun _ => ?_, False.elim, False.elim⟩, rfl, rfl⟩⟩
  · show s.opt.stats.iteration + 1 = s'.opt.stats.iteration + 1 + n
    rw [h.iteration]; omega
  · unfold beginsWith
    rw [if_neg (by show ¬ s'.opt.stats.iteration + 1 = 0; omega), if_neg (by show ¬ s.opt.stats.iteration + 1 = 0; omega)]
    exact h.damp trivial

omit [Zero F] [VarLike F V] [LawfulVar F V] in
theorem againD_rejected (h : AgainD n True True p2 s s') (A : Arith F) (cost : F) :
    Agrees (fun _ t t' => AgainD n True True False t t' ∨ BadEnd t ∨ BadEnd t') (lmRejected A cost s) (lmRejected A cost s') := by
  unfold lmRejected
  simp only [SE.bind_get]
  have bad : ∀ (t : OptWorld F V Fact) , BadEnd (modStats (fun st => { st with
      valid := false
      status := if A.le t.opt.settings.maxLambda st.damping then .illConditioned else .failed }) t).1 := by
    intro t
    refine ⟨rfl, ?_⟩
    show (if A.le t.opt.settings.maxLambda t.opt.stats.damping then Status.illConditioned else .failed) = _ ∨
      (if A.le t.opt.settings.maxLambda t.opt.stats.damping then Status.illConditioned else .failed) = _ ∨
      (if A.le t.opt.settings.maxLambda t.opt.stats.damping then Status.illConditioned else .failed) = _
    split <;> simp
  by_cases h1 : A.lt cost (A.mul s.opt.initialStats.chi2 (A.lit (1 / 2))) = true
  · by_cases h2 : A.lt cost (A.mul s'.opt.initialStats.chi2 (A.lit (1 / 2))) = true
    · rw [if_pos h1, if_pos h2]
      exact ⟨rfl, fun _ _ => .inl ⟨h.heap, h.graph, h.cov, h.rv, h.hasGraph, h.method, h.method', h.rate, h.stepTol, h.resTol, h.up, h.down,
        h.maxL, .inr rfl, .inr rfl, rfl, rfl, h.norm, h.iteration, h.damp, h.entry, h.r1, False.elim⟩⟩
    · rw [if_pos h1, if_neg h2]
      exact ⟨rfl, fun _ _ => .inr (.inr (bad s'))⟩
  · rw [if_neg h1]
    refine ⟨?_, fun _ _ => .inr (.inl (bad s))⟩
    split <;> rfl

theorem again_levenbergMarquardt (h : AgainD n False p1 p2 s s') (A : Arith F) (L : LinAlg F Fact) (env : Env F V) :
    Agrees (fun _ => AgainEndD n) (levenbergMarquardtStep A L env s) (levenbergMarquardtStep A L env s') := by
  unfold levenbergMarquardtStep
  simp only [SE.bind_get]
  rw [h.hasGraph]
  split
  · exact ⟨rfl, fun _ h => by cases h⟩
  refine Agrees.bind (againD_eval1 h env) fun _ t t' h => ?_
  refine Agrees.bind (againD_sparse h) fun J t t' h => ?_
  simp only [SE.bind_get]
  rw [h.r1 trivial]
  refine Agrees.bind (againD_begin h) fun _ t t' h => ?_
  refine Agrees.bind (againD_trials A L env J _ 5 [] h) fun res t t' h => ?_
  split
  · rename_i hres
    simp only [SE.bind_get]
    rw [h.r2 hres]
    exact againD_record (againD_weaken h id fun _ => hres) A _ _
  · refine Agrees.bind (againD_rejected h A _) fun _ t t' h => ?_
    rcases h with h | h | h
    · have hcopy : Agrees (fun _ => AgainD n True True True) (modOpt (fun o : Optimizer F Fact => { o with residual2 := o.residual1 }) t)
          (modOpt (fun o : Optimizer F Fact => { o with residual2 := o.residual1 }) t') :=
        ⟨rfl, fun _ _ => ⟨h.heap, h.graph, h.cov, h.rv, h.hasGraph, h.method, h.method', h.rate, h.stepTol, h.resTol, h.up, h.down,
          h.maxL, h.status, h.status', h.valid, h.valid', h.norm, h.iteration, h.damp, h.entry, h.r1, fun _ => h.r1 trivial⟩⟩
      refine Agrees.bind hcopy fun _ t t' h => ?_
      simp only [SE.bind_get]
      rw [h.r2 trivial]
      exact againD_record h A _ _
    · exact ⟨rfl, fun _ _ => .inr (.inl h)⟩
    · exact ⟨rfl, fun _ _ => .inr (.inr h)⟩

theorem againD_oneStep (h : AgainD n False p1 p2 s s') (A : Arith F) (L : LinAlg F Fact) (env : Env F V) :
    Agrees (fun _ => AgainEndD n) (oneStep A L env s) (oneStep A L env s') := by
  unfold oneStep
  simp only [SE.bind_get]
  rw [h.method, h.method']
  exact again_levenbergMarquardt h A L env

/-- The invariant of the loop. -/
theorem iterations_againD {A : Arith F} {L : LinAlg F Fact} {env : Env F V} {k : Nat} {s1 s : OptWorld F V Fact}
    (hit : Iterations A L env k s1 s) (h : AgainD 0 False False False s1 s1) : AgainD 0 False False False s s := by
  induction hit with
  | zero => exact h
  | @succ k s1 s s' _ ho ha ih =>
    have hs := againD_oneStep (ih h) A L env
    rw [ho] at hs
    rcases hs.post () rfl with h | ⟨_, h⟩ | ⟨_, h⟩
    · exact h.1
    · rw [(afterStep_keeps ..).2.2 h] at ha
      cases ha
    · rw [(afterStep_keeps ..).2.2 h] at ha
      cases ha

theorem againD_iterate (A : Arith F) (L : LinAlg F Fact) (env : Env F V) (m : Nat) {s s' o o' : OptWorld F V Fact}
    (h : AgainD n False False False s s') (ho : iterate A L env m s = (o, .ok ())) (ho' : iterate A L env m s' = (o', .ok ()))
    (hv : o.opt.stats.valid = true) (hv' : o'.opt.stats.valid = true) : AgainDone n m o o' := by
  induction m generalizing s s' with
  | zero =>
    obtain rfl := (Prod.mk.inj ho).1
    obtain rfl := (Prod.mk.inj ho').1
    exact ⟨h.heap, h.graph, h.norm, h.iteration, fun h => absurd h (by omega)⟩
  | succ m ih =>
    have hs := againD_oneStep h A L env
    rcases e : oneStep A L env s with ⟨t, r⟩
    rcases e' : oneStep A L env s' with ⟨t', r'⟩
    rw [e, e'] at hs
    obtain rfl : r' = r := hs.out
    simp only [iterate, e] at ho
    simp only [iterate, e'] at ho'
    cases r' with
    | threw =>
      obtain rfl := (Prod.mk.inj ho).1
      cases hv
    | ub => cases (Prod.mk.inj ho).2
    | ok u =>
      cases u
      dsimp only at ho ho'
      obtain ⟨⟨st, v, k1, k2⟩, k3, k4⟩ := afterStep_keeps A t.opt.settings t.opt.initialStats s.opt.stats t.opt.stats
      obtain ⟨⟨st', v', k1', k2'⟩, k3', k4'⟩ := afterStep_keeps A t'.opt.settings t'.opt.initialStats s'.opt.stats t'.opt.stats
      rcases hs.post () rfl with ⟨ha, hd, hc⟩ | ⟨hb, hst⟩ | ⟨hb, hst⟩
      · have hcase := again_afterStep A (σ := t.opt.settings) (σ' := t'.opt.settings) (i := t.opt.initialStats)
          (i' := t'.opt.initialStats) (p := s.opt.stats) (p' := s'.opt.stats) (t := t.opt.stats) (t' := t'.opt.stats)
          ha.stepTol ha.resTol h.norm ha.norm hd ha.status ha.status'
        have hT : (afterStep A t.opt.settings t.opt.initialStats s.opt.stats t.opt.stats).2 = true →
            o = { t with opt := { t.opt with stats := (afterStep A t.opt.settings t.opt.initialStats s.opt.stats t.opt.stats).1 } } :=
          fun hq => by rw [if_pos hq] at ho; exact (Prod.mk.inj ho).1.symm
        have hF : (afterStep A t.opt.settings t.opt.initialStats s.opt.stats t.opt.stats).2 = false →
            iterate A L env m t = (o, .ok ()) :=
          fun hq => by rw [if_neg (by rw [hq]; simp), k3 hq] at ho; exact ho
        have hT' : (afterStep A t'.opt.settings t'.opt.initialStats s'.opt.stats t'.opt.stats).2 = true →
            o' = { t' with opt := { t'.opt with stats := (afterStep A t'.opt.settings t'.opt.initialStats s'.opt.stats t'.opt.stats).1 } } :=
          fun hq => by rw [if_pos hq] at ho'; exact (Prod.mk.inj ho').1.symm
        have hF' : (afterStep A t'.opt.settings t'.opt.initialStats s'.opt.stats t'.opt.stats).2 = false →
            iterate A L env m t' = (o', .ok ()) :=
          fun hq => by rw [if_neg (by rw [hq]; simp), k3' hq] at ho'; exact ho'
        rcases hcase with hq | ⟨h1, h2⟩ | ⟨h1, h2⟩
        · cases hb : (afterStep A t.opt.settings t.opt.initialStats s.opt.stats t.opt.stats).2 with
          | true =>
            rw [hT hb, hT' (hq.trans hb), k1, k1']
            exact ⟨ha.heap, ha.graph, ha.norm, ha.iteration, fun _ => ⟨hd, hc⟩⟩
          | false =>
            have g := hF hb
            have g' := hF' (hq.trans hb)
            have hdone := ih ha g g'
            refine ⟨hdone.heap, hdone.graph, hdone.norm, hdone.iteration, fun _ => ?_⟩
            rcases Nat.eq_zero_or_pos m with rfl | hm
            · obtain rfl := (Prod.mk.inj g).1
              obtain rfl := (Prod.mk.inj g').1
              exact ⟨hd, hc⟩
            · exact hdone.rest hm
        · rw [hT h1] at hv
          exact absurd (h2.symm.trans hv) (by simp)
        · rw [hT' h1] at hv'
          exact absurd (h2.symm.trans hv') (by simp)
      · rw [k4 hst] at ho
        obtain rfl := (Prod.mk.inj ho).1
        have : t.opt.stats.valid = true := hv
        rw [hb] at this
        cases this
      · rw [k4' hst] at ho'
        obtain rfl := (Prod.mk.inj ho').1
        have : t'.opt.stats.valid = true := hv'
        rw [hb] at this
        cases this

end Factorama.Opt
