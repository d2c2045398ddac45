import Verif.Lemmas.OptFresh
import Verif.Lemmas.Determined

/-! Helper lemmas: a Gauss-Newton iteration looks at the variables, but not at what happened before. -/

namespace Factorama.Opt
open Spec Graph
variable {F V Fact : Type} [Zero F] [VarLike F V]

/-- Two states in which Gauss-Newton iterations do the same; in the first one, `n` more iterations have been made. -/
structure Again (n : Nat) (p1 p2 : Prop) (s s' : OptWorld F V Fact) : Prop where
  heap : s'.heap = s.heap
  graph : ∃ c M, s'.graph = dress c M s.graph
  cov : Covered s.graph
  rv : s.graph.resValid = true
  hasGraph : s'.opt.hasGraph = s.opt.hasGraph
  method : s.opt.settings.method = .gaussNewton
  method' : s'.opt.settings.method = .gaussNewton
  rate : s'.opt.settings.learningRate = s.opt.settings.learningRate
  stepTol : s'.opt.settings.stepTolerance = s.opt.settings.stepTolerance
  resTol : s'.opt.settings.residualTolerance = s.opt.settings.residualTolerance
  status : s.opt.stats.status = .running ∨ s.opt.stats.status = .success
  status' : s'.opt.stats.status = .running ∨ s'.opt.stats.status = .success
  valid : s.opt.stats.valid = true
  valid' : s'.opt.stats.valid = true
  norm : s'.opt.stats.residualNorm = s.opt.stats.residualNorm
  iteration : s.opt.stats.iteration = s'.opt.stats.iteration + n
  r1 : p1 → s'.opt.residual1 = s.opt.residual1
  r2 : p2 → s'.opt.residual2 = s.opt.residual2

/-- Two computations have the same outcome, and if they return, the states are related. -/
structure Agrees {α : Type} (Q : α → OptWorld F V Fact → OptWorld F V Fact → Prop) (x y : OptWorld F V Fact × Res α) : Prop where
  out : y.2 = x.2
  post : ∀ a, x.2 = .ok a → Q a x.1 y.1

omit [Zero F] [VarLike F V] in
theorem Agrees.bind {α β : Type} {Q : α → OptWorld F V Fact → OptWorld F V Fact → Prop}
    {R : β → OptWorld F V Fact → OptWorld F V Fact → Prop} {m m' : SE (OptWorld F V Fact) α}
    {k k' : α → SE (OptWorld F V Fact) β} {s s' : OptWorld F V Fact} (hm : Agrees Q (m s) (m' s'))
    (hk : ∀ a t t', Q a t t' → Agrees R (k a t) (k' a t')) : Agrees R (SE.bind m k s) (SE.bind m' k' s') := by
  obtain ⟨h1, h3⟩ := hm
  rcases e : m s with ⟨t, r⟩
  rcases e' : m' s' with ⟨t', r'⟩
  rw [e] at h1 h3
  rw [e'] at h1 h3
  dsimp only at h1
  subst h1
  unfold SE.bind
  rw [e, e']
  cases r' with
  | ok a => exact hk a t t' (h3 a rfl)
  | threw => exact ⟨rfl, fun _ h => by cases h⟩
  | ub => exact ⟨rfl, fun _ h => by cases h⟩

/-- How a Gauss-Newton iteration ends in both runs. -/
def AgainEnd (n : Nat) (t t' : OptWorld F V Fact) : Prop :=
  (Again n False False t t' ∧ t'.opt.stats.deltaNorm = t.opt.stats.deltaNorm ∧ t'.opt.stats.chi2 = t.opt.stats.chi2) ∨
  (t.opt.stats.valid = false ∧ t'.opt.stats.valid = false ∧ t'.opt.stats.status = t.opt.stats.status ∧
    (t.opt.stats.status = .singularHessian ∨ t.opt.stats.status = .illConditioned ∨ t.opt.stats.status = .failed))

theorem covered_of_layout {h : Heap V} {g : Graph F V} (hl : Layout h g) : Covered g := by
  intro _ a ha
  rw [hl.nr] at ha
  obtain ⟨k, f, i, hf, hi, rfl⟩ := row_decomp g.facs a ha
  refine ⟨(k, (⟨f, rowStart g.facs k, f.residualSize, (colsOf h (plOf h g.varsVec) f.variables).map (·.1),
    (colsOf h (plOf h g.varsVec) f.variables).map (·.2)⟩ : FacPlacement F V)), ?_, ?_, ?_⟩
  · rw [hl.fpl, List.mem_iff_getElem?]
    exact ⟨k, by simp [getElem?_placedList, hf]⟩
  · simp
  · simpa using hi

variable {n : Nat} {p1 p2 : Prop} {s s' : OptWorld F V Fact}

omit [Zero F] [VarLike F V] in
theorem again_solver (h : Again n p1 p2 s s') (x : Option Fact) :
    Agrees (fun _ => Again n p1 p2) (modOpt (fun o => { o with solver := x }) s) (modOpt (fun o => { o with solver := x }) s') :=
  ⟨rfl, fun _ _ => ⟨h.heap, h.graph, h.cov, h.rv, h.hasGraph, h.method, h.method', h.rate, h.stepTol, h.resTol, h.status, h.status', h.valid, h.valid',
    h.norm, h.iteration, h.r1, h.r2⟩⟩

omit [Zero F] [VarLike F V] in
theorem again_giveUp (_h : Again n p1 p2 s s') {st : Status} (hst : st = .singularHessian ∨ st = .illConditioned ∨ st = .failed) :
    Agrees (fun _ => AgainEnd n) (giveUp st s) (giveUp st s') :=
  ⟨rfl, fun _ _ => .inr ⟨rfl, rfl, rfl, hst⟩⟩

theorem again_eval1 (h : Again n p1 p2 s s') (env : Env F V) :
    Agrees (fun _ => Again n True p2) (evalResidual1 env s) (evalResidual1 env s') := by
  obtain ⟨c, M, hg⟩ := h.graph
  obtain ⟨e1, e2⟩ := computeResidualInto_fresh h.cov env s.heap s.opt.residual1 s'.opt.residual1
  have e : computeResidualInto env s'.graph s'.heap s'.opt.residual1 = computeResidualInto env s.graph s.heap s'.opt.residual1 := by
    rw [h.heap, hg]; rfl
  unfold evalResidual1
  rw [e]
  exact ⟨e1.symm, fun u hu => ⟨h.heap, h.graph, h.cov, h.rv, h.hasGraph, h.method, h.method', h.rate, h.stepTol, h.resTol, h.status, h.status', h.valid,
    h.valid', h.norm, h.iteration, fun _ => (e2 hu).symm, h.r2⟩⟩

theorem again_eval2 (h : Again n p1 p2 s s') (env : Env F V) :
    Agrees (fun _ => Again n p1 True) (evalResidual2 env s) (evalResidual2 env s') := by
  obtain ⟨c, M, hg⟩ := h.graph
  obtain ⟨e1, e2⟩ := computeResidualInto_fresh h.cov env s.heap s.opt.residual2 s'.opt.residual2
  have e : computeResidualInto env s'.graph s'.heap s'.opt.residual2 = computeResidualInto env s.graph s.heap s'.opt.residual2 := by
    rw [h.heap, hg]; rfl
  unfold evalResidual2
  rw [e]
  exact ⟨e1.symm, fun u hu => ⟨h.heap, h.graph, h.cov, h.rv, h.hasGraph, h.method, h.method', h.rate, h.stepTol, h.resTol, h.status, h.status', h.valid,
    h.valid', h.norm, h.iteration, h.r1, fun _ => (e2 hu).symm⟩⟩

omit [Zero F] in
theorem again_step (h : Again n p1 p2 s s') (dx : List F) :
    Agrees (fun _ => Again n p1 p2) (stepVariables dx s) (stepVariables dx s') := by
  obtain ⟨c, M, hg⟩ := h.graph
  have e : SE.forEach s'.graph.varsVec (stepVariable s'.graph dx) s'.heap = SE.forEach s.graph.varsVec (stepVariable s.graph dx) s.heap := by
    rw [h.heap, hg]; rfl
  unfold stepVariables onHeap
  dsimp only
  rw [e]
  exact ⟨rfl, fun _ _ => ⟨rfl, ⟨c, M, hg⟩, h.cov, h.rv, h.hasGraph, h.method, h.method', h.rate, h.stepTol,
    h.resTol, h.status, h.status', h.valid, h.valid', h.norm, h.iteration, h.r1, h.r2⟩⟩

variable [LawfulVar F V]

theorem again_sparse (h : Again n p1 p2 s s') : Agrees (fun _ => Again n p1 p2) (evalSparse s) (evalSparse s') := by
  obtain ⟨c, M, hg⟩ := h.graph
  have e := computeSparse_dress c M s.heap s.graph
  unfold evalSparse
  rw [h.heap, hg, e]
  exact ⟨rfl, fun _ _ => ⟨rfl, ⟨c, M, rfl⟩, h.cov.kept (computeSparse_kept _ _),
    (computeSparse_flags s.heap s.graph).2.1.trans h.rv, h.hasGraph, h.method, h.method', h.rate, h.stepTol,
    h.resTol, h.status, h.status', h.valid, h.valid', h.norm, h.iteration, h.r1, h.r2⟩⟩

theorem again_gaussNewton (h : Again n p1 p2 s s') (A : Arith F) (L : LinAlg F Fact) (env : Env F V) :
    Agrees (fun _ => AgainEnd n) (gaussNewtonStep A L env s) (gaussNewtonStep A L env s') := by
  unfold gaussNewtonStep
  simp only [SE.bind_get]
  rw [h.hasGraph]
  split
  · exact ⟨rfl, fun _ h => by cases h⟩
  refine Agrees.bind (again_eval1 h env) fun _ t t' h => ?_
  refine Agrees.bind (again_sparse h) fun J t t' h => ?_
  simp only [SE.bind_get]
  rw [h.r1 trivial, h.rate]
  cases L.factorize (L.gram J) with
  | none => exact Agrees.bind (again_solver h none) fun _ t t' h => again_giveUp h (by simp)
  | some f =>
    refine Agrees.bind (again_solver h (some f)) fun _ t t' h => ?_
    split
    · exact ⟨rfl, fun _ h => by cases h⟩
    split
    · exact again_giveUp h (by simp)
    split
    · exact again_giveUp h (by simp)
    cases L.solve f _ with
    | none => exact again_giveUp h (by simp)
    | some d =>
      refine Agrees.bind (again_step h _) fun _ t t' h => ?_
      refine Agrees.bind (again_eval2 h env) fun _ t t' h => ?_
      simp only [SE.bind_get]
      rw [h.r2 trivial]
      refine ⟨rfl, fun _ _ => .inl ⟨⟨h.heap, h.graph, h.cov, h.rv, h.hasGraph, h.method, h.method', h.rate, h.stepTol, h.resTol, h.status, h.status', h.valid,
        h.valid', rfl, ?_, False.elim, False.elim⟩, rfl, rfl⟩⟩
      show t.opt.stats.iteration + 1 = t'.opt.stats.iteration + 1 + n
      rw [h.iteration]
      omega

theorem again_oneStep (h : Again n p1 p2 s s') (A : Arith F) (L : LinAlg F Fact) (env : Env F V) :
    Agrees (fun _ => AgainEnd n) (oneStep A L env s) (oneStep A L env s') := by
  unfold oneStep
  simp only [SE.bind_get]
  rw [h.method, h.method']
  exact again_gaussNewton h A L env

omit [Zero F] [VarLike F V] [LawfulVar F V] in
/-- The stop rules: both runs stop, or both go on, or one is reported as invalid. -/
theorem again_afterStep (A : Arith F) {σ σ' : Settings F} {i i' p p' t t' : Stats F}
    (h1 : σ'.stepTolerance = σ.stepTolerance) (h2 : σ'.residualTolerance = σ.residualTolerance)
    (h3 : p'.residualNorm = p.residualNorm) (h4 : t'.residualNorm = t.residualNorm) (h5 : t'.deltaNorm = t.deltaNorm)
    (h6 : t.status = .running ∨ t.status = .success) (h6' : t'.status = .running ∨ t'.status = .success) :
    (((afterStep A σ' i' p' t').2 = (afterStep A σ i p t).2) ∨ ((afterStep A σ i p t).2 = true ∧ (afterStep A σ i p t).1.valid = false) ∨
      ((afterStep A σ' i' p' t').2 = true ∧ (afterStep A σ' i' p' t').1.valid = false)) := by
  have k : ¬ (t.status = .singularHessian ∨ t.status = .illConditioned ∨ t.status = .failed) := by rcases h6 with h | h <;> simp [h]
  have k' : ¬ (t'.status = .singularHessian ∨ t'.status = .illConditioned ∨ t'.status = .failed) := by
    rcases h6' with h | h <;> simp [h]
  unfold afterStep
  rw [h1, h2, h3, h4, h5, if_neg k, if_neg k']
  dsimp only
  split
  · exact .inl rfl
  split
  · left; split <;> split <;> rfl
  split
  · exact .inl rfl
  split <;> split <;> simp

omit [Zero F] [VarLike F V] [LawfulVar F V] in
/-- What the checks change. -/
theorem afterStep_keeps (A : Arith F) (σ : Settings F) (i p t : Stats F) :
    (∃ st v, (afterStep A σ i p t).1 = { t with status := st, valid := v } ∧ (v = true → t.valid = true)) ∧
    ((afterStep A σ i p t).2 = false → (afterStep A σ i p t).1 = t) ∧
    ((t.status = .singularHessian ∨ t.status = .illConditioned ∨ t.status = .failed) → afterStep A σ i p t = (t, true)) := by
  refine ⟨?_, ?_, fun h => by unfold afterStep; rw [if_pos h]⟩
  · unfold afterStep
    dsimp only
    repeat' split
    all_goals exact ⟨_, _, rfl, by simp⟩
  · unfold afterStep
    dsimp only
    repeat' split
    all_goals simp

/-- The invariant of the loop. -/
theorem iterations_again {A : Arith F} {L : LinAlg F Fact} {env : Env F V} {k : Nat} {s1 s : OptWorld F V Fact}
    (hit : Iterations A L env k s1 s) (h : Again 0 False False s1 s1) : Again 0 False False s s := by
  induction hit with
  | zero => exact h
  | @succ k s1 s s' _ ho ha ih =>
    have hs := again_oneStep (ih h) A L env
    rw [ho] at hs
    rcases hs.post () rfl with h | ⟨_, _, _, h⟩
    · exact h.1
    · rw [(afterStep_keeps ..).2.2 h] at ha
      cases ha

/-- What two runs have in common at the end. -/
structure AgainDone (n m : Nat) (t t' : OptWorld F V Fact) : Prop where
  heap : t'.heap = t.heap
  graph : ∃ c M, t'.graph = dress c M t.graph
  norm : t'.opt.stats.residualNorm = t.opt.stats.residualNorm
  iteration : t.opt.stats.iteration = t'.opt.stats.iteration + n
  rest : 0 < m → t'.opt.stats.deltaNorm = t.opt.stats.deltaNorm ∧ t'.opt.stats.chi2 = t.opt.stats.chi2

theorem again_iterate (A : Arith F) (L : LinAlg F Fact) (env : Env F V) (m : Nat) {s s' o o' : OptWorld F V Fact}
    (h : Again n False False s s') (ho : iterate A L env m s = (o, .ok ())) (ho' : iterate A L env m s' = (o', .ok ()))
    (hv : o.opt.stats.valid = true) (hv' : o'.opt.stats.valid = true) : AgainDone n m o o' := by
  induction m generalizing s s' with
  | zero =>
    obtain rfl := (Prod.mk.inj ho).1
    obtain rfl := (Prod.mk.inj ho').1
    exact ⟨h.heap, h.graph, h.norm, h.iteration, fun h => absurd h (by omega)⟩
  | succ m ih =>
    have hs := again_oneStep h A L env
    rcases e : oneStep A L env s with ⟨t, r⟩
    rcases e' : oneStep A L env s' with ⟨t', r'⟩
    rw [e, e'] at hs
    obtain rfl : r' = r := hs.out
    simp only [iterate, e] at ho
    simp only [iterate, e'] at ho'
    cases r' with
    | threw =>
      obtain rfl := (Prod.mk.inj ho).1
      cases hv
    | ub => cases (Prod.mk.inj ho).2
    | ok u =>
      cases u
      dsimp only at ho ho'
      obtain ⟨⟨st, v, k1, k2⟩, k3, k4⟩ := afterStep_keeps A t.opt.settings t.opt.initialStats s.opt.stats t.opt.stats
      obtain ⟨⟨st', v', k1', k2'⟩, k3', k4'⟩ := afterStep_keeps A t'.opt.settings t'.opt.initialStats s'.opt.stats t'.opt.stats
      rcases hs.post () rfl with ⟨ha, hd, hc⟩ | ⟨hb, _, _, hst⟩
      · have hcase := again_afterStep A (σ := t.opt.settings) (σ' := t'.opt.settings) (i := t.opt.initialStats)
          (i' := t'.opt.initialStats) (p := s.opt.stats) (p' := s'.opt.stats) (t := t.opt.stats) (t' := t'.opt.stats)
          ha.stepTol ha.resTol h.norm ha.norm hd ha.status ha.status'
        have hT : (afterStep A t.opt.settings t.opt.initialStats s.opt.stats t.opt.stats).2 = true →
            o = { t with opt := { t.opt with stats := (afterStep A t.opt.settings t.opt.initialStats s.opt.stats t.opt.stats).1 } } :=
          fun hq => by rw [if_pos hq] at ho; exact (Prod.mk.inj ho).1.symm
        have hF : (afterStep A t.opt.settings t.opt.initialStats s.opt.stats t.opt.stats).2 = false →
            iterate A L env m t = (o, .ok ()) :=
          fun hq => by rw [if_neg (by rw [hq]; simp), k3 hq] at ho; exact ho
        have hT' : (afterStep A t'.opt.settings t'.opt.initialStats s'.opt.stats t'.opt.stats).2 = true →
            o' = { t' with opt := { t'.opt with stats := (afterStep A t'.opt.settings t'.opt.initialStats s'.opt.stats t'.opt.stats).1 } } :=
          fun hq => by rw [if_pos hq] at ho'; exact (Prod.mk.inj ho').1.symm
        have hF' : (afterStep A t'.opt.settings t'.opt.initialStats s'.opt.stats t'.opt.stats).2 = false →
            iterate A L env m t' = (o', .ok ()) :=
          fun hq => by rw [if_neg (by rw [hq]; simp), k3' hq] at ho'; exact ho'
        rcases hcase with hq | ⟨h1, h2⟩ | ⟨h1, h2⟩
        · cases hb : (afterStep A t.opt.settings t.opt.initialStats s.opt.stats t.opt.stats).2 with
          | true =>
            rw [hT hb, hT' (hq.trans hb), k1, k1']
            exact ⟨ha.heap, ha.graph, ha.norm, ha.iteration, fun _ => ⟨hd, hc⟩⟩
          | false =>
            have g := hF hb
            have g' := hF' (hq.trans hb)
            have hdone := ih ha g g'
            refine ⟨hdone.heap, hdone.graph, hdone.norm, hdone.iteration, fun _ => ?_⟩
            rcases Nat.eq_zero_or_pos m with rfl | hm
            · obtain rfl := (Prod.mk.inj g).1
              obtain rfl := (Prod.mk.inj g').1
              exact ⟨hd, hc⟩
            · exact hdone.rest hm
        · rw [hT h1] at hv
          exact absurd (h2.symm.trans hv) (by simp)
        · rw [hT' h1] at hv'
          exact absurd (h2.symm.trans hv') (by simp)
      · rw [k4 hst] at ho
        obtain rfl := (Prod.mk.inj ho).1
        have : t.opt.stats.valid = true := hv
        rw [hb] at this
        cases this

end Factorama.Opt
