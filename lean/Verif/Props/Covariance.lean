import Verif.Lemmas.OptHistory
import Verif.Examples.ToyOpt

/-!
# When covariances are reported, and which ones
-/

namespace Factorama.Props
open Spec Graph Opt
variable {F V Fact : Type} [Zero F] [VarLike F V]

/-- **C29**. After any history of calls, a covariance is reported only if `optimize()` completed and
`prepare_to_estimate_covariances()` ran after it since the last `setup`, the prepared matrix is not empty, and the
variable is given, not constant, of positive size and placed in the graph. (If nothing is reported, the model's result
`none` stands for `valid = false` with an empty matrix.) -/
theorem C29_gate (A : Arith F) (L : LinAlg F Fact) (h0 : Heap V) (evs : List (Call F V × Res Unit))
    (s : OptWorld F V Fact) (hrun : Runs A L (Opt.init A h0) evs s) (v : Option VRef) (P : Mat F)
    (hP : estimateCovariance A L s v = .ok (some P)) :
    OptimizedSinceSetup evs ∧ PreparedSinceSetup evs ∧ s.opt.hessian.rows ≠ 0 ∧
    ∃ r, v = some r ∧ VarLike.isConst (s.heap r) = false ∧ VarLike.size (s.heap r) ≠ 0 ∧
      ∃ p, s.graph.variablePlacement (VarLike.id (s.heap r)) = some p ∧ P.rows = p.dim ∧ P.cols = p.dim := by
  have hf := flagsTrue_runs (flagsTrue_init A h0) hrun
  rw [List.nil_append] at hf
  unfold estimateCovariance at hP
  cases v with
  | none => simp at hP
  | some r =>
    dsimp only at hP
    split at hP
    · simp at hP
    rename_i h1
    split at hP
    · simp at hP
    rename_i h2
    split at hP
    · simp at hP
    rename_i h3
    simp only [not_or] at h1 h3
    simp only [Bool.not_eq_true', Bool.not_eq_false] at h2
    have h31 : s.opt.hessianValid = true := by simpa using h3.1
    refine ⟨hf.1.1 h2, hf.2 h31, h3.2.1, r, rfl, by simpa using h1.1, h1.2, ?_⟩
    cases hp : s.graph.variablePlacement (VarLike.id (s.heap r)) with
    | none => rw [hp] at hP; simp at hP
    | some p =>
      refine ⟨p, rfl, ?_⟩
      rw [hp] at hP
      dsimp only at hP
      split at hP
      · simp at hP
      cases hs : s.opt.solver with
      | none => rw [hs] at hP; simp at hP
      | some f =>
        rw [hs] at hP
        dsimp only at hP
        split at hP
        · simp at hP
        split at hP
        · simp at hP
        split at hP
        · simp at hP
        split at hP
        · simp at hP
        split at hP
        · simp at hP
        · simp only [Res.ok.injEq, Option.some.injEq] at hP
          subst hP
          exact ⟨rfl, rfl⟩

/-- The calls of the example: build, finalize, set up, optimize, prepare. -/
def C29.calls : List (Call Rat (GenVar Rat)) :=
  ToyOpt.build.map .user ++ [.user .finalize, .setup true ToyOpt.lm, .optimize, .prepare]

/-- The state after the calls. -/
def C29.state : OptWorld Rat (GenVar Rat) (Ldlt.Fact Rat) :=
  ToyOpt.execCalls C29.calls (Opt.init ToyOpt.rat ToyOpt.heap)

/-- The entries reported, `none` if invalid. -/
def C29.report (s : OptWorld Rat (GenVar Rat) (Ldlt.Fact Rat)) (v : Option VRef) : Res (Option (List Rat)) :=
  match estimateCovariance ToyOpt.rat Ldlt.linAlg s v with
  | .ok P => .ok (P.map allEntries)
  | .threw => .threw
  | .ub => .ub

/-- A covariance is reported for the first variable (`(1/4)` on the diagonal), none for the constant one. -/
example : Runs ToyOpt.rat Ldlt.linAlg (Opt.init ToyOpt.rat ToyOpt.heap)
    (C29.calls.zip (ToyOpt.callOutcomes C29.calls (Opt.init ToyOpt.rat ToyOpt.heap))) C29.state :=
  ToyOpt.execCalls_runs C29.calls (Opt.init ToyOpt.rat ToyOpt.heap) (by decide +kernel)
example : C29.report C29.state (some 0) = .ok (some [1 / 4, 0, 0, 1 / 4]) := by decide +kernel
example : C29.report C29.state (some 2) = .ok none := by decide +kernel

/-- **C29**, the other direction of the flags: after a completed `optimize()` since the last `setup`, and only then, the
optimizer counts as complete; otherwise nothing is reported for any variable. -/
theorem C29_not_reported (A : Arith F) (L : LinAlg F Fact) (h0 : Heap V) (evs : List (Call F V × Res Unit))
    (s : OptWorld F V Fact) (hrun : Runs A L (Opt.init A h0) evs s)
    (h : ¬ OptimizedSinceSetup evs ∨ ¬ PreparedSinceSetup evs) (v : Option VRef) :
    estimateCovariance A L s v = .ok none := by
  have hf := flagsTrue_runs (flagsTrue_init A h0) hrun
  rw [List.nil_append] at hf
  unfold estimateCovariance
  cases v with
  | none => rfl
  | some r =>
    dsimp only
    split
    · rfl
    split
    · rfl
    rename_i h2
    rw [if_pos]
    simp only [Bool.not_eq_true', Bool.not_eq_false] at h2
    rcases h with h | h
    · exact absurd (hf.1.1 h2) h
    · refine .inl ?_
      cases hv : s.opt.hessianValid with
      | true => exact absurd (hf.2 hv) h
      | false => rfl

/-- The calls without `prepare`. -/
def C29.unprepared : List (Call Rat (GenVar Rat)) :=
  ToyOpt.build.map .user ++ [.user .finalize, .setup true ToyOpt.lm, .optimize]

/-- Without `prepare`, nothing is reported. -/
example : estimateCovariance ToyOpt.rat Ldlt.linAlg
    (ToyOpt.execCalls C29.unprepared (Opt.init ToyOpt.rat ToyOpt.heap)) (some 0) = .ok none := by
  refine C29_not_reported _ _ ToyOpt.heap _ _
    (ToyOpt.execCalls_runs C29.unprepared (Opt.init ToyOpt.rat ToyOpt.heap) (by decide +kernel)) (.inr ?_) _
  rintro ⟨pre, post, e, _⟩
  have h1 : (Call.prepare, Res.ok ()) ∈
      C29.unprepared.zip (ToyOpt.callOutcomes C29.unprepared (Opt.init ToyOpt.rat ToyOpt.heap)) := by rw [e]; simp
  have := (List.of_mem_zip h1).1
  simp [C29.unprepared] at this

/-- A state with the cached matrix marked as not prepared, so that `prepare` really prepares. -/
def C31.fresh (s : OptWorld Rat (GenVar Rat) (Ldlt.Fact Rat)) : OptWorld Rat (GenVar Rat) (Ldlt.Fact Rat) :=
  { s with opt := { s.opt with hessianValid := false } }

/-- **C31** is false of the code. After a second `optimize()` the flag of the cached matrix is still set, so
`prepare_to_estimate_covariances()` does nothing, and `estimate_covariance` uses the factorisation left behind by the last
trial of the optimizer, which is that of the damped matrix. The property demands the covariance that a preparation
from scratch would give. -/
theorem C31_false : ¬ ∀ s : OptWorld Rat (GenVar Rat) (Ldlt.Fact Rat),
    (optimize ToyOpt.rat Ldlt.linAlg ToyOpt.env s).2 = .ok () →
    (optimize ToyOpt.rat Ldlt.linAlg ToyOpt.env s).1.opt.stats.status = .success →
    ∀ v, C29.report (prepare ToyOpt.rat Ldlt.linAlg (optimize ToyOpt.rat Ldlt.linAlg ToyOpt.env s).1).1 v =
      C29.report (prepare ToyOpt.rat Ldlt.linAlg
        (C31.fresh (optimize ToyOpt.rat Ldlt.linAlg ToyOpt.env s).1)).1 v := by
  intro h
  have hs : (optimize ToyOpt.rat Ldlt.linAlg ToyOpt.env
      (ToyOpt.execCalls [.user (.setValue 0 [9, 9])] C29.state)).1.opt.stats.status = .success := by decide +kernel
  have h1 := h (ToyOpt.execCalls [.user (.setValue 0 [9, 9])] C29.state) (by decide +kernel) hs (some 0)
  revert h1
  decide +kernel

/-- **C31**, in general: once a matrix has been prepared, further calls of `prepare_to_estimate_covariances()` change nothing
until the next `setup`, whatever was optimized in between. -/
theorem C31_prepare_does_nothing (A : Arith F) (L : LinAlg F Fact) (env : Env F V) (s : OptWorld F V Fact)
    (hv : s.opt.hessianValid = true) (hne : (optimize A L env s).2 ≠ .ub) :
    prepare A L (optimize A L env s).1 = ((optimize A L env s).1, .ok ()) ∧
    (optimize A L env s).1.opt.hessian = s.opt.hessian := by
  obtain ⟨h1, _, _, h4, _⟩ := optimize_flags A L env s hne
  rw [hv] at h1
  rcases prepare_cases A L (optimize A L env s).1 with ⟨_, h⟩ | ⟨h, _⟩ | ⟨h, _⟩
  · exact ⟨h, h4⟩
  · rw [h1] at h; simp at h
  · rw [h1] at h; simp at h

example : C29.state.opt.hessianValid = true := by decide +kernel

/-- **C31** (the part that holds). The first `prepare_to_estimate_covariances()` after `setup` and `optimize()` prepares the
normal matrix of the sparse Jacobian of the last linearisation. -/
theorem C31_partial (A : Arith F) (L : LinAlg F Fact) (s s' : OptWorld F V Fact) (hv : s.opt.hessianValid = false)
    (hp : prepare A L s = (s', .ok ())) (hv' : s'.opt.hessianValid = true) :
    s.opt.complete = true ∧ ∃ J f, s.graph.sparseJacobian = .ok J ∧ s'.opt.hessian = L.gram J ∧
      L.factorize (L.gram J) = some f ∧ s'.opt.solver = some f ∧ s'.heap = s.heap ∧ s'.graph = s.graph := by
  rcases prepare_cases A L s with ⟨h, _⟩ | ⟨_, _, h⟩ | ⟨_, hc, h⟩
  · rw [hv] at h; simp at h
  · rw [h] at hp; cases hp; rw [hv] at hv'; simp at hv'
  · refine ⟨hc, ?_⟩
    rcases h with ⟨r, hr, h⟩ | ⟨J, hJ, ⟨_, h⟩ | ⟨f, hf, h | h⟩⟩ <;> rw [h] at hp <;> cases hp
    · exact absurd rfl hr
    · rw [hv] at hv'; simp at hv'
    · exact ⟨J, f, hJ, rfl, hf, rfl, rfl, rfl⟩

example : (ToyOpt.execCalls (ToyOpt.build.map .user ++ [.user .finalize, .setup true ToyOpt.lm, .optimize])
      (Opt.init ToyOpt.rat ToyOpt.heap)).opt.hessianValid = false ∧
    (prepare ToyOpt.rat Ldlt.linAlg (ToyOpt.execCalls (ToyOpt.build.map .user ++ [.user .finalize, .setup true ToyOpt.lm,
      .optimize]) (Opt.init ToyOpt.rat ToyOpt.heap))).1.opt.hessianValid = true := by
  constructor <;> decide +kernel

end Factorama.Props
