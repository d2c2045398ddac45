import Verif.Spec.PublicStats
import Verif.Lemmas.OptLoop
import Verif.Examples.ToyOpt

/-!
# C143: what a program writes into the public statistics
-/

namespace Factorama.Props
open Spec Graph Opt
variable {F V Fact : Type} [Zero F] [VarLike F V]

theorem C143.unevaluated (A : Arith F) (L : LinAlg F Fact) (env : Env F V) (s : OptWorld F V Fact) (hg : s.opt.hasGraph = true)
    (hr : ∀ r, (computeResidual env s.heap s.graph).2 ≠ .ok r) :
    (Opt.optimize A L env s).1 = { s with opt := { s.opt with stats := { Stats.default A with valid := true } }, graph := (computeResidual env s.heap s.graph).1 } ∧
    (Opt.optimize A L env s).2 = (computeResidual env s.heap s.graph).2.void := by
  unfold Opt.optimize
  simp only [SE.bind_get]
  rw [if_neg (by simp [hg])]
  simp only [modStats, SE.bind_modify]
  cases hq : (computeResidual env s.heap s.graph).2 with
  | ok r => exact absurd hq (hr r)
  | threw =>
    have e : evalInitial env ({ s with opt := { s.opt with stats := { Stats.default A with valid := true } } } : OptWorld F V Fact) =
        (({ s with opt := { s.opt with stats := { Stats.default A with valid := true } }, graph := (computeResidual env s.heap s.graph).1 } : OptWorld F V Fact), .threw) := by
      simp only [evalInitial, hq]
    rw [SE.bind_threw e]
    exact ⟨rfl, rfl⟩
  | ub =>
    have e : evalInitial env ({ s with opt := { s.opt with stats := { Stats.default A with valid := true } } } : OptWorld F V Fact) =
        (({ s with opt := { s.opt with stats := { Stats.default A with valid := true } }, graph := (computeResidual env s.heap s.graph).1 } : OptWorld F V Fact), .ub) := by
      simp only [evalInitial, hq]
    rw [SE.bind_ub e]
    exact ⟨rfl, rfl⟩

theorem C143.ofOptimize (A : Arith F) (L : LinAlg F Fact) (env : Env F V) {s s' : OptWorld F V Fact} (h : SameButStatistics s s') :
    (optimize A L env s').2 = (optimize A L env s).2 ∧ SameButStatistics (optimize A L env s).1 (optimize A L env s').1 ∧
    ((optimize A L env s).2 = .ok () → (optimize A L env s').1 = (optimize A L env s).1) := by
  obtain ⟨x, y, rfl⟩ := h
  cases hg : s.opt.hasGraph with
  | false =>
    rw [optimize_noGraph A L env s hg, optimize_noGraph A L env (restat x y s) hg]
    exact ⟨rfl, ⟨x, y, rfl⟩, fun h => by cases h⟩
  | true =>
    by_cases hr : ∃ r, (computeResidual env s.heap s.graph).2 = .ok r
    · obtain ⟨r, hr⟩ := hr
      rw [optimize_start A L env s hg hr, optimize_start A L env (restat x y s) hg hr]
      exact ⟨rfl, ⟨_, _, rfl⟩, fun _ => rfl⟩
    · have hr' : ∀ r, (computeResidual env s.heap s.graph).2 ≠ .ok r := fun r h => hr ⟨r, h⟩
      obtain ⟨e1, e2⟩ := C143.unevaluated A L env s hg hr'
      obtain ⟨e1', e2'⟩ := C143.unevaluated A L env (restat x y s) hg hr'
      rw [e1, e2, e1', e2']
      refine ⟨rfl, ⟨{ Stats.default A with valid := true }, y, rfl⟩, fun h => ?_⟩
      cases hq : (computeResidual env s.heap s.graph).2 with
      | ok r => exact absurd hq (hr' r)
      | threw => rw [hq] at h; cases h
      | ub => rw [hq] at h; cases h

theorem C143.ofPrepare (A : Arith F) (L : LinAlg F Fact) {s s' : OptWorld F V Fact} (h : SameButStatistics s s') :
    (prepare A L s').2 = (prepare A L s).2 ∧ SameButStatistics (prepare A L s).1 (prepare A L s').1 := by
  obtain ⟨x, y, rfl⟩ := h
  have e : prepare A L (restat x y s) = (restat x y (prepare A L s).1, (prepare A L s).2) := by
    unfold prepare
    simp only [SE.bind_get]
    rw [show (restat x y s).opt.hessianValid = s.opt.hessianValid from rfl, show (restat x y s).opt.complete = s.opt.complete from rfl,
      show (restat x y s).graph = s.graph from rfl]
    split
    · rfl
    split
    · rfl
    cases s.graph.sparseJacobian with
    | threw => rfl
    | ub => rfl
    | ok J =>
      simp only [SE.lift, SE.bind]
      cases L.factorize (L.gram J) with
      | none => rfl
      | some f =>
        dsimp only
        split <;> rfl
  rw [e]
  exact ⟨rfl, x, y, rfl⟩

theorem C143.ofStep (A : Arith F) (L : LinAlg F Fact) (env : Env F V) (c : Call F V) {s s' : OptWorld F V Fact} (h : SameButStatistics s s') :
    (step A L env c s').2 = (step A L env c s).2 ∧ SameButStatistics (step A L env c s).1 (step A L env c s').1 := by
  cases c with
  | user op => obtain ⟨x, y, rfl⟩ := h; exact ⟨rfl, x, y, rfl⟩
  | setup g st => obtain ⟨x, y, rfl⟩ := h; exact ⟨rfl, x, y, rfl⟩
  | optimize => have := C143.ofOptimize A L env h; exact ⟨this.1, this.2.1⟩
  | prepare => exact C143.ofPrepare A L h

/-- **C143**. Take any program, and the program without its writes into the public statistics. They see the same: every call has
the same outcome and every query of a covariance the same answer; and they end in states that differ in the statistics at
most: same variables, same graph, same settings and caches. -/
theorem C143_programs (A : Arith F) (L : LinAlg F Fact) (prog : List (Move F V)) (s : OptWorld F V Fact) :
    (moves A L (withoutWrites prog) s).2 = (moves A L prog s).2 ∧
    SameButStatistics (moves A L (withoutWrites prog) s).1 (moves A L prog s).1 := by
  suffices key : ∀ s s' : OptWorld F V Fact, SameButStatistics s s' → (moves A L (withoutWrites prog) s).2 = (moves A L prog s').2 ∧
      SameButStatistics (moves A L (withoutWrites prog) s).1 (moves A L prog s').1 from key s s ⟨_, _, rfl⟩
  induction prog with
  | nil => exact fun s s' h => ⟨rfl, h⟩
  | cons m ms ih =>
    intro s s' h
    cases m with
    | call env c =>
      obtain ⟨h1, h2⟩ := C143.ofStep A L env c h
      obtain ⟨i1, i2⟩ := ih _ _ h2
      exact ⟨by simp only [withoutWrites, moves, move, h1, i1], i2⟩
    | covariance v =>
      obtain ⟨i1, i2⟩ := ih _ _ h
      refine ⟨?_, i2⟩
      simp only [withoutWrites, moves, move, i1]
      obtain ⟨x, y, rfl⟩ := h
      rfl
    | writeSettings st =>
      obtain ⟨x, y, rfl⟩ := h
      obtain ⟨i1, i2⟩ := ih { s with opt := { s.opt with settings := st } } _ ⟨x, y, rfl⟩
      refine ⟨?_, i2⟩
      simp only [withoutWrites, moves, move, i1]
      rfl
    | writeInitial st =>
      obtain ⟨x, y, rfl⟩ := h
      exact ih s _ ⟨x, st, rfl⟩
    | writeCurrent st =>
      obtain ⟨x, y, rfl⟩ := h
      exact ih s _ ⟨st, y, rfl⟩

omit [Zero F] [VarLike F V] in
theorem C143.withoutWrites_append (p q : List (Move F V)) : withoutWrites (p ++ q) = withoutWrites p ++ withoutWrites q := by
  induction p with
  | nil => rfl
  | cons m ms ih => cases m <;> simp [withoutWrites, ih]

theorem C143.moves_append (A : Arith F) (L : LinAlg F Fact) (p q : List (Move F V)) (s : OptWorld F V Fact) :
    (moves A L (p ++ q) s).1 = (moves A L q (moves A L p s).1).1 := by
  induction p generalizing s with
  | nil => rfl
  | cons m ms ih => exact ih _

/-- **C143**, the statistics of a run. What a run of `optimize()` that returns reports is the same, whatever the program wrote into
the statistics before: the two states are then equal altogether. -/
theorem C143_statistics (A : Arith F) (L : LinAlg F Fact) (prog : List (Move F V)) (env : Env F V) (s : OptWorld F V Fact)
    (hret : (optimize A L env (moves A L prog s).1).2 = .ok ()) :
    (moves A L (withoutWrites (prog ++ [.call env .optimize])) s).1 = (moves A L (prog ++ [.call env .optimize]) s).1 := by
  rw [C143.withoutWrites_append, C143.moves_append, C143.moves_append]
  obtain ⟨_, h⟩ := C143_programs A L prog s
  obtain ⟨h1, _, h3⟩ := C143.ofOptimize A L env h
  exact (h3 (h1.symm.trans hret)).symm

/-- A program that sets up the optimizer, writes nonsense into the statistics, optimizes, and asks for a covariance. -/
def C143.prog : List (Move Rat (GenVar Rat)) :=
  (ToyOpt.build ++ [Op.finalize]).map (fun op => Move.call ToyOpt.env (.user op)) ++
  [.call ToyOpt.env (.setup true ToyOpt.lm), .writeCurrent ⟨false, .failed, -5, 0, -7, 40, 1000, 3⟩,
    .writeInitial ⟨false, .diverged, 0, 0, 0, 9, 0, 0⟩]

theorem C143.ran : (optimize ToyOpt.rat Ldlt.linAlg ToyOpt.env
    (moves ToyOpt.rat Ldlt.linAlg C143.prog (Opt.init ToyOpt.rat ToyOpt.heap)).1).2 = .ok () := by decide +kernel

example : (moves ToyOpt.rat Ldlt.linAlg (withoutWrites (C143.prog ++ [.call ToyOpt.env .optimize])) (Opt.init ToyOpt.rat ToyOpt.heap)).1 =
    (moves ToyOpt.rat Ldlt.linAlg (C143.prog ++ [.call ToyOpt.env .optimize]) (Opt.init ToyOpt.rat ToyOpt.heap)).1 :=
  C143_statistics _ _ _ _ _ C143.ran

/-- The writes were there, and the run made iterations. -/
example : (moves ToyOpt.rat Ldlt.linAlg C143.prog (Opt.init ToyOpt.rat ToyOpt.heap)).1.opt.stats.iteration = 40 ∧
    1 < (moves ToyOpt.rat Ldlt.linAlg (C143.prog ++ [.call ToyOpt.env .optimize]) (Opt.init ToyOpt.rat ToyOpt.heap)).1.opt.stats.iteration ∧
    (withoutWrites C143.prog).length + 2 = C143.prog.length := by decide +kernel

end Factorama.Props
