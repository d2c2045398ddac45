import Verif.Lemmas.LiveSettings
import Verif.Props.Resume

/-!
# C146: settings changed in place
-/

namespace Factorama.Props
open Spec Graph Opt
variable {F V Fact : Type} [Zero F] [VarLike F V]

/-- **C146**. Take any program that has nothing to do with covariances, and the program in which each change of the optimizer's
settings in place is replaced by setting the optimizer up with its graph and these settings. All calls have the same outcomes in
both, and they end with the same values of all variables, the same graph, the same settings and the same statistics: the states
differ at most in whether covariances can be had. -/
theorem C146_programs_partial (A : Arith F) (L : LinAlg F Fact) (e : Env F V) (prog : List (Move F V)) (hprog : NoCovariances prog)
    (s : OptWorld F V Fact) : (moves A L (asSetup e s.opt.hasGraph prog) s).2 = (moves A L prog s).2 ∧
      ∃ m, (moves A L (asSetup e s.opt.hasGraph prog) s).1 = reflag m (moves A L prog s).1 := by
  suffices key : ∀ (s : OptWorld F V Fact) m, (moves A L (asSetup e s.opt.hasGraph prog) (reflag m s)).2 = (moves A L prog s).2 ∧
      ∃ m', (moves A L (asSetup e s.opt.hasGraph prog) (reflag m s)).1 = reflag m' (moves A L prog s).1 from
    key s (s.opt.complete, s.opt.hessianValid)
  induction prog with
  | nil => exact fun s m => ⟨rfl, m, rfl⟩
  | cons q ms ih =>
    intro s m
    have ih := ih (fun q hq => hprog q (List.mem_cons_of_mem _ hq))
    have step : ∀ (q' : Move F V) (s1 : OptWorld F V Fact) (m' : Bool × Bool) (r : List (Seen F)), move A L q s = (s1, r) →
        move A L q' (reflag m s) = (reflag m' s1, r) → asSetup e s.opt.hasGraph (q :: ms) = q' :: asSetup e s1.opt.hasGraph ms →
        (moves A L (asSetup e s.opt.hasGraph (q :: ms)) (reflag m s)).2 = (moves A L (q :: ms) s).2 ∧
        ∃ m', (moves A L (asSetup e s.opt.hasGraph (q :: ms)) (reflag m s)).1 = reflag m' (moves A L (q :: ms) s).1 := by
      intro q' s1 m' r h1 h2 h3
      obtain ⟨i1, i2⟩ := ih s1 m'
      rw [h3]
      simp only [moves, h1, h2]
      exact ⟨by rw [i1], i2⟩
    cases q with
    | covariance v => exact absurd rfl ((hprog _ (List.mem_cons_self ..)).1 v)
    | writeInitial st => exact step _ _ m _ rfl rfl rfl
    | writeCurrent st => exact step _ _ m _ rfl rfl rfl
    | writeSettings st => exact step _ _ (false, false) _ rfl rfl rfl
    | call env c =>
      cases c with
      | prepare => exact absurd rfl ((hprog _ (List.mem_cons_self ..)).2 env)
      | user op => exact step _ _ m _ rfl rfl rfl
      | setup g st => exact step _ _ (false, false) _ rfl rfl rfl
      | optimize =>
        obtain ⟨h1, hg, m', h2⟩ := optimize_reflag A L env s m
        refine step (.call env .optimize) (optimize A L env s).1 m' [.outcome (optimize A L env s).2] rfl ?_ ?_
        · show ((optimize A L env (reflag m s)).1, [Seen.outcome (optimize A L env (reflag m s)).2]) = _
          rw [h1, h2]
        · rw [hg]
          rfl

/-- The program of the example: a first run with one iteration, then the settings are changed in place, and a second run. -/
def C146.prog : List (Move Rat (GenVar Rat)) :=
  [.call ToyOpt.env (.setup true { ToyOpt.gn with maxIterations := 1 }), .call ToyOpt.env .optimize, .writeSettings ToyOpt.lm,
    .call ToyOpt.env .optimize]

def C146.start : OptWorld Rat (GenVar Rat) (Ldlt.Fact Rat) := ToyOpt.start ToyCurved.farWorld ToyOpt.gn

theorem C146.prog_plain : NoCovariances C146.prog := by
  intro m hm
  simp only [C146.prog, List.mem_cons, List.not_mem_nil, or_false] at hm
  rcases hm with rfl | rfl | rfl | rfl <;> exact ⟨(fun _ h => by cases h), (fun _ h => by cases h)⟩

example : ∃ m, (moves ToyOpt.rat Ldlt.linAlg (asSetup ToyOpt.env C146.start.opt.hasGraph C146.prog) C146.start).1 =
    reflag m (moves ToyOpt.rat Ldlt.linAlg C146.prog C146.start).1 :=
  (C146_programs_partial ToyOpt.rat Ldlt.linAlg ToyOpt.env C146.prog C146.prog_plain C146.start).2

/-- The change took effect: the second run was damped and made more iterations than the first one was allowed. -/
example : (moves ToyOpt.rat Ldlt.linAlg C146.prog C146.start).1.opt.settings.method = .levenbergMarquardt ∧
    1 < (moves ToyOpt.rat Ldlt.linAlg C146.prog C146.start).1.opt.stats.iteration := by decide +kernel

/-- The first entry of a reported covariance. -/
def C146.entry : Res (Option (Mat Rat)) → Option Rat
  | .ok (some P) => some (P.entry 0 0)
  | _ => none

/-- **C146** is false of the code for covariances: if covariances were prepared before the settings were changed in place, they are
not prepared again after the second run; the factorization they are computed with is then the one the second run left behind, here a
damped one, and the reported covariance is not the one a program gets that sets the optimizer up again. -/
theorem C146_covariances_false : ¬ ∀ (prog : List (Move Rat (GenVar Rat))) (v : Option VRef) (s : OptWorld Rat (GenVar Rat) (Ldlt.Fact Rat)),
    estimateCovariance ToyOpt.rat Ldlt.linAlg (moves ToyOpt.rat Ldlt.linAlg
      (asSetup ToyOpt.env s.opt.hasGraph prog ++ [.call ToyOpt.env .optimize, .call ToyOpt.env .prepare]) s).1 v =
    estimateCovariance ToyOpt.rat Ldlt.linAlg (moves ToyOpt.rat Ldlt.linAlg
      (prog ++ [.call ToyOpt.env .optimize, .call ToyOpt.env .prepare]) s).1 v := by
  intro h
  have := h [.call ToyOpt.env (.setup true { ToyOpt.gn with maxIterations := 1 }), .call ToyOpt.env .optimize, .call ToyOpt.env .prepare,
    .writeSettings ToyOpt.lm] (some 0) C146.start
  have := congrArg C146.entry this
  revert this
  decide +kernel

end Factorama.Props
