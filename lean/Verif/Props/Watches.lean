import Verif.Lemmas.Watches
import Verif.Props.Report

/-!
# C103: the times in the summary add up to no more than the duration of the call
-/

set_option linter.unusedSectionVars false

namespace Factorama.Props
open Spec Graph Opt
variable {F V Fact : Type} [Zero F] [VarLike F V]

/-- **C103**, the part that holds: in a verbose run that reports no refused trial and no damping limit, the ticks counted for
residuals, Jacobians, normal equations, solving and updating during the call add up to no more than the ticks between its
beginning and the time they are read. -/
theorem C103_partial (A : Arith F) (L : LinAlg F Fact) (env : Env F V) (t : Talk F V Fact)
    (hv : t.world.opt.settings.verbose = true) (during : List (Nat × Act F))
    (hd : (optimizeV A L env t).1.acts = t.acts ++ during.map (·.2))
    (hquiet : ∀ m, .print m ∈ during.map (·.2) → m.isTrouble = false)
    (hmono : during.Pairwise fun a b => a.1 ≤ b.1) (start now : Nat) (hstart : ∀ e ∈ during, start ≤ e.1)
    (hnow : ∀ e ∈ during, e.1 ≤ now) (hle : start ≤ now) :
    runningTicks (pressesOf .residual during) now + runningTicks (pressesOf .jacobian during) now +
      runningTicks (pressesOf .hessian during) now + runningTicks (pressesOf .solve during) now +
      runningTicks (pressesOf .updateVars during) now ≤ now - start := by
  have hA : Allows (fun s : OptWorld F V Fact => s.opt.settings.verbose = true) (fun _ : Act F => True) :=
    ⟨fun _ h s hs => (h.verbose s).trans hs, fun _ _ _ _ => trivial, fun _ _ => trivial, fun _ => trivial⟩
  have hstep : Turns (fun s : OptWorld F V Fact => s.opt.settings.verbose = true) Trouble none Settled
      (oneStepV A L env : SE (Talk F V Fact) Unit) := by
    refine .look fun s => ?_
    split
    · exact .gaussNewton hA A L env
    · exact (Turns.levenbergMarquardt hA (fun _ h => h) A L env).imp fun _ _ h => .inl h
  rcases (Turns.optimize hA A L env hstep).run t hv _ hd with ⟨a, ha, m, rfl, hm⟩ | ⟨c', hc, _⟩
  · rw [hquiet m ha] at hm; simp at hm
  have hone : OneRuns (fun _ => Stopwatch.init) none start :=
    ⟨fun w => by simp [Stopwatch.init], fun w h => by simp [Stopwatch.init] at h, fun w => by simp [Stopwatch.init]⟩
  have := hone.total hc hmono hstart hle hnow
  have e : ∀ w, ((pressesOf w during).foldl Stopwatch.press Stopwatch.init).elapsed now =
      (runningTicks (pressesOf w during) now : Int) := by
    intro w
    refine C62_elapsed _ ?_ now ?_
    · rw [pressesOf_eq, List.pairwise_filterMap]
      refine hmono.imp fun {a b} hab p hp q hq => ?_
      rw [timedPress_fst hp, timedPress_fst hq]
      exact hab
    · intro e he
      rw [pressesOf_eq, List.mem_filterMap] at he
      obtain ⟨a, ha, he⟩ := he
      rw [timedPress_fst he]
      exact hnow a ha
  simp only [fiveSum, e] at this
  have z : Stopwatch.init.elapsed start = 0 := rfl
  rw [z] at this
  omega

/-- The actions of the first run of Gauss-Newton and of Levenberg-Marquardt on the small graph with clock readings, one tick
for each action. -/
def C103.gn : List (Nat × Act Rat) := C92.clocked 7 (optimizeV ToyOpt.rat Ldlt.linAlg ToyOpt.env C90.gn).1.acts
def C103.lm : List (Nat × Act Rat) := C92.clocked 7 (optimizeV ToyOpt.rat Ldlt.linAlg ToyOpt.env C90.lm).1.acts

example : runningTicks (pressesOf .residual C103.gn) 99 + runningTicks (pressesOf .jacobian C103.gn) 99 +
    runningTicks (pressesOf .hessian C103.gn) 99 + runningTicks (pressesOf .solve C103.gn) 99 +
    runningTicks (pressesOf .updateVars C103.gn) 99 ≤ 92 :=
  C103_partial ToyOpt.rat Ldlt.linAlg ToyOpt.env C90.gn (by decide +kernel) C103.gn (by decide +kernel)
    (fun m hm => Classical.byContradiction fun h => by
      have : ∀ a ∈ C103.gn.map (·.2), (match a with | .print m => m.isTrouble | _ => false) = false := by decide +kernel
      exact h (this _ hm))
    (by decide +kernel) 7 99 (by decide +kernel) (by decide +kernel) (by decide)

example : runningTicks (pressesOf .residual C103.lm) 199 + runningTicks (pressesOf .jacobian C103.lm) 199 +
    runningTicks (pressesOf .hessian C103.lm) 199 + runningTicks (pressesOf .solve C103.lm) 199 +
    runningTicks (pressesOf .updateVars C103.lm) 199 ≤ 192 :=
  C103_partial ToyOpt.rat Ldlt.linAlg ToyOpt.env C90.lm (by decide +kernel) C103.lm (by decide +kernel)
    (fun m hm => Classical.byContradiction fun h => by
      have : ∀ a ∈ C103.lm.map (·.2), (match a with | .print m => m.isTrouble | _ => false) = false := by decide +kernel
      exact h (this _ hm))
    (by decide +kernel) 7 199 (by decide +kernel) (by decide +kernel) (by decide)

/-- Two free variables, of which one is not measured, and almost no damping at the start. -/
def C103.build : List (Op Rat (GenVar Rat)) :=
  [.addVariable (some 0), .addVariable (some 1), .addFactor (some (genericPrior 10 0 [4, 4] 1)),
    .addFactor (some (genericPrior 11 0 [5, 5] 1))]

def C103.loose : Talk Rat (GenVar Rat) (Ldlt.Fact Rat) :=
  ⟨ToyOpt.start (Toy.exec ToyOpt.env (C103.build ++ [.finalize]) (World.init ToyOpt.heap))
    { ToyOpt.lm with verbose := true, initialLambda := 1 / 10 ^ 20 }, []⟩

/-- Forming the normal equations takes ten ticks, anything else one tick. -/
def C103.clocked : Nat → List (Act Rat) → List (Nat × Act Rat)
  | _, [] => []
  | time, a :: as => (time, a) :: C103.clocked (time + if a = .press .hessian .start then 10 else 1) as

def C103.acts : List (Nat × Act Rat) := C103.clocked 0 (optimizeV ToyOpt.rat Ldlt.linAlg ToyOpt.env C103.loose).1.acts
def C103.now : Nat := (C103.acts.getLastD (0, .press .solve .stop)).1

/-- **C103** is false of the code: when a trial of Levenberg-Marquardt is refused, the watch for solving is not stopped and
goes on while the next normal equations are formed, so that this time is counted twice.
Here the times of a first run add up to more than its duration. -/
theorem C103_false : ¬ ∀ (t : Talk Rat (GenVar Rat) (Ldlt.Fact Rat)) (during : List (Nat × Act Rat)) (start now : Nat),
    t.world.opt.settings.verbose = true → t.acts = [] →
    (optimizeV ToyOpt.rat Ldlt.linAlg ToyOpt.env t).2 = .ok () →
    (optimizeV ToyOpt.rat Ldlt.linAlg ToyOpt.env t).1.acts = during.map (·.2) →
    during.Pairwise (fun a b => a.1 ≤ b.1) → (∀ e ∈ during, start ≤ e.1) → (∀ e ∈ during, e.1 ≤ now) → start ≤ now →
    shownTime .residual during now + shownTime .jacobian during now + shownTime .hessian during now +
      shownTime .solve during now + shownTime .updateVars during now ≤ (now : Int) - start := by
  intro h
  have := h C103.loose C103.acts 0 C103.now (by decide +kernel) rfl (by decide +kernel) (by decide +kernel)
    (by decide +kernel) (by decide +kernel) (by decide +kernel) (by decide +kernel)
  exact absurd this (by decide +kernel)

end Factorama.Props
