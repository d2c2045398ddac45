import Verif.Examples.Toy
import Verif.Model.Ldlt
import Verif.Spec.Optimizer

/-!
# Concrete optimizer runs in rational arithmetic
-/

namespace Factorama.ToyOpt
open Spec Graph Opt Toy

/-- Integer square root, bit by bit. -/
def natSqrt (n : Nat) : Nat → Nat → Nat
  | 0, r => r
  | b + 1, r => natSqrt n b (if (r + 2 ^ b) * (r + 2 ^ b) ≤ n then r + 2 ^ b else r)

/-- Square root rounded down to a multiple of `10⁻¹²`. -/
def ratSqrt (q : Rat) : Rat :=
  let n := (q * 10 ^ 24).floor.toNat
  mkRat (natSqrt n (n.log2 / 2 + 1) 0) (10 ^ 12)

/-- Rational arithmetic: exact, but for the rounded square root. -/
def rat : Arith Rat where
  lit q := q
  add := (· + ·)
  sub := (· - ·)
  mul := (· * ·)
  div := (· / ·)
  abs q := if q < 0 then -q else q
  sqrt := ratSqrt
  lt a b := decide (a < b)
  le a b := decide (a ≤ b)
  isFinite _ := true
  sqNorm v := (v.map fun x => x * x).foldr (· + ·) 0
  minCoeff v := v.foldr min (v.headD 0)
  maxCoeff v := v.foldr max (v.headD 0)

def env : Env Rat (GenVar Rat) := ⟨id, fun _ => .refl _, fun _ => 77⟩

/-- Two free variables of size 2 and a constant of size 2. -/
def heap : Heap (GenVar Rat)
  | 0 => ⟨1, false, [5, 7]⟩
  | 1 => ⟨2, false, [1, 1]⟩
  | _ => ⟨3, true, [0, 1]⟩

/-- A prior on the first variable and a between factor. -/
def facs : List (Factor Rat (GenVar Rat)) :=
  [genericPrior 10 0 [4, 4] 2, genericBetween 11 0 1 2 2 3]

def build : List (Op Rat (GenVar Rat)) :=
  [.addVariable (some 0), .addVariable (some 1), .addVariable (some 2), .addFactor facs[0]?, .addFactor facs[1]?]

def world : World Rat (GenVar Rat) := exec env (build ++ .finalize :: []) (World.init heap)

/-- An optimizer set up on a world. -/
@[reducible] def start (w : World Rat (GenVar Rat)) (st : Settings Rat) : OptWorld Rat (GenVar Rat) (Ldlt.Fact Rat) :=
  ⟨w.heap, w.graph, { Optimizer.init rat with hasGraph := true, settings := st }⟩

def gn : Settings Rat := Settings.default rat
def lm : Settings Rat := { Settings.default rat with method := .levenbergMarquardt, maxIterations := 6 }

def gnRun := optimize rat Ldlt.linAlg env (start world gn)
def lmRun := optimize rat Ldlt.linAlg env (start world lm)


theorem finalizedAfter_of (w : World Rat (GenVar Rat)) {h0 : Heap (GenVar Rat)} {pre post : List (Op Rat (GenVar Rat) × Res Unit)}
    (h : FinalizedAfter h0 pre post w) : FinalizedAfter h0 pre post ⟨w.heap, w.graph⟩ := h

theorem finalizedAfter : FinalizedAfter heap (build.zip (outcomes env build (World.init heap))) []
    ⟨world.heap, world.graph⟩ := by
  apply finalizedAfter_of
  have := exec_finalizedAfter env heap build [] (by decide +kernel) (by decide +kernel) (by simp)
  rw [List.zip_nil_left] at this
  exact this

theorem facs_eq : world.graph.getAllFactors = facs := by
  have ho : outcomes env (build ++ .finalize :: []) (World.init heap) =
      [.ok (), .ok (), .ok (), .ok (), .ok (), .ok ()] := by decide +kernel
  have h := (lists_runs (exec_runs env (build ++ .finalize :: []) (World.init heap)
    (by rw [ho]; decide)) (Hist.init heap) _ (fun _ => rfl)).2
  rw [ho] at h
  exact h

attribute [irreducible] world

theorem residual0 : (computeResidual env world.heap world.graph).2 = .ok [2, 6, -12, -21] := by decide +kernel

end Factorama.ToyOpt

namespace Factorama.GenVar
open Spec

/-- `GenericVariable` is restored exactly by writing back the old value. -/
theorem restoresExactly {F : Type} [Add F] : RestoresExactly (F := F) (V := GenVar F) fun _ => True := by
  refine fun v _ => ⟨?_, fun x v' h => ⟨trivial, ?_⟩⟩
  · simp [VarLike.setValue, setValue, VarLike.value]
  · simp only [VarLike.applyIncr, applyIncr] at h
    split at h
    · simp at h
    · rename_i hx
      simp at h hx
      subst h
      simp [VarLike.setValue, setValue, VarLike.value, hx]

end Factorama.GenVar

namespace Factorama.ToyOpt
open Spec Graph Opt Toy

theorem gnRun_ok : gnRun.2 = .ok () := by decide +kernel
theorem lmRun_ok : lmRun.2 = .ok () := by decide +kernel

/-- A factor written by a user that throws once the first variable has moved. -/
def touchy : Factor Rat (GenVar Rat) where
  id := 12
  residualSize := 1
  variables := [some 0]
  computeResidual h := if (h 0).value = [5, 7] then .ok [1] else .threw
  computeJacobians _ _ := .ok [⟨1, 2, fun _ _ => 0⟩]

/-- The same graph with the throwing factor. -/
def touchyBuild : List (Op Rat (GenVar Rat)) := build ++ [.addFactor (some touchy)]

def touchyWorld : World Rat (GenVar Rat) := exec env (touchyBuild ++ .finalize :: []) (World.init heap)

theorem touchyFinalized : FinalizedAfter heap (touchyBuild.zip (outcomes env touchyBuild (World.init heap))) []
    ⟨touchyWorld.heap, touchyWorld.graph⟩ := by
  apply finalizedAfter_of
  have := exec_finalizedAfter env heap touchyBuild [] (by decide +kernel) (by decide +kernel) (by simp)
  rw [List.zip_nil_left] at this
  exact this

attribute [irreducible] touchyWorld

theorem touchyResidual : (computeResidual env touchyWorld.heap touchyWorld.graph).2 = .ok [2, 6, -12, -21, 1] := by
  decide +kernel

end Factorama.ToyOpt

namespace Factorama.ToyOpt
open Spec Graph Opt Toy

/-- Run a list of calls on graph and optimizer. -/
def execCalls : List (Call Rat (GenVar Rat)) → OptWorld Rat (GenVar Rat) (Ldlt.Fact Rat) → OptWorld Rat (GenVar Rat) (Ldlt.Fact Rat)
  | [], s => s
  | c :: cs, s => execCalls cs (Opt.step rat Ldlt.linAlg env c s).1

/-- Outcomes of a list of calls. -/
def callOutcomes : List (Call Rat (GenVar Rat)) → OptWorld Rat (GenVar Rat) (Ldlt.Fact Rat) → List (Res Unit)
  | [], _ => []
  | c :: cs, s => (Opt.step rat Ldlt.linAlg env c s).2 :: callOutcomes cs (Opt.step rat Ldlt.linAlg env c s).1

theorem execCalls_runs (cs : List (Call Rat (GenVar Rat))) (s : OptWorld Rat (GenVar Rat) (Ldlt.Fact Rat))
    (h : Res.ub ∉ callOutcomes cs s) :
    Runs rat Ldlt.linAlg s (cs.zip (callOutcomes cs s)) (execCalls cs s) := by
  induction cs generalizing s with
  | nil => exact .nil s
  | cons c cs ih =>
    simp only [callOutcomes, List.mem_cons, not_or] at h
    exact .cons env rfl (fun e => h.1 e.symm) (ih _ h.2)

/-- A prior with a heavy weight and one with none at all: the normal matrix is `diag(10²⁰, 0)`. -/
def stiffBuild : List (Op Rat (GenVar Rat)) :=
  [.addVariable (some 0), .addFactor (some ⟨10, 2, [some 0], fun h => .ok [(10 ^ 10) * ((h 0).value.headD 0), 0],
    fun _ _ => .ok [⟨2, 2, fun i j => if i = 0 ∧ j = 0 then 10 ^ 10 else 0⟩]⟩)]

def stiffWorld : World Rat (GenVar Rat) := exec env (stiffBuild ++ .finalize :: []) (World.init heap)

theorem stiffFinalized : FinalizedAfter heap (stiffBuild.zip (outcomes env stiffBuild (World.init heap))) []
    ⟨stiffWorld.heap, stiffWorld.graph⟩ := by
  apply finalizedAfter_of
  have := exec_finalizedAfter env heap stiffBuild [] (by decide +kernel) (by decide +kernel) (by simp)
  rw [List.zip_nil_left] at this
  exact this

attribute [irreducible] stiffWorld

theorem stiffResidual : (computeResidual env stiffWorld.heap stiffWorld.graph).2 = .ok [5 * 10 ^ 10, 0] := by decide +kernel

/-- Start at the optimum. -/
def optHeap : Heap (GenVar Rat)
  | 0 => ⟨1, false, [4, 4]⟩
  | 1 => ⟨2, false, [4, 5]⟩
  | _ => ⟨3, true, [0, 1]⟩

def optWorld : World Rat (GenVar Rat) := exec env (build ++ .finalize :: []) (World.init optHeap)

theorem optFinalized : FinalizedAfter optHeap (build.zip (outcomes env build (World.init optHeap))) []
    ⟨optWorld.heap, optWorld.graph⟩ := by
  apply finalizedAfter_of
  have := exec_finalizedAfter env optHeap build [] (by decide +kernel) (by decide +kernel) (by simp)
  rw [List.zip_nil_left] at this
  exact this

attribute [irreducible] optWorld

theorem optResidual : (computeResidual env optWorld.heap optWorld.graph).2 = .ok [0, 0, 0, 0] := by decide +kernel

end Factorama.ToyOpt
