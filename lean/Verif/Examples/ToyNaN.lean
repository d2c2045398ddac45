import Verif.Examples.ToyOpt

/-!
# Rational arithmetic with a NaN

Every operation with NaN gives NaN and every comparison with NaN is false, as for IEEE doubles.
-/

namespace Factorama.ToyNaN
open Spec Graph Opt Toy

inductive Num where
  | nan
  | fin (q : Rat)
  deriving DecidableEq, Repr

namespace Num
def lift (f : Rat → Rat) : Num → Num
  | fin a => fin (f a)
  | nan => nan
def lift₂ (f : Rat → Rat → Rat) : Num → Num → Num
  | fin a, fin b => fin (f a b)
  | _, _ => nan
def cmp (f : Rat → Rat → Bool) : Num → Num → Bool
  | fin a, fin b => f a b
  | _, _ => false
instance : Zero Num := ⟨fin 0⟩
instance : Add Num := ⟨lift₂ (· + ·)⟩
instance : Sub Num := ⟨lift₂ (· - ·)⟩
instance : Mul Num := ⟨lift₂ (· * ·)⟩
instance : Div Num := ⟨lift₂ (· / ·)⟩
instance : Neg Num := ⟨lift (- ·)⟩
end Num

def arith : Arith Num where
  lit := .fin
  add := (· + ·)
  sub := (· - ·)
  mul := (· * ·)
  div := (· / ·)
  abs := Num.lift ToyOpt.rat.abs
  sqrt := Num.lift ToyOpt.rat.sqrt
  lt := Num.cmp fun a b => decide (a < b)
  le := Num.cmp fun a b => decide (a ≤ b)
  isFinite x := x ≠ .nan
  sqNorm v := (v.map fun x => x * x).foldr (· + ·) 0
  minCoeff v := v.tail.foldr (Num.lift₂ min) (v.headD 0)
  maxCoeff v := v.tail.foldr (Num.lift₂ max) (v.headD 0)

def env : Env Num (GenVar Num) := ⟨id, fun _ => .refl _, fun _ => .nan⟩

/-- One variable with a NaN in it. -/
def heap : Heap (GenVar Num) := fun _ => ⟨1, false, [.nan, .fin 3]⟩

def build : List (Op Num (GenVar Num)) :=
  [.addVariable (some 0), .addFactor (some (genericPrior 10 0 [.fin 4, .fin 4] (.fin 2)))]

def world : World Num (GenVar Num) := exec env (build ++ .finalize :: []) (World.init heap)

theorem finalizedAfter : FinalizedAfter heap (build.zip (outcomes env build (World.init heap))) [] world := by
  have := exec_finalizedAfter env heap build [] (by decide +kernel) (by decide +kernel) (by simp)
  rw [List.zip_nil_left] at this
  exact this

attribute [irreducible] world

def start (st : Settings Num) : OptWorld Num (GenVar Num) (Ldlt.Fact Num) :=
  ⟨world.heap, world.graph, { Optimizer.init arith with hasGraph := true, settings := st }⟩

end Factorama.ToyNaN
