import Verif.Spec.Correspond

/-!
# Specification: problems that correspond to each other while a condition on the steps holds
-/

namespace Factorama.Spec
open Matrix
variable {V : Type} [VarLike ℝ V]

/-- The step `d` from `h` to `g` is of the kind `G` for each free variable. -/
def StepsAre (G : V → List ℝ → V → Prop) (h g : Heap V) (vars : List VRef) (d : List ℝ) : Prop :=
  ∀ r ∈ vars, VarLike.isConst (h r) = false → G (h r) (partOf h vars d r) (g r)

/-- As `Correspond`, but only steps of the kind `G` need to lead to related values. -/
structure CorrespondWhile (G : V → List ℝ → V → Prop) (c : ℝ) (H : Heap V → Heap V → Prop) (vars : List VRef)
    (facs : List (Factor ℝ V)) (vars' : List VRef) (facs' : List (Factor ℝ V)) : Prop where
  cost : ∀ h h' r r', H h h' → IsResidual h facs r → IsResidual h' facs' r' →
    realArith.sqNorm r' = c ^ 2 * realArith.sqNorm r
  step : ∀ h h' r r' J J', H h h' → Linearised h vars facs r J → Linearised h' vars' facs' r' J' →
    ∃ B : Matrix (Fin J'.columns.length) (Fin J.columns.length) ℝ, Bᵀ * B = 1 ∧ B * Bᵀ = 1 ∧
      ((jacobianMatrix J')ᵀ * jacobianMatrix J') * B = c ^ 2 • (B * ((jacobianMatrix J)ᵀ * jacobianMatrix J)) ∧
      gradient J' r' = c ^ 2 • (B *ᵥ gradient J r) ∧
      ∀ rate d d' g g', d.length = J.columns.length → d'.length = J'.columns.length →
        asVec J'.columns.length d' = B *ᵥ asVec J.columns.length d → Stepped h g vars (realArith.scale rate d) →
        Stepped h' g' vars' (realArith.scale rate d') → StepsAre G h g vars (realArith.scale rate d) →
        StepsAre G h' g' vars' (realArith.scale rate d') → H g g'

variable {Fact : Type}

/-- Within at most `n` trials of an iteration, the first with damping `lambda`, the step `d` from `h` to `g` is tried. -/
inductive TriedStep (A : Arith ℝ) (L : LinAlg ℝ Fact) (settings : Settings ℝ) (h : Heap V) (vars : List VRef)
    (facs : List (Factor ℝ V)) (r : List ℝ) (J : SpMat ℝ) : Nat → ℝ → List ℝ → Heap V → Prop where
  | now {n : Nat} {lambda : ℝ} {d : List ℝ} {g : Heap V} : SystemSolved A L (damped A (L.gram J) lambda) (L.rhs J r) d →
      Stepped h g vars (A.scale settings.learningRate d) →
      TriedStep A L settings h vars facs r J (n + 1) lambda (A.scale settings.learningRate d) g
  | later {n : Nat} {lambda lambda' : ℝ} {d : List ℝ} {g : Heap V} : FailedTrial A L settings h vars facs r J lambda lambda' false →
      TriedStep A L settings h vars facs r J n lambda' d g → TriedStep A L settings h vars facs r J (n + 1) lambda d g

/-- All steps that the Levenberg-Marquardt run of `s` tries are of the kind `G`. -/
def TriesAre (L : LinAlg ℝ Fact) (env : Env ℝ V) (s : OptWorld ℝ V Fact) (r0 : List ℝ) (G : V → List ℝ → V → Prop) : Prop :=
  ∀ k s1 r J, Iterations realArith L env k (loopStart realArith env s r0) s1 →
    Linearised s1.heap s.graph.getAllVariables s.graph.getAllFactors r J →
    ∀ d g, TriedStep realArith L s.opt.settings s1.heap s.graph.getAllVariables s.graph.getAllFactors r J 5
      (firstDamping s.opt.settings s1.opt.stats) d g → StepsAre G s1.heap g s.graph.getAllVariables d

end Factorama.Spec
