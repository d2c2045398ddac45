import Verif.Spec.Determinism

/-!
# Specification vocabulary: copies of a graph
-/

namespace Factorama.Spec
variable {F V Fact : Type}

/-- The linear algebra looks at the entries of a sparse matrix, not at how much memory was set aside for them. -/
def IgnoresStorage (L : LinAlg F Fact) : Prop :=
  ∀ J J' : SpMat F, J'.rows = J.rows → J'.columns = J.columns → L.gram J' = L.gram J ∧ ∀ r, L.rhs J' r = L.rhs J r

/-- Two sparse matrices with the same entries in the same places. -/
def SameEntries (J J' : SpMat F) : Prop :=
  J'.rows = J.rows ∧ J'.columns.map (·.entries) = J.columns.map (·.entries)

/-- A graph and a copy of it. They share the variables; the optimizer works on the copy. -/
structure Shared (F V Fact : Type) where
  heap : Heap V
  original : Graph F V
  duplicate : Graph F V
  opt : Optimizer F Fact

/-- A call on the original, or on the copy or its optimizer. -/
inductive SharedCall (F V : Type) where
  | original (op : Op F V)
  | duplicate (c : Opt.Call F V)

/-- Adds variables or factors, makes a variable constant or free, or finalizes. -/
def SharedCall.changesStructure : SharedCall F V → Prop
  | .original op => ¬ op.isValueOp
  | .duplicate c => Spec.changesStructure c

variable [Zero F] [VarLike F V]

/-- The effect of a call. -/
def Shared.step (A : Arith F) (L : LinAlg F Fact) (env : Env F V) (s : Shared F V Fact) :
    SharedCall F V → Shared F V Fact × Res Unit
  | .original op =>
    let p := World.step env op ⟨s.heap, s.original⟩
    ({ s with heap := p.1.heap, original := p.1.graph }, p.2)
  | .duplicate c =>
    let p := Opt.step A L env c ⟨s.heap, s.duplicate, s.opt⟩
    ({ s with heap := p.1.heap, duplicate := p.1.graph, opt := p.1.opt }, p.2)

/-- Calls on the two graphs in any order. -/
inductive Shared.Runs (A : Arith F) (L : LinAlg F Fact) :
    Shared F V Fact → List (SharedCall F V × Res Unit) → Shared F V Fact → Prop where
  | nil (s : Shared F V Fact) : Runs A L s [] s
  | cons {s s' s'' : Shared F V Fact} {c : SharedCall F V} {evs : List (SharedCall F V × Res Unit)} {r : Res Unit}
      (env : Env F V) : s.step A L env c = (s', r) → r ≠ .ub → Runs A L s' evs s'' → Runs A L s ((c, r) :: evs) s''

end Factorama.Spec
