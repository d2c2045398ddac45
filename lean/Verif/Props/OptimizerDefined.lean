import Verif.Examples.ToyOptDefined

/-!
# Property C17, second part: a run has defined behaviour
-/

namespace Factorama.Props
open Spec Graph Opt
variable {F V Fact : Type} [Zero F] [VarLike F V] [LawfulVar F V]

/-- **C17**. On a finalized graph with at least one free value, `optimize()` never runs into undefined behaviour, in
whatever order the graph's hash table is traversed and whatever values the arithmetic produces (NaN included), provided
the variables' and factors' own methods have none and the linear algebra returns objects of the right sizes. With
`C17_returns` it follows that the call returns normally whenever the initial residual can be evaluated. -/
theorem C17_defined_partial (A : Arith F) (L : LinAlg F Fact) (env : Env F V) (s : OptWorld F V Fact)
    {h0 : Heap V} {pre post : List (Op F V × Res Unit)} (hw : FinalizedAfter h0 pre post ⟨s.heap, s.graph⟩)
    (hpre : NoJacobianYet pre) (hid : IdsIdentify s.heap s.graph.getAllVariables s.graph.getAllFactors)
    (hnr : NoRepeats s.graph.getAllFactors) {I : Heap V → Prop} (hI : I s.heap)
    (hd : MethodsDefined I s.graph.getAllVariables s.graph.getAllFactors) (hL : SizesRight L)
    (hfree : 0 < freeTotal s.heap s.graph.getAllVariables) :
    (optimize A L env s).2 ≠ .ub := by
  have hl := finalizedAfter_layout hw
  have hr := finalizedAfter_ready (good := ownBuffers s.graph.facs) hw hpre hid hnr
    (fun _ _ _ => .nil) (fun k f hf h buf js hb hj f' hf' => by
      obtain rfl : f = f' := Option.some.inj (hf.symm.trans hf')
      exact .out (hb f hf) hj)
  exact (optimize_defined hd hL (n := s.graph.numValues) (by rw [hl.nv]; exact hfree) A env s
    ⟨hI, hl, hr, rfl, rfl, rfl⟩).1

/-- The example graph meets the hypotheses, with the reference solver and either method. -/
example (st : Settings Rat) : (optimize ToyOpt.rat Ldlt.linAlg ToyOpt.env (ToyOpt.start ToyOpt.world st)).2 ≠ .ub :=
  C17_defined_partial ToyOpt.rat Ldlt.linAlg ToyOpt.env (ToyOpt.start ToyOpt.world st) ToyOpt.finalizedAfter ToyOpt.noJacobianYet
    ToyOpt.identify ToyOpt.noRepeats ToyOpt.inv_start ToyOpt.methodsDefined Ldlt.sizesRight
    (show 0 < freeTotal ToyOpt.world.heap ToyOpt.world.graph.getAllVariables by decide +kernel)

/-- **C17**, the excluded corner: optimizing a finalized graph all of whose variables are constant is undefined behaviour
(`D_.minCoeff()` of an empty vector), although finalization accepted the graph and its residual can be evaluated. -/
theorem C17_no_free_variable_undefined :
    ∃ (h0 : Heap (GenVar Rat)) (pre : List (Op Rat (GenVar Rat) × Res Unit)) (s : OptWorld Rat (GenVar Rat) (Ldlt.Fact Rat))
      (r0 : List Rat),
      FinalizedAfter h0 pre [] ⟨s.heap, s.graph⟩ ∧ (computeResidual ToyOpt.env s.heap s.graph).2 = .ok r0 ∧
      s.graph.getAllVariables ≠ [] ∧
      (optimize ToyOpt.rat Ldlt.linAlg ToyOpt.env s).2 = .ub :=
  ⟨_, _, ToyOpt.start ToyOpt.frozenWorld ToyOpt.gn, [2, 6, -12, -21], ToyOpt.frozenFinalized, by decide +kernel,
    by decide +kernel, by decide +kernel⟩

end Factorama.Props
