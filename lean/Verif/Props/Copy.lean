import Verif.Lemmas.Copy
import Verif.Examples.ToyOptDefined

/-!
# C88: a copy of a graph is the same problem
-/

namespace Factorama.Props
open Spec Graph Opt
variable {F V Fact : Type} [Zero F] [VarLike F V] [LawfulVar F V]

/-! ### Where it fails -/

namespace C88
/-- A free number that no factor measures and a constant with a prior. -/
def heap : Heap (GenVar Int)
  | 0 => ⟨1, false, [5]⟩
  | _ => ⟨2, true, [3]⟩
def ops : List (Op Int (GenVar Int)) :=
  [.addVariable (some 0), .addVariable (some 1), .addFactor (some (genericPrior 10 1 [4] 2)), .finalize, .sparse]
def world : World Int (GenVar Int) := Toy.exec Toy.env ops (World.init heap)
end C88

/-- **C88 is false** for graphs whose Jacobian has no entries: after a sparse evaluation, the original refuses to evaluate
the sparse Jacobian again; a copy of it does not. -/
theorem C88_empty_false : ¬ ∀ (h0 : Heap (GenVar Int)) (evs : List (Op Int (GenVar Int) × Res Unit))
    (w : World Int (GenVar Int)), World.Runs (World.init h0) evs w →
    ((computeSparse w.heap (Graph.copy w.graph)).2 = .threw ↔ (computeSparse w.heap w.graph).2 = .threw) := by
  intro H
  have hr := Toy.exec_runs Toy.env C88.ops (World.init C88.heap) (by decide +kernel)
  have h1 : (Toy.outcomes Toy.env [.sparse] C88.world) = [.threw] := by decide +kernel
  have h2 : (Toy.outcomes Toy.env [.copy, .sparse] C88.world) = [.ok (), .ok ()] := by decide +kernel
  have := H _ _ _ hr
  simp only [Toy.outcomes, World.step, World.onGraph, List.cons.injEq, and_true] at h1 h2
  have e1 : (computeSparse C88.world.heap C88.world.graph).2 = .threw := by
    revert h1
    cases (computeSparse C88.world.heap C88.world.graph).2 <;> simp [Res.void]
  have e2 := this.mpr e1
  have h3 : ((computeSparse C88.world.heap (Graph.copy C88.world.graph)).2).void = .ok () := h2.2
  rw [show (computeSparse C88.world.heap (Graph.copy C88.world.graph)).2 = .threw from e2] at h3
  cases h3

/-! ### Where it holds -/

/-- **C88, the part that holds** (going on with a copy): let a graph be finalized, with some factor that measures a free
variable, and possibly evaluated already. A program that goes on with a copy of the graph — moving variables, evaluating,
optimizing, preparing covariances, as often as it likes — has call by call the same outcomes as the program that goes on with
the original, and at the end the same variables, statistics and covariances, the same residual, and sparse Jacobians
with the same entries. Nothing is assumed about the arithmetic, so this includes rounding, and hash orders and contents of
memory may differ. -/
theorem C88_program_partial {A : Arith F} {L : LinAlg F Fact} (hL : IgnoresStorage L) {h0 : Heap V}
    {pre post : List (Op F V × Res Unit)} {w : World F V} (hw : FinalizedAfter h0 pre post w) (hpre : NoJacobianYet pre)
    (hid : IdsIdentify w.heap w.graph.getAllVariables w.graph.getAllFactors) (hnr : NoRepeats w.graph.getAllFactors)
    (hfree : ∃ f ∈ w.graph.getAllFactors, 0 < f.residualSize ∧ ∃ r ∈ w.graph.getAllVariables, some r ∈ f.variables ∧
      VarLike.isConst (w.heap r) = false ∧ 0 < VarLike.size (w.heap r))
    (o : Optimizer F Fact) {evs evs' : List (Call F V × Res Unit)} {s s' : OptWorld F V Fact}
    (hrun : Runs A L ⟨w.heap, w.graph, o⟩ evs s) (hrun' : Runs A L ⟨w.heap, Graph.copy w.graph, o⟩ evs' s')
    (hsame : evs'.map (·.1) = evs.map (·.1)) (hq : ∀ ev ∈ evs, ¬ changesStructure ev.1) :
    evs' = evs ∧ s'.heap = s.heap ∧ s'.opt.stats = s.opt.stats ∧ s'.opt.initialStats = s.opt.initialStats ∧
    (∀ v, estimateCovariance A L s' v = estimateCovariance A L s v) ∧
    (∀ env env' buf buf' r, computeResidualInto env s.graph s.heap buf = (r, .ok ()) ↔
      computeResidualInto env' s'.graph s'.heap buf' = (r, .ok ())) ∧
    ((∃ J J', s.graph.sparseJacobian = .ok J ∧ s'.graph.sparseJacobian = .ok J' ∧ SameEntries J J') ∨
      (s.graph.sparseJacobian = .threw ∧ s'.graph.sparseJacobian = .threw)) := by
  have hr := finalizedAfter_ready (good := anyBuffer) hw hpre hid hnr (fun _ => trivial) (fun _ _ _ _ _ _ _ _ => trivial)
  obtain ⟨c, rs, hc, hrs, hne⟩ := laid_entry hr.laid hr.ids hfree
  rw [hr.laid.rows c hc] at hrs
  have hst := Copied.start (finalizedAfter_layout hw) hr ⟨c, hc, by rw [Option.some.inj hrs]; exact hne⟩
  obtain ⟨h1, h2⟩ := copied_runs hL hrun hrun' hsame hq
    ⟨_, o.residual1, o.residual2, rfl, hst, trivial⟩
  have hcov : ∀ v, estimateCovariance A L s' v = estimateCovariance A L s v := fun v =>
    h2.covariance (fun hd => hd.fields.2.2.1) v
  obtain ⟨g', a, b, rfl, hd, _⟩ := h2
  have hf := hd.fields.2.1
  refine ⟨h1, rfl, rfl, rfl, hcov, fun env env' buf buf' r => ⟨fun e => ?_, fun e => ?_⟩, ?_⟩
  · have h1 := evaluated_isResidual hd.layout.1 ⟨buf, e⟩
    rw [← hf] at h1
    exact isResidual_evaluates hd.layout.2 h1 buf'
  · have h1 := evaluated_isResidual hd.layout.2 ⟨buf', e⟩
    rw [hf] at h1
    exact isResidual_evaluates hd.layout.1 h1 buf
  · rcases hd.jacobian with ⟨J, J', e, e', j1, j2⟩ | h
    · exact .inl ⟨J, J', e, e', j1, by rw [j2]⟩
    · exact .inr h

namespace C88
/-- Move a variable, optimize, prepare covariances, evaluate, copy again and evaluate. -/
def calls : List (Call Rat (GenVar Rat)) :=
  [.user (.setValue 0 [6, 6]), .optimize, .prepare, .user .dense, .user .copy, .user .sparse]
def first : OptWorld Rat (GenVar Rat) (Ldlt.Fact Rat) := ToyOpt.start ToyOpt.world ToyOpt.lm
def second : OptWorld Rat (GenVar Rat) (Ldlt.Fact Rat) := { first with graph := Graph.copy first.graph }

theorem ignoresStorage : IgnoresStorage (Ldlt.linAlg : LinAlg Rat (Ldlt.Fact Rat)) := by
  rintro ⟨a, b, c⟩ ⟨a', b', c'⟩ h1 h2
  obtain rfl : a' = a := h1
  obtain rfl : b' = b := h2
  exact ⟨rfl, fun _ => rfl⟩

theorem free : ∃ f ∈ ToyOpt.world.graph.getAllFactors, 0 < f.residualSize ∧ ∃ r ∈ ToyOpt.world.graph.getAllVariables,
    some r ∈ f.variables ∧ VarLike.isConst (ToyOpt.world.heap r) = false ∧ 0 < VarLike.size (ToyOpt.world.heap r) := by
  rw [ToyOpt.facs_eq, ToyOpt.vars_eq]
  exact ⟨genericPrior 10 0 [4, 4] 2, List.mem_cons_self .., by decide, 0, by decide, by simp [genericPrior],
    by decide +kernel, by decide +kernel⟩

theorem quiet {rs : List (Res Unit)} : ∀ ev ∈ calls.zip rs, ¬ changesStructure ev.1 := by
  rintro ⟨c, r⟩ h
  have := (List.of_mem_zip h).1
  simp only [calls, List.mem_cons, List.not_mem_nil, or_false] at this
  rcases this with rfl | rfl | rfl | rfl | rfl | rfl <;> exact id
end C88

/-- The hypotheses are met by a program that moves a variable, optimizes, prepares covariances and evaluates. -/
example : (ToyOpt.execCalls C88.calls C88.second).heap = (ToyOpt.execCalls C88.calls C88.first).heap ∧
    ToyOpt.callOutcomes C88.calls C88.first = List.replicate 6 (.ok ()) ∧
    VarLike.value ((ToyOpt.execCalls C88.calls C88.first).heap 0) ≠ [6, 6] :=
  ⟨(C88_program_partial C88.ignoresStorage ToyOpt.finalizedAfter ToyOpt.noJacobianYet ToyOpt.identify ToyOpt.noRepeats
      C88.free _ (ToyOpt.execCalls_runs C88.calls C88.first (by decide +kernel))
      (ToyOpt.execCalls_runs C88.calls C88.second (by decide +kernel))
      (by rw [show ToyOpt.callOutcomes C88.calls C88.second = ToyOpt.callOutcomes C88.calls C88.first by decide +kernel])
      C88.quiet).2.1,
    by decide +kernel, by decide +kernel⟩

/-- **C88, the part that holds** (original and copy side by side): a finalized graph and a copy of it share their
variables. After any calls on the original, on the copy and on an optimizer working on the copy, in any order, the original
and the copy have the same variables and factors, and evaluating the one or the other — the residual, the dense and the sparse
Jacobian — gives the same: what was optimized with the copy can be inspected with the original. -/
theorem C88_shared_partial {A : Arith F} {L : LinAlg F Fact} {h0 : Heap V}
    {pre post : List (Op F V × Res Unit)} {w : World F V} (hw : FinalizedAfter h0 pre post w) (hpre : NoJacobianYet pre)
    (hid : IdsIdentify w.heap w.graph.getAllVariables w.graph.getAllFactors) (hnr : NoRepeats w.graph.getAllFactors)
    (o : Optimizer F Fact) {evs : List (SharedCall F V × Res Unit)} {s : Shared F V Fact}
    (hrun : Shared.Runs A L ⟨w.heap, w.graph, Graph.copy w.graph, o⟩ evs s) (hq : ∀ ev ∈ evs, ¬ ev.1.changesStructure) :
    s.original.getAllVariables = w.graph.getAllVariables ∧ s.duplicate.getAllVariables = w.graph.getAllVariables ∧
    s.original.getAllFactors = w.graph.getAllFactors ∧ s.duplicate.getAllFactors = w.graph.getAllFactors ∧
    (∀ env env' buf buf' r, computeResidualInto env s.original s.heap buf = (r, .ok ()) ↔
      computeResidualInto env' s.duplicate s.heap buf' = (r, .ok ())) ∧
    (∀ blocks : Nat → List (Mat F), (∀ (k : Nat) f, w.graph.getAllFactors[k]? = some f →
        f.computeJacobians s.heap [] = .ok (blocks k) ∧ ProperBlocks s.heap f (blocks k)) →
      (∀ env env', ∃ g g' J J', computeDense env s.heap s.original = (g, .ok J) ∧
        computeDense env' s.heap s.duplicate = (g', .ok J') ∧ J.rows = J'.rows ∧ J.cols = J'.cols ∧
        (∀ a b, a < J.rows → b < J.cols → J.entry a b = J'.entry a b) ∧
        IsStackedJacobian s.heap w.graph.getAllVariables w.graph.getAllFactors blocks J.entry) ∧
      ((∀ f ∈ w.graph.getAllFactors, ReuseSafe f) →
        (∃ f ∈ w.graph.getAllFactors, ∃ r, some r ∈ f.variables ∧ VarLike.isConst (w.heap r) = false) →
        ∃ g g' J J', computeSparse s.heap s.original = (g, .ok J) ∧ computeSparse s.heap s.duplicate = (g', .ok J') ∧
          SameEntries J J' ∧
          IsStackedJacobian s.heap w.graph.getAllVariables w.graph.getAllFactors blocks J.coeff)) := by
  have hr := finalizedAfter_ready (good := ownBuffers w.graph.facs) hw hpre hid hnr (fun _ _ _ => .nil)
    (fun k f hf h buf js hb hj f' hf' => by
      obtain rfl : f = f' := Option.some.inj (hf.symm.trans hf')
      exact .out (hb f hf) hj)
  have hl := finalizedAfter_layout hw
  have hi : SharedInv w s := sharedInv_runs hrun
    { layout := hl
      layout' := ⟨hl.fin, hl.pl, hl.nv, hl.fpl, hl.nr, hl.ids, hl.wp⟩
      ready := hr
      ready' := hr.copy
      same := SameStructure.refl _
      same' := ⟨rfl, rfl, rfl, rfl, rfl, rfl, rfl, rfl, rfl⟩
      shape := SameShape.refl _ } hq
  have f1 : s.original.facs = w.graph.facs := hi.same.facs
  have f2 : s.duplicate.facs = w.graph.facs := hi.same'.facs
  have v1 : s.original.varsVec = w.graph.varsVec := hi.same.varsVec
  have v2 : s.duplicate.varsVec = w.graph.varsVec := hi.same'.varsVec
  refine ⟨v1, v2, f1, f2, fun env env' buf buf' r => ⟨fun e => ?_, fun e => ?_⟩, fun blocks hb => ⟨fun env env' => ?_,
    fun hsafe hfree => ?_⟩⟩
  · have h1 := evaluated_isResidual hi.layout ⟨buf, e⟩
    rw [f1, ← f2] at h1
    exact isResidual_evaluates hi.layout' h1 buf'
  · have h1 := evaluated_isResidual hi.layout' ⟨buf', e⟩
    rw [f2, ← f1] at h1
    exact isResidual_evaluates hi.layout h1 buf
  · obtain ⟨J, e1, e2, e3, e4⟩ := computeDense_ok (env := env) hi.ready blocks (by rw [f1]; exact hb)
    obtain ⟨J', e1', e2', e3', e4'⟩ := computeDense_ok (env := env') hi.ready' blocks (by rw [f2]; exact hb)
    rw [f1, v1] at e4
    rw [f2, v2] at e4'
    refine ⟨_, _, J, J', e1, e1', by rw [e2, e2', hi.same.numResiduals, hi.same'.numResiduals],
      by rw [e3, e3', hi.same.numValues, hi.same'.numValues], fun a b ha hb' => ?_, e4⟩
    rw [e2, hi.ready.laid.nr, f1] at ha
    rw [e3, hi.ready.laid.nv, v1] at hb'
    exact stacked_unique (by rw [← v1]; exact nodup_of_ids_nodup hi.ready.ids) (fun k f hf => (hb k f hf).2) e4 e4' ha hb'
  · obtain ⟨f, hf, r, hv, hc⟩ := hfree
    have hc' : VarLike.isConst (s.heap r) = false := by rw [(hi.shape r).2.1]; exact hc
    have b1 : ∀ (k : Nat) f, s.original.facs[k]? = some f → f.computeJacobians s.heap [] = .ok (blocks k) ∧
      ProperBlocks s.heap f (blocks k) := by rw [f1]; exact hb
    have b2 : ∀ (k : Nat) f, s.duplicate.facs[k]? = some f → f.computeJacobians s.heap [] = .ok (blocks k) ∧
      ProperBlocks s.heap f (blocks k) := by rw [f2]; exact hb
    obtain ⟨g, J, e1, e2, e3, e4, e5⟩ := computeSparse_ok hi.ready blocks b1
      (fun k f hf h buf hb => hsafe f (by rw [show w.graph.getAllFactors = _ from f1.symm]; exact List.mem_of_getElem? hf) h buf
        (hb f (by rw [← f1]; exact hf)))
      (fun hx => alloc_pos hi.ready blocks (fun k f hf => (b1 k f hf).2) ⟨f, by rw [f1]; exact hf, r, hv, hc'⟩ hx.2)
    obtain ⟨g', J', e1', e2', e3', e4', e5'⟩ := computeSparse_ok hi.ready' blocks b2
      (fun k f hf h buf hb => hsafe f (by rw [show w.graph.getAllFactors = _ from f2.symm]; exact List.mem_of_getElem? hf) h buf
        (hb f (by rw [← f2]; exact hf)))
      (fun hx => alloc_pos hi.ready' blocks (fun k f hf => (b2 k f hf).2) ⟨f, by rw [f2]; exact hf, r, hv, hc'⟩ hx.2)
    have hlog : elog s.duplicate s.heap blocks = elog s.original s.heap blocks := by
      unfold elog
      have : elogAt s.duplicate s.heap blocks = elogAt s.original s.heap blocks := by
        funext k
        unfold elogAt
        rw [f1, f2, hi.same.varPl, hi.same'.varPl]
      rw [f1, f2, this]
    have hn1 := hi.same.numValues
    have hn2 := hi.same'.numValues
    refine ⟨g, g', J, J', e1, e1', ?_, ?_⟩
    · refine sameEntries_of (n := w.graph.numValues) (f := fun c => colVals c (elog s.original s.heap blocks))
        (by rw [e3, e3', hi.same.numResiduals, hi.same'.numResiduals]) (by rw [e4, hn1]) (by rw [e4', hn2])
        (fun c hc => e5 c (by rw [hn1]; exact hc)) (fun c hc => ?_)
      have := e5' c (by rw [hn2]; exact hc)
      rwa [hlog] at this
    · have := sparse_stacked hi.ready.laid hi.ready.ids hi.ready.ident hi.ready.norep blocks (fun k f hf => (b1 k f hf).2) J e5
      rwa [f1, v1] at this

namespace C88
/-- Evaluate the original, optimize the copy, evaluate the copy, move a variable through the original. -/
def sharedCalls : List (SharedCall Rat (GenVar Rat)) :=
  [.original .residual, .original .sparse, .duplicate .optimize, .duplicate .prepare, .duplicate (.user .dense),
   .original (.applyIncrement [1, 2, 3, 4])]
def sharedStart : Shared Rat (GenVar Rat) (Ldlt.Fact Rat) :=
  ⟨ToyOpt.world.heap, ToyOpt.world.graph, Graph.copy ToyOpt.world.graph, first.opt⟩

def execShared : List (SharedCall Rat (GenVar Rat)) → Shared Rat (GenVar Rat) (Ldlt.Fact Rat) →
    Shared Rat (GenVar Rat) (Ldlt.Fact Rat)
  | [], s => s
  | c :: cs, s => execShared cs (s.step ToyOpt.rat Ldlt.linAlg ToyOpt.env c).1

def sharedOutcomes : List (SharedCall Rat (GenVar Rat)) → Shared Rat (GenVar Rat) (Ldlt.Fact Rat) → List (Res Unit)
  | [], _ => []
  | c :: cs, s => (s.step ToyOpt.rat Ldlt.linAlg ToyOpt.env c).2 ::
      sharedOutcomes cs (s.step ToyOpt.rat Ldlt.linAlg ToyOpt.env c).1

theorem execShared_runs (cs : List (SharedCall Rat (GenVar Rat))) (s : Shared Rat (GenVar Rat) (Ldlt.Fact Rat))
    (h : Res.ub ∉ sharedOutcomes cs s) :
    Shared.Runs ToyOpt.rat Ldlt.linAlg s (cs.zip (sharedOutcomes cs s)) (execShared cs s) := by
  induction cs generalizing s with
  | nil => exact .nil s
  | cons c cs ih =>
    simp only [sharedOutcomes, List.mem_cons, not_or] at h
    exact .cons ToyOpt.env rfl (fun e => h.1 e.symm) (ih _ h.2)

theorem sharedQuiet {rs : List (Res Unit)} : ∀ ev ∈ sharedCalls.zip rs, ¬ ev.1.changesStructure := by
  rintro ⟨c, r⟩ h
  have := (List.of_mem_zip h).1
  simp only [sharedCalls, List.mem_cons, List.not_mem_nil, or_false] at this
  rcases this with rfl | rfl | rfl | rfl | rfl | rfl <;>
    first | exact id | exact fun hn => hn trivial

def sharedEnd : Shared Rat (GenVar Rat) (Ldlt.Fact Rat) := execShared sharedCalls sharedStart
theorem sharedRun : Shared.Runs ToyOpt.rat Ldlt.linAlg sharedStart
    (sharedCalls.zip (sharedOutcomes sharedCalls sharedStart)) sharedEnd :=
  execShared_runs _ _ (by decide +kernel)
/-- All calls return, the optimizer has moved the variables, and both graphs can be evaluated. -/
theorem shared_ok : sharedOutcomes sharedCalls sharedStart = List.replicate 6 (.ok ()) ∧
    VarLike.value (sharedEnd.heap 0) ≠ [6, 9] ∧
    (computeResidualInto ToyOpt.env sharedEnd.original sharedEnd.heap []).2 = .ok () := by decide +kernel
attribute [irreducible] sharedEnd
end C88

/-- The hypotheses are met there. -/
example := C88_shared_partial ToyOpt.finalizedAfter ToyOpt.noJacobianYet ToyOpt.identify ToyOpt.noRepeats _ C88.sharedRun
  C88.sharedQuiet

end Factorama.Props
