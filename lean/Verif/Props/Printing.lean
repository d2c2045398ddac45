import Verif.Props.GraphStructure
import Verif.Model.Print
import Verif.Props.GraphEval
import Verif.Props.Covariance
import Verif.Lemmas.ResidualRows
import Verif.Lemmas.StepFacts

/-!
# Printing: C81, C82
-/

namespace Factorama.Props
open Spec Graph Opt
variable {F V Fact : Type} [Zero F] [VarLike F V]

theorem ok_pair {σ α : Type} {p : σ × Res α} {a : α} (h : p.2 = .ok a) : p = (p.1, .ok a) := by rw [← h]
theorem ok_of_isOk {α : Type} {r : Res α} (h : r.isOk = true) : ∃ a, r = .ok a := by
  cases r with
  | ok a => exact ⟨a, rfl⟩
  | threw => simp [Res.isOk] at h
  | ub => simp [Res.isOk] at h

/-! ### C81: printing and later calls -/

namespace C81
/-- The graph of the examples, with a further variable for later. -/
def heap : Heap (GenVar Rat) := fun r => if r = 4 then ⟨5, false, [3]⟩ else ToyOpt.heap r
def world : World Rat (GenVar Rat) := Toy.exec ToyOpt.env (ToyOpt.build ++ [.finalize]) (World.init heap)
/-- Extend the graph by a variable with a prior, finalize again, and evaluate the dense Jacobian. -/
def later : List (Op Rat (GenVar Rat)) :=
  [.addVariable (some 4), .addFactor (some (genericPrior 12 4 [0] 5)), .finalize, .dense]
/-- The graph after `print_jacobian_and_residual()`. -/
def printed : World Rat (GenVar Rat) := ⟨world.heap, (printJacobian ToyOpt.rat ToyOpt.env world.heap world.graph).1⟩
end C81

/-- **C81 is false** of the code: `print_jacobian_and_residual()` can make a later call throw. In the example a graph is
printed, extended and finalized again; then the dense Jacobian cannot be computed any more, which it can without the
printing. -/
theorem C81_jacobian_false : ¬ ∀ (h0 : Heap (GenVar Rat)) evs (w : World Rat (GenVar Rat)) g' report,
    World.Runs (World.init h0) evs w → printJacobian ToyOpt.rat ToyOpt.env w.heap w.graph = (g', .ok report) →
    ∀ ops, Toy.outcomes ToyOpt.env ops ⟨w.heap, g'⟩ = Toy.outcomes ToyOpt.env ops w := by
  intro h
  have hok : (printJacobian ToyOpt.rat ToyOpt.env C81.world.heap C81.world.graph).2.isOk = true := by decide +kernel
  obtain ⟨report, hrep⟩ := ok_of_isOk hok
  have h1 := h C81.heap _ C81.world _ report
    (Toy.exec_runs ToyOpt.env (ToyOpt.build ++ [.finalize]) (World.init C81.heap) (by decide +kernel)) (ok_pair hrep)
    C81.later
  have h2 : ¬ Toy.outcomes ToyOpt.env C81.later C81.printed = Toy.outcomes ToyOpt.env C81.later C81.world := by
    decide +kernel
  exact h2 h1

namespace C81
/-- Build, finalize, set up and optimize. -/
def calls : List (Call Rat (GenVar Rat)) :=
  ToyOpt.build.map .user ++ [.user .finalize, .setup true ToyOpt.lm, .optimize]
def state : OptWorld Rat (GenVar Rat) (Ldlt.Fact Rat) := ToyOpt.execCalls calls (Opt.init ToyOpt.rat ToyOpt.heap)
/-- Start the optimization again from other values, and prepare the covariances. -/
def again : List (Call Rat (GenVar Rat)) := [.user (.setValue 0 [9, 9]), .optimize, .prepare]
/-- The state after `print_all_covariances()`. -/
def after : OptWorld Rat (GenVar Rat) (Ldlt.Fact Rat) := (printAllCovariances ToyOpt.rat Ldlt.linAlg state).1
end C81

/-- **C81 is false** of the code: `print_all_covariances()` can change the covariances that are reported after a later
optimization. -/
theorem C81_covariances_false : ¬ ∀ (h0 : Heap (GenVar Rat)) evs (s s' : OptWorld Rat (GenVar Rat) (Ldlt.Fact Rat)) lines,
    Runs ToyOpt.rat Ldlt.linAlg (Opt.init ToyOpt.rat h0) evs s →
    printAllCovariances ToyOpt.rat Ldlt.linAlg s = (s', .ok lines) →
    ∀ calls v, C29.report (ToyOpt.execCalls calls s') v = C29.report (ToyOpt.execCalls calls s) v := by
  intro h
  have hok : (printAllCovariances ToyOpt.rat Ldlt.linAlg C81.state).2.isOk = true := by decide +kernel
  obtain ⟨lines, hl⟩ := ok_of_isOk hok
  have h1 := h ToyOpt.heap _ C81.state _ lines
    (ToyOpt.execCalls_runs C81.calls (Opt.init ToyOpt.rat ToyOpt.heap) (by decide +kernel)) (ok_pair hl) C81.again (some 0)
  have h2 : ¬ C29.report (ToyOpt.execCalls C81.again C81.after) (some 0) =
      C29.report (ToyOpt.execCalls C81.again C81.state) (some 0) := by decide +kernel
  exact h2 h1

/-- **C81, the part that holds**, graph: the effect of `print_jacobian_and_residual()` is that of
`compute_full_jacobian_and_residual()`; the variables are not touched (they are not part of the state it can change), and
`print_structure()` and `print_variables()` change nothing at all. -/
theorem C81_jacobian_partial (A : Arith F) (env : Env F V) (h : Heap V) (g : Graph F V) :
    (printJacobian A env h g).1 = (computeDenseAndResidual env h g).1 := by
  unfold printJacobian SE.bind
  cases hc : computeDenseAndResidual env h g with
  | mk g' r =>
    cases r with
    | ok u =>
      simp only [SE.get]
      split
      · rfl
      · split <;> rfl
    | threw => rfl
    | ub => rfl

example : (printJacobian ToyOpt.rat ToyOpt.env C81.world.heap C81.world.graph).1 =
    (computeDenseAndResidual ToyOpt.env C81.world.heap C81.world.graph).1 :=
  C81_jacobian_partial ToyOpt.rat ToyOpt.env C81.world.heap C81.world.graph
example : (computeDenseAndResidual ToyOpt.env C81.world.heap C81.world.graph).2 = .ok () := by decide +kernel

/-- **C81, the part that holds**, optimizer: the effect of `print_all_covariances()` is that of
`prepare_to_estimate_covariances()`. In particular it changes nothing when the covariances have been prepared already. -/
theorem C81_covariances_partial (A : Arith F) (L : LinAlg F Fact) (s : OptWorld F V Fact) :
    (printAllCovariances A L s).1 = (prepare A L s).1 ∧
    (s.opt.hessianValid = true → (printAllCovariances A L s).1 = s) := by
  have h1 : (printAllCovariances A L s).1 = (prepare A L s).1 := by
    unfold printAllCovariances
    rw [SE.bind_get]
    by_cases hv : s.opt.hessianValid = true
    · rw [if_pos hv]
      have hp : prepare A L s = (s, .ok ()) := by
        rcases prepare_cases A L s with ⟨_, e⟩ | ⟨e, _⟩ | ⟨e, _⟩
        · exact e
        · rw [hv] at e; simp at e
        · rw [hv] at e; simp at e
      rw [hp]
      simp only [SE.bind, SE.ret, SE.get]
      split <;> rfl
    · rw [if_neg hv]
      unfold SE.bind
      cases hp : prepare A L s with
      | mk s' r =>
        cases r with
        | ok u =>
          simp only [SE.get]
          split <;> rfl
        | threw => rfl
        | ub => rfl
  refine ⟨h1, fun hv => h1.trans ?_⟩
  rcases prepare_cases A L s with ⟨_, e⟩ | ⟨e, _⟩ | ⟨e, _⟩
  · rw [e]
  · rw [hv] at e; simp at e
  · rw [hv] at e; simp at e

/-- The example after a preparation. -/
example : (printAllCovariances ToyOpt.rat Ldlt.linAlg C29.state).1 = C29.state :=
  (C81_covariances_partial ToyOpt.rat Ldlt.linAlg C29.state).2 (by decide +kernel)

/-! ### C82: what is printed is true -/

/-- **C82**, `print_structure()`, the part that holds: after a finalization the numbers are the number of variables,
the number of factors, the length of the residual and the number of free values; before the first one it throws. -/
theorem C82_structure_partial [LawfulVar F V] {h0 : Heap V} :
    (∀ {pre post : List (Op F V × Res Unit)} {w : World F V}, FinalizedAfter h0 pre post w →
      w.graph.printStructure = .ok ⟨w.graph.getAllVariables.length, w.graph.getAllFactors.length,
        rowTotal w.graph.getAllFactors, freeTotal w.heap w.graph.getAllVariables⟩) ∧
    (∀ {evs : List (Op F V × Res Unit)} {w : World F V}, World.Runs (World.init h0) evs w → (.finalize, .ok ()) ∉ evs →
      w.graph.printStructure = .threw) := by
  refine ⟨fun {pre post w} hw => ?_, fun hrun hno => ?_⟩
  · have hl := finalizedAfter_layout hw
    have h1 := (C02_columns hw).1
    have h2 := (C03_rows hw).1
    unfold printStructure
    rw [if_neg (by simp [hl.fin]), h1, h2]
    rfl
  · have hf := not_finalized hrun hno
    simp [printStructure, hf]

/-- Four variables (two of them constant), two factors. -/
example : Toy.world.graph.printStructure = .ok ⟨4, 2, 4, 4⟩ := by
  rw [C82_structure_partial.1 Toy.finalizedAfter]
  decide +kernel

namespace C82
/-- The graph of the example, and then a further variable. -/
def ops : List (Op Rat (GenVar Rat)) := ToyOpt.build ++ [.finalize, .addVariable (some 4)]
def world : World Rat (GenVar Rat) := Toy.exec ToyOpt.env ops (World.init C81.heap)
end C82

/-- **C82 is false** of the code for `print_structure()`: a variable added after the finalization is counted among the
variables, but its values are not counted among the values. -/
theorem C82_structure_false : ¬ ∀ (evs : List (Op Rat (GenVar Rat) × Res Unit)) (w : World Rat (GenVar Rat)) report,
    World.Runs (World.init C81.heap) evs w → w.graph.printStructure = .ok report →
    report.values = freeTotal w.heap w.graph.getAllVariables := by
  intro h
  have h1 := h _ _ ⟨4, 2, 4, 4⟩ (Toy.exec_runs ToyOpt.env C82.ops (World.init C81.heap) (by decide +kernel))
    (by decide +kernel)
  revert h1
  decide +kernel

theorem denseAndResidual_ok [LawfulVar F V] {h : Heap V} {g : Graph F V} {env : Env F V} {good : Nat → List (Mat F) → Prop}
    (hr : Ready good h g) (hl : Layout h g) (segs : List (List F)) (hlen : segs.length = g.facs.length)
    (hseg : ∀ (k : Nat) f, g.facs[k]? = some f → ∃ s, segs[k]? = some s ∧ f.computeResidual h = .ok s ∧
      s.length = f.residualSize) (blocks : Nat → List (Mat F))
    (hblocks : ∀ (k : Nat) f, g.facs[k]? = some f → f.computeJacobians h [] = .ok (blocks k) ∧
      ProperBlocks h f (blocks k)) :
    ∃ J, computeDenseAndResidual env h g =
        ({ g with cachedJac := J, jacValid := true, cachedRes := segs.flatten, resValid := true }, .ok ()) ∧
      J.rows = g.numResiduals ∧ J.cols = g.numValues ∧ IsStackedJacobian h g.varsVec g.facs blocks J.entry := by
  obtain ⟨J, e1, e2, e3, e4⟩ := computeDense_ok (env := env) hr blocks hblocks
  refine ⟨J, ?_, e2, e3, e4⟩
  unfold computeDenseAndResidual
  rw [if_neg (by simp [hl.fin])]
  have hl' : Layout h { g with cachedJac := J, jacValid := true } :=
    hl.kept ⟨rfl, rfl, rfl, rfl, rfl, rfl, rfl, rfl, rfl, fun e => by rw [hl.fin] at e; simp at e⟩ (SameShape.refl h)
  unfold SE.bind
  simp only [e1]
  rw [residual_layout (env := env) hl' segs hlen hseg]
  rfl

/-- **C82**, `print_jacobian_and_residual()`. Under the assumptions of C05 and C06, on a graph with residuals and free
values, it reports the shape of the Jacobian, the norm of the residual, and exactly the columns of the Jacobian with a norm
below `1e-12`. All columns of a free variable that no factor uses are among them, if the scalars know that a zero vector is
short. On a graph without residuals or without free values it runs into undefined behaviour. -/
theorem C82_jacobian_partial [LawfulVar F V] (A : Arith F) {h0 : Heap V} {pre post : List (Op F V × Res Unit)} {w : World F V}
    (hw : FinalizedAfter h0 pre post w) (hpre : NoJacobianYet pre)
    (hid : IdsIdentify w.heap w.graph.getAllVariables w.graph.getAllFactors) (hnr : NoRepeats w.graph.getAllFactors)
    (segs : List (List F)) (hlen : segs.length = w.graph.getAllFactors.length)
    (hseg : ∀ (k : Nat) f, w.graph.getAllFactors[k]? = some f → ∃ s, segs[k]? = some s ∧
      f.computeResidual w.heap = .ok s ∧ s.length = f.residualSize)
    (blocks : Nat → List (Mat F))
    (hblocks : ∀ (k : Nat) f, w.graph.getAllFactors[k]? = some f →
      f.computeJacobians w.heap [] = .ok (blocks k) ∧ ProperBlocks w.heap f (blocks k)) (env : Env F V) :
    (0 < rowTotal w.graph.getAllFactors → 0 < freeTotal w.heap w.graph.getAllVariables →
      ∃ g' report M, printJacobian A env w.heap w.graph = (g', .ok report) ∧
        IsStackedJacobian w.heap w.graph.getAllVariables w.graph.getAllFactors blocks M ∧
        report.rows = rowTotal w.graph.getAllFactors ∧ report.cols = freeTotal w.heap w.graph.getAllVariables ∧
        report.residualNorm = A.norm segs.flatten ∧
        (∀ j, j ∈ report.nearZero ↔ j < report.cols ∧
          A.lt (A.norm ((List.range report.rows).map fun i => M i j)) (A.lit (1 / 10 ^ 12)) = true) ∧
        ((∀ n, A.lt (A.norm (List.replicate n 0)) (A.lit (1 / 10 ^ 12)) = true) →
          ∀ q ∈ w.graph.getAllVariables, VarLike.isConst (w.heap q) = false →
          (∀ f ∈ w.graph.getAllFactors, some q ∉ f.variables) →
          ∀ j, j < VarLike.size (w.heap q) → colStart w.heap w.graph.getAllVariables q + j ∈ report.nearZero)) ∧
    (rowTotal w.graph.getAllFactors = 0 ∨ freeTotal w.heap w.graph.getAllVariables = 0 →
      (printJacobian A env w.heap w.graph).2 = .ub) := by
  have hl := finalizedAfter_layout hw
  have hr := finalizedAfter_ready (good := fun _ _ => True) hw hpre hid hnr (fun _ => trivial)
    (fun _ _ _ _ _ _ _ _ => trivial)
  obtain ⟨J, e1, e2, e3, e4⟩ := denseAndResidual_ok (env := env) hr hl segs hlen hseg blocks hblocks
  have hrows : J.rows = rowTotal w.graph.getAllFactors := e2.trans (C03_rows hw).1
  have hcols : J.cols = freeTotal w.heap w.graph.getAllVariables := e3.trans (C02_columns hw).1
  have hrun : printJacobian A env w.heap w.graph =
      (if J.isEmpty then SE.undefined else SE.ret {
        rows := J.rows
        cols := J.cols
        nearZero := (List.range J.cols).filter fun j => A.lt (A.norm (J.column j)) (A.lit (1 / 10 ^ 12))
        residualNorm := A.norm segs.flatten } : SE (Graph F V) (JacobianReport F))
      { w.graph with cachedJac := J, jacValid := true, cachedRes := segs.flatten, resValid := true } := by
    unfold printJacobian
    rw [SE.bind_ok e1, SE.bind_get]
    rfl
  rw [hrun]
  refine ⟨fun h1 h2 => ?_, fun h => ?_⟩
  · have hne : J.isEmpty = false := by
      simp only [Mat.isEmpty, Bool.or_eq_false_iff, beq_eq_false_iff_ne, ne_eq, hrows, hcols]
      omega
    rw [if_neg (by simp [hne])]
    have hmem : ∀ j, j ∈ (List.range J.cols).filter (fun j => A.lt (A.norm (J.column j)) (A.lit (1 / 10 ^ 12))) ↔
        j < J.cols ∧ A.lt (A.norm ((List.range J.rows).map fun i => J.entry i j)) (A.lit (1 / 10 ^ 12)) = true := by
      intro j
      rw [List.mem_filter, List.mem_range]
      rfl
    refine ⟨_, _, J.entry, rfl, e4, hrows, hcols, rfl, hmem, ?_⟩
    intro hz q hq hc hun j hj
    refine (hmem _).mpr ⟨?_, ?_⟩
    · have := colStart_le w.heap hq
      rw [freeSize, hc] at this
      rw [hcols]
      simp only [Bool.false_eq_true, if_false] at this
      omega
    · have : (List.range J.rows).map (fun i => J.entry i (colStart w.heap w.graph.getAllVariables q + j)) =
          List.replicate J.rows 0 := by
        rw [List.eq_replicate_iff]
        refine ⟨by simp, fun x hx => ?_⟩
        obtain ⟨i, hi, rfl⟩ := List.mem_map.mp hx
        rw [List.mem_range, hrows] at hi
        obtain ⟨k, f, i', hk, hi', rfl⟩ := exists_row hi
        exact (e4 k f hk i' hi').2 q hq hc (hun f (List.mem_of_getElem? hk)) j hj
      rw [this]
      exact hz _
  · have he : J.isEmpty = true := by
      simp only [Mat.isEmpty, Bool.or_eq_true, beq_iff_eq, hrows, hcols]
      exact h
    rw [if_pos he]
    rfl

namespace C82
/-- A graph with a variable that no factor uses. -/
def idleBuild : List (Op Rat (GenVar Rat)) :=
  [.addVariable (some 0), .addVariable (some 4), .addFactor (some (genericPrior 10 0 [4, 4] 2)),
    .addFactor (some (genericPrior 11 0 [4, 4] 2))]
def idle : World Rat (GenVar Rat) := Toy.exec ToyOpt.env (idleBuild ++ .finalize :: []) (World.init C81.heap)
theorem idle_outcomes : Toy.outcomes ToyOpt.env (idleBuild ++ .finalize :: []) (World.init C81.heap) =
    [.ok (), .ok (), .ok (), .ok (), .ok ()] := by decide +kernel
theorem idle_finalized : FinalizedAfter C81.heap
    (idleBuild.zip (Toy.outcomes ToyOpt.env idleBuild (World.init C81.heap))) [] ⟨idle.heap, idle.graph⟩ := by
  apply ToyOpt.finalizedAfter_of
  have := Toy.exec_finalizedAfter ToyOpt.env C81.heap idleBuild [] (by decide +kernel) (by decide +kernel) (by simp)
  rw [List.zip_nil_left] at this
  exact this
theorem idle_facs : idle.graph.getAllFactors = [genericPrior 10 0 [4, 4] 2, genericPrior 11 0 [4, 4] 2] := by
  have h := (lists_runs (Toy.exec_runs ToyOpt.env (idleBuild ++ .finalize :: []) (World.init C81.heap)
    (by rw [idle_outcomes]; decide)) (Hist.init C81.heap) _ (fun _ => rfl)).2
  rw [idle_outcomes] at h
  exact h
theorem idle_vars : idle.graph.getAllVariables = [0, 4] := by decide +kernel
attribute [irreducible] idle
theorem idle_heap : (VarLike.id (idle.heap 0), VarLike.isConst (idle.heap 0), VarLike.size (idle.heap 0)) = (1, false, 2) ∧
    (VarLike.id (idle.heap 4), VarLike.isConst (idle.heap 4), VarLike.size (idle.heap 4)) = (5, false, 1) ∧
    VarLike.value (idle.heap 0) = [5, 7] := by decide +kernel
end C82

/-- The graph has two free variables, the second of which is not used. -/
example : ∃ g' report, printJacobian ToyOpt.rat ToyOpt.env C82.idle.heap C82.idle.graph = (g', .ok report) ∧
    report.rows = 4 ∧ report.cols = 3 ∧ 2 ∈ report.nearZero := by
  obtain ⟨h0, h4, v0⟩ := C82.idle_heap
  simp only [Prod.mk.injEq] at h0 h4
  have hat : ∀ (k : Nat) f, C82.idle.graph.getAllFactors[k]? = some f →
      [[2, 6], [2, 6]][k]? = some [(2 : Rat), 6] ∧ ∃ id, f = genericPrior id 0 [4, 4] 2 := by
    rw [C82.idle_facs]
    intro k f hf
    match k with
    | 0 => exact ⟨rfl, 10, by simpa using hf.symm⟩
    | 1 => exact ⟨rfl, 11, by simpa using hf.symm⟩
    | k + 2 => simp at hf
  have hmem : ∀ f ∈ C82.idle.graph.getAllFactors, ∃ id, f = genericPrior id 0 [4, 4] 2 := by
    intro f hf
    obtain ⟨k, hk⟩ := List.mem_iff_getElem?.mp hf
    exact (hat k f hk).2
  have hrow : rowTotal C82.idle.graph.getAllFactors = 4 := by rw [C82.idle_facs]; rfl
  have hcol : freeTotal C82.idle.heap C82.idle.graph.getAllVariables = 3 := by decide +kernel
  have hstart : colStart C82.idle.heap C82.idle.graph.getAllVariables 4 = 2 := by decide +kernel
  obtain ⟨g', report, M, e1, _, e3, e4, _, _, e7⟩ := (C82_jacobian_partial ToyOpt.rat C82.idle_finalized
    (by simp [NoJacobianYet, C82.idleBuild, Toy.outcomes])
    (by
      intro f hf v hv r hr e
      obtain ⟨_, rfl⟩ := hmem f hf
      obtain rfl : v = 0 := by simpa [genericPrior] using hv
      rw [C82.idle_vars] at hr
      simp only [List.mem_cons, List.not_mem_nil, or_false] at hr
      rcases hr with rfl | rfl
      · rfl
      · rw [h0.1, h4.1] at e; exact absurd e (by decide))
    (by
      intro f hf p q r h1 h2
      obtain ⟨_, rfl⟩ := hmem f hf
      simp only [genericPrior] at h1 h2
      have hp := (List.getElem?_eq_some_iff.mp h1).1
      have hq := (List.getElem?_eq_some_iff.mp h2).1
      simp at hp hq; omega)
    [[2, 6], [2, 6]] (by rw [C82.idle_facs]; rfl)
    (by
      intro k f hf
      obtain ⟨hk, _, rfl⟩ := hat k f hf
      refine ⟨[2, 6], hk, ?_, rfl⟩
      have : (genericPrior 10 0 [4, 4] (2 : Rat)).computeResidual C82.idle.heap = .ok [2, 6] := by decide +kernel
      exact this)
    (fun _ => [Mat.diag 2 2])
    (by
      intro k f hf
      obtain ⟨_, _, rfl⟩ := hat k f hf
      refine ⟨by simp [genericPrior, h0], ?_⟩
      intro p r hp
      match p with
      | 0 =>
        obtain rfl : 0 = r := by simpa [genericPrior] using hp
        exact ⟨Mat.diag 2 2, rfl, by simp [h0], fun _ => ⟨rfl, rfl, by rw [h0.2.2]; rfl⟩⟩
      | p + 1 => simp [genericPrior] at hp)
    ToyOpt.env).1 (by rw [hrow]; decide) (by rw [hcol]; decide)
  refine ⟨g', report, e1, e3.trans hrow, e4.trans hcol, ?_⟩
  have h := e7 (fun n => by
      have : ToyOpt.rat.norm (List.replicate n 0) = ToyOpt.rat.norm [] := by
        simp only [Arith.norm, ToyOpt.rat]
        congr 1
        induction n with
        | zero => rfl
        | succ n ih => simp only [List.replicate_succ, List.map_cons, List.foldr_cons, ih, List.map_nil, List.foldr_nil]; decide +kernel
      rw [this]
      decide +kernel) 4 (by rw [C82.idle_vars]; simp) h4.2.1
    (by
      intro f hf
      obtain ⟨_, rfl⟩ := hmem f hf
      simp [genericPrior]) 0 (by rw [h4.2.2]; decide)
  rw [hstart] at h
  exact h

/-- The whole report; and a graph without variables. -/
example : (printJacobian ToyOpt.rat ToyOpt.env C82.idle.heap C82.idle.graph).2 =
    .ok ⟨4, 3, [2], ToyOpt.rat.norm [2, 6, 2, 6]⟩ := by decide +kernel
example : (printJacobian ToyOpt.rat ToyOpt.env ToyOpt.heap
    (Toy.exec ToyOpt.env [.finalize] (World.init ToyOpt.heap)).graph).2 = .ub := by decide +kernel

/-- **C82**, `print_variables()`: it prints the variables that were added and accepted, in the order in which they were
added, each as it is now. -/
theorem C82_variables [LawfulVar F V] {h0 : Heap V} {evs : List (Op F V × Res Unit)} {w : World F V} (hrun : World.Runs (World.init h0) evs w) :
    printVariables w.heap w.graph = (accepted (fun r => VarLike.id (h0 r)) (offeredVars evs)).map w.heap := by
  have h := (C01_variables hrun).1
  rw [← h]
  rfl

/-- In the toy world four variables are printed; the refused duplicate is not. -/
example : (printVariables Toy.world.heap Toy.world.graph).map VarLike.id = [1, 2, 3, 4] := by
  have h := C82_variables (Toy.exec_runs Toy.env (Toy.build ++ .finalize :: Toy.later) (World.init Toy.heap)
    (by rw [Toy.outcomes_eq]; decide))
  rw [show printVariables Toy.world.heap Toy.world.graph = _ from h, Toy.outcomes_eq]
  decide +kernel

/-- **C82**, `print_all_covariances()`: it has a line for every variable of the graph, in order, which says "constant" for
a constant, and otherwise tells what `estimate_covariance` reports. -/
theorem C82_covariances (A : Arith F) (L : LinAlg F Fact) (s s' : OptWorld F V Fact)
    (lines : List (VRef × CovarianceLine F)) (h : printAllCovariances A L s = (s', .ok lines)) :
    lines.map Prod.fst = s.graph.getAllVariables ∧
    ∀ r line, (r, line) ∈ lines →
      (VarLike.isConst (s.heap r) = true → line = .constant) ∧
      (VarLike.isConst (s.heap r) = false →
        (∃ P, line = .matrix P ∧ estimateCovariance A L s' (some r) = .ok (some P)) ∨
        (line = .invalid ∧ estimateCovariance A L s' (some r) = .ok none)) := by
  have hloop : ∀ (t : OptWorld F V Fact) rs lines, covarianceLines A L t rs = .ok lines →
      lines.map Prod.fst = rs ∧ ∀ r line, (r, line) ∈ lines →
        (VarLike.isConst (t.heap r) = true → line = .constant) ∧
        (VarLike.isConst (t.heap r) = false →
          (∃ P, line = .matrix P ∧ estimateCovariance A L t (some r) = .ok (some P)) ∨
          (line = .invalid ∧ estimateCovariance A L t (some r) = .ok none)) := by
    intro t rs
    induction rs with
    | nil => intro lines h; cases h; exact ⟨rfl, fun r line h => by simp at h⟩
    | cons r rs ih =>
      intro lines h
      unfold covarianceLines at h
      split at h
      · rename_i hc
        split at h
        · rename_i ls hls
          cases h
          obtain ⟨i1, i2⟩ := ih ls hls
          refine ⟨by rw [List.map_cons, i1], fun r' line hm => ?_⟩
          rcases List.mem_cons.mp hm with e | hm
          · cases e
            exact ⟨fun _ => rfl, fun h => by rw [hc] at h; simp at h⟩
          · exact i2 r' line hm
        · simp at h
        · simp at h
      · rename_i hc
        split at h
        · rename_i P hP
          split at h
          · rename_i ls hls
            cases h
            obtain ⟨i1, i2⟩ := ih ls hls
            refine ⟨by rw [List.map_cons, i1], fun r' line hm => ?_⟩
            rcases List.mem_cons.mp hm with e | hm
            · cases e
              refine ⟨fun h => absurd h hc, fun _ => ?_⟩
              cases P with
              | none => exact .inr ⟨rfl, hP⟩
              | some P => exact .inl ⟨P, rfl, hP⟩
            · exact i2 r' line hm
          · simp at h
          · simp at h
        · simp at h
        · simp at h
  have hkeep : ∀ t : OptWorld F V Fact, (prepare A L t).1.heap = t.heap ∧ (prepare A L t).1.graph = t.graph := by
    intro t
    rcases prepare_cases A L t with ⟨_, e⟩ | ⟨_, _, e⟩ | ⟨_, _, ⟨r, _, e⟩ | ⟨J, _, ⟨_, e⟩ | ⟨f, _, e | e⟩⟩⟩ <;> rw [e] <;>
      exact ⟨rfl, rfl⟩
  have hs : s'.heap = s.heap ∧ s'.graph = s.graph := by
    have := (C81_covariances_partial A L s).1
    rw [h] at this
    rw [show s' = (prepare A L s).1 from this]
    exact hkeep s
  have hl : covarianceLines A L s' s'.graph.getAllVariables = .ok lines := by
    unfold printAllCovariances at h
    rw [SE.bind_get] at h
    obtain ⟨t, _, _, h2⟩ := SE.bind_ok_iff.mp h
    rw [SE.bind_get] at h2
    split at h2
    · cases h2
    · have e1 : t = s' := congrArg Prod.fst h2
      have e2 : covarianceLines A L t t.graph.getAllVariables = .ok lines := congrArg Prod.snd h2
      rw [e1] at e2
      exact e2
  obtain ⟨i1, i2⟩ := hloop s' _ lines hl
  rw [hs.2] at i1
  rw [hs.1] at i2
  exact ⟨i1, i2⟩

/-- What is printed for the example: two matrices and a constant. -/
example : ∃ s' lines, printAllCovariances ToyOpt.rat Ldlt.linAlg C29.state = (s', .ok lines) ∧
    lines.map Prod.fst = C29.state.graph.getAllVariables := by
  have hok : (printAllCovariances ToyOpt.rat Ldlt.linAlg C29.state).2.isOk = true := by decide +kernel
  obtain ⟨lines, hl⟩ := ok_of_isOk hok
  exact ⟨_, lines, ok_pair hl, (C82_covariances ToyOpt.rat Ldlt.linAlg C29.state _ lines (ok_pair hl)).1⟩
example : C29.state.graph.getAllVariables = [0, 1, 2] := by decide +kernel

/-- **C82**, `print_all_covariances()` of an optimizer that was never set up is undefined. -/
theorem C82_covariances_undefined (A : Arith F) (L : LinAlg F Fact) (s : OptWorld F V Fact) (hg : s.opt.hasGraph = false)
    (hc : s.opt.complete = false) : printAllCovariances A L s = (s, .ub) := by
  unfold printAllCovariances
  rw [SE.bind_get]
  have hp : prepare A L s = (s, .ok ()) := by
    rcases prepare_cases A L s with ⟨_, e⟩ | ⟨_, _, e⟩ | ⟨_, e, _⟩
    · exact e
    · exact e
    · rw [hc] at e; simp at e
  have : (if s.opt.hessianValid = true then SE.ret () else prepare A L) s = (s, .ok ()) := by
    split
    · rfl
    · exact hp
  rw [SE.bind_ok this, SE.bind_get, if_pos (by simp [hg])]
  rfl

/-- Before any `setup`. -/
example : printAllCovariances ToyOpt.rat Ldlt.linAlg (Opt.init ToyOpt.rat ToyOpt.heap) =
    (Opt.init ToyOpt.rat ToyOpt.heap, .ub) :=
  C82_covariances_undefined ToyOpt.rat Ldlt.linAlg _ rfl rfl

end Factorama.Props
