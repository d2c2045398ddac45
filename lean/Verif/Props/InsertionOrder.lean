import Verif.Lemmas.Order
import Verif.Examples.ToyOptDefined

/-!
# C84: the order of insertion does not matter
-/

namespace Factorama.Props
open Spec Graph Opt
variable {F V Fact : Type} [Zero F] [VarLike F V] [LawfulVar F V]

/-! ### Where it fails -/

namespace C84
/-- Add variables, add factors, finalize. -/
def program (vars : List VRef) (facs : List (Factor Rat (GenVar Rat))) : List (Op Rat (GenVar Rat)) :=
  vars.map (fun r => .addVariable (some r)) ++ facs.map (fun f => .addFactor (some f)) ++ [.finalize]

/-- Two free numbers and a constant. -/
def heap : Heap (GenVar Rat)
  | 0 => ⟨1, false, [5]⟩
  | 1 => ⟨2, false, [1]⟩
  | _ => ⟨3, true, [0]⟩

/-- A very precise prior on one number, a less precise one on the other, and their difference. -/
def facs : List (Factor Rat (GenVar Rat)) :=
  [genericPrior 10 0 [4] (5 * 10 ^ 11), genericPrior 11 1 [4] ((10 ^ 12 - 2) / (2 * 10 ^ 6)), genericBetween 12 0 1 2 1 1]

/-- The graph, built in the given order, and the optimizer on it. -/
def after (vars : List VRef) : OptWorld Rat (GenVar Rat) (Ldlt.Fact Rat) :=
  ToyOpt.start (Toy.exec ToyOpt.env (program vars facs) (World.init heap)) ToyOpt.gn

theorem built (vars : List VRef) (h : Res.ub ∉ Toy.outcomes ToyOpt.env (program vars facs) (World.init heap)) :
    World.Runs (World.init heap) ((program vars facs).zip (Toy.outcomes ToyOpt.env (program vars facs) (World.init heap)))
      ⟨(after vars).heap, (after vars).graph⟩ := Toy.exec_runs ToyOpt.env _ _ h
end C84

/-- **C84 is false** for the order of the variables: the optimizer refuses a problem when the pivots of the factorisation
differ too much, and the pivots depend on the order of the columns. Here a problem with two numbers is solved when they are
added in one order and reported as ill-conditioned, with nothing moved, in the other. Exact arithmetic, elimination in the
order of the columns. -/
theorem C84_variables_false : ¬ ∀ (h0 : Heap (GenVar Rat)) (vars vars' : List VRef) (facs : List (Factor Rat (GenVar Rat)))
    (outs outs' : List (Res Unit)) (s s' : OptWorld Rat (GenVar Rat) (Ldlt.Fact Rat)), vars.Perm vars' →
    World.Runs (World.init h0) ((C84.program vars facs).zip outs) ⟨s.heap, s.graph⟩ →
    World.Runs (World.init h0) ((C84.program vars' facs).zip outs') ⟨s'.heap, s'.graph⟩ → s.opt = s'.opt →
    ∀ env, (optimize ToyOpt.rat Ldlt.linAlg env s).1.opt.stats.status =
      (optimize ToyOpt.rat Ldlt.linAlg env s').1.opt.stats.status := by
  intro H
  have h1 := C84.built [0, 1] (by decide +kernel)
  have h2 := C84.built [1, 0] (by decide +kernel)
  have := H C84.heap [0, 1] [1, 0] C84.facs _ _ (C84.after [0, 1]) (C84.after [1, 0]) (.swap _ _ _) h1 h2 rfl ToyOpt.env
  revert this
  decide +kernel

/-- The two outcomes. -/
theorem C84_variables_witness :
    (optimize ToyOpt.rat Ldlt.linAlg ToyOpt.env (C84.after [0, 1])).1.opt.stats.status = .illConditioned ∧
    ((optimize ToyOpt.rat Ldlt.linAlg ToyOpt.env (C84.after [0, 1])).1.heap 0).value = [5] ∧
    (optimize ToyOpt.rat Ldlt.linAlg ToyOpt.env (C84.after [1, 0])).1.opt.stats.status = .success ∧
    ((optimize ToyOpt.rat Ldlt.linAlg ToyOpt.env (C84.after [1, 0])).1.heap 0).value = [4] := by decide +kernel

/-! ### Where it holds -/

/-- **C84, the part that holds**: two graphs with the same variables, added in the same order, and the same factors, added in
any order. If sums over the rows of the Jacobian do not depend on the order of the rows (exact arithmetic), both
optimizations have the same outcome, the same statistics and the same final variables; and unless a factor threw, the
covariances prepared afterwards are the same too. Hash orders and memory contents may differ as well. -/
theorem C84_factors_partial {A : Arith F} {L : LinAlg F Fact} (hA : RowOrderFree A L) {h0 h0' : Heap V}
    {pre post pre' post' : List (Op F V × Res Unit)} {w w' : World F V} (hw : FinalizedAfter h0 pre post w)
    (hw' : FinalizedAfter h0' pre' post' w') (hpre : NoJacobianYet (pre ++ post)) (hpre' : NoJacobianYet (pre' ++ post'))
    (hheap : w'.heap = w.heap) (hvars : w'.graph.getAllVariables = w.graph.getAllVariables)
    (hfacs : w.graph.getAllFactors.Perm w'.graph.getAllFactors)
    (hid : IdsIdentify w.heap w.graph.getAllVariables w.graph.getAllFactors)
    (hnr : NoRepeats w.graph.getAllFactors) (hsafe : ∀ f ∈ w.graph.getAllFactors, ReuseSafe f)
    (hproper : ∀ h, SameShape w.heap h → ∀ f ∈ w.graph.getAllFactors, ∀ js, f.computeJacobians h [] = .ok js →
      ProperBlocks h f js)
    (hfree : ∃ f ∈ w.graph.getAllFactors, ∃ r, some r ∈ f.variables ∧ VarLike.isConst (w.heap r) = false)
    (o : Optimizer F Fact) (env env' : Env F V) {s s' : OptWorld F V Fact} {x x' : Res Unit}
    (hs : optimize A L env ⟨w.heap, w.graph, o⟩ = (s, x)) (hs' : optimize A L env' ⟨w'.heap, w'.graph, o⟩ = (s', x'))
    (hx : x ≠ .ub) (hx' : x' ≠ .ub) :
    x' = x ∧ s'.heap = s.heap ∧ s'.opt.stats = s.opt.stats ∧ s'.opt.initialStats = s.opt.initialStats ∧
    (x = .ok () → s.opt.stats.status ≠ .failed → ∀ t t' y y', prepare A L s = (t, y) → prepare A L s' = (t', y') →
      y ≠ .ub → y' ≠ .ub → y' = y ∧ ∀ v, estimateCovariance A L t' v = estimateCovariance A L t v) := by
  have buffers : ∀ (facs : List (Factor F V)) (k : Nat) f, facs[k]? = some f → ∀ h buf js, ownBuffers facs k buf →
      f.computeJacobians h buf = .ok js → ownBuffers facs k js := by
    intro facs k f hf h buf js hb hj f' hf'
    obtain rfl : f = f' := Option.some.inj (hf.symm.trans hf')
    exact .out (hb f hf) hj
  have left : ∀ {pre post : List (Op F V × Res Unit)}, NoJacobianYet (pre ++ post) → NoJacobianYet pre :=
    fun h => ⟨fun c => h.1 (by simp [c]), fun c => h.2.1 (by simp [c]), fun c => h.2.2.1 (by simp [c]),
      fun c => h.2.2.2 (by simp [c])⟩
  have sparse : ∀ {h0 : Heap V} {pre post : List (Op F V × Res Unit)} {w : World F V}, FinalizedAfter h0 pre post w →
      NoJacobianYet (pre ++ post) → w.graph.sparseJacobian = .threw := by
    intro h0 pre post w hw hpre
    have hno : NoJacobianYet (pre ++ (.finalize, .ok ()) :: post) := by
      obtain ⟨h1, h2, h3, h4⟩ := hpre
      simp only [List.mem_append, not_or] at h1 h2 h3 h4
      refine ⟨?_, ?_, ?_, ?_⟩ <;> simp only [List.mem_append, List.mem_cons, Prod.mk.injEq, not_or, reduceCtorEq, false_and,
        not_false_eq_true, true_and]
      · exact h1
      · exact h2
      · exact h3
      · exact h4
    simp [sparseJacobian, (no_jacobian hw.1 hno).2]
  have hid' : IdsIdentify w'.heap w'.graph.varsVec w'.graph.facs := by
    rw [hheap, show w'.graph.varsVec = _ from hvars]
    exact fun f hf => hid f (hfacs.mem_iff.2 hf)
  have hsh : Shuffled w.heap w.graph w'.graph :=
    { layout := finalizedAfter_layout hw
      layout' := by rw [← hheap]; exact finalizedAfter_layout hw'
      ready := finalizedAfter_ready hw (left hpre) hid hnr (fun _ _ _ => .nil) (buffers _)
      ready' := by
        rw [← hheap]
        exact finalizedAfter_ready hw' (left hpre') hid' (fun f hf => hnr f (hfacs.mem_iff.2 hf)) (fun _ _ _ => .nil)
          (buffers _)
      vars := hvars
      facs := hfacs
      safe := hsafe
      proper := hproper
      free := hfree }
  have hlaws := shuffled_laws (V := V) hA env env'
  have hrel := Rel.optimize hlaws (P := anyPair) ⟨w.heap, w.graph, o⟩ ⟨w'.heap, w'.graph, o⟩
    ⟨w'.graph, o.residual1, o.residual2, by rw [hheap], ⟨hsh, .inr ⟨sparse hw hpre, sparse hw' hpre'⟩⟩, trivial⟩
  rw [hs, hs'] at hrel
  have fields : ∀ {G : Heap V → Graph F V → Graph F V → Prop}, Twin G anyPair s s' →
      s'.heap = s.heap ∧ s'.opt.stats = s.opt.stats ∧ s'.opt.initialStats = s.opt.initialStats := by
    rintro G ⟨g', a, b, rfl, _⟩
    exact ⟨rfl, rfl, rfl⟩
  cases hrel with
  | left => exact absurd rfl hx
  | right => exact absurd rfl hx'
  | threw h =>
    obtain ⟨h1, h2, h3⟩ := fields h
    exact ⟨rfl, h1, h2, h3, fun e => by cases e⟩
  | ok h =>
    obtain ⟨h1, h2, h3⟩ := fields h.1
    refine ⟨rfl, h1, h2, h3, fun _ hne t t' y y' ht ht' hy hy' => ?_⟩
    have hp := Rel.prepare (A := A) (L := L) (G1 := ShuffledJac L) hlaws.jac s s' (h.2 hne)
    rw [ht, ht'] at hp
    cases hp with
    | left => exact absurd rfl hy
    | right => exact absurd rfl hy'
    | threw hp => exact ⟨rfl, hp.covariance fun hg => hlaws.place hg.1⟩
    | ok hp => exact ⟨rfl, hp.covariance fun hg => hlaws.place hg.1⟩

/-- Elimination in exact arithmetic does not depend on the order of the rows. -/
theorem C84_exact [Add F] [Sub F] [Mul F] [Div F] [Neg F] [DecidableEq F] (hc : ∀ a b : F, a + b = b + a)
    (ha : ∀ a b c : F, a + b + c = a + (b + c)) (A : Arith F)
    (hsq : ∀ r, A.sqNorm r = (r.map fun x => x * x).foldr (· + ·) 0) :
    RowOrderFree A (Ldlt.linAlg : LinAlg F (Ldlt.Fact F)) := by
  have hfold : ∀ {l l' : List F}, l.Perm l' → l.foldr (· + ·) 0 = l'.foldr (· + ·) 0 := by
    intro l l' h
    refine h.foldr_eq' (fun x _ y _ z => ?_) _
    rw [← ha, ← ha, hc y x]
  have hcoeff : ∀ (J : SpMat F) (k i : Nat), ((List.range J.columns.length).map fun c => J.coeff k c)[i]?.getD 0 = J.coeff k i := by
    intro J k i
    by_cases hi : i < J.columns.length
    · simp [hi]
    · simp only [List.getElem?_map, List.getElem?_range, hi, SpMat.coeff]
      rw [List.getElem?_eq_none (by simpa using hi), List.getElem?_eq_none (by simpa using hi)]
      rfl
  refine ⟨fun r r' h => ?_, fun J J' hl h => ?_, fun J J' r r' hl h => ?_⟩
  · rw [hsq, hsq]
    exact hfold (h.map _)
  · have key : ∀ i j, Ldlt.sumTo J.rows (fun k => J.coeff k i * J.coeff k j) =
        Ldlt.sumTo J'.rows (fun k => J'.coeff k i * J'.coeff k j) := by
      intro i j
      have h1 := hfold (h.map fun row => row[i]?.getD 0 * row[j]?.getD 0)
      simp only [rowsOfMat, List.map_map, Function.comp_def, hcoeff] at h1
      exact h1
    show Ldlt.gram J = Ldlt.gram J'
    simp only [Ldlt.gram, hl, key]
  · have key : ∀ i, Ldlt.sumTo J.rows (fun k => J.coeff k i * r[k]?.getD 0) =
        Ldlt.sumTo J'.rows (fun k => J'.coeff k i * r'[k]?.getD 0) := by
      intro i
      have h1 := hfold (h.map fun row => row.1[i]?.getD 0 * row.2)
      simp only [rowsWith, List.map_map, Function.comp_def, hcoeff] at h1
      exact h1
    show Ldlt.rhs J r = Ldlt.rhs J' r'
    simp only [Ldlt.rhs, hl, key]

namespace C84
open ToyOpt
open Toy (exec outcomes exec_runs exec_finalizedAfter)

theorem exact : RowOrderFree rat (Ldlt.linAlg : LinAlg Rat (Ldlt.Fact Rat)) :=
  C84_exact Rat.add_comm Rat.add_assoc rat fun _ => rfl

/-- The example graph with its two factors added in the other order. -/
def build' : List (Op Rat (GenVar Rat)) :=
  [.addVariable (some 0), .addVariable (some 1), .addFactor ToyOpt.facs[1]?, .addFactor ToyOpt.facs[0]?, .addVariable (some 2)]

def world' : World Rat (GenVar Rat) := exec env (build' ++ .finalize :: []) (World.init ToyOpt.heap)

theorem finalized' : FinalizedAfter ToyOpt.heap (build'.zip (outcomes env build' (World.init ToyOpt.heap))) [] world' := by
  have := exec_finalizedAfter env ToyOpt.heap build' [] (by decide +kernel) (by decide +kernel) (by simp)
  rw [List.zip_nil_left] at this
  exact this

theorem noJacobian' : NoJacobianYet (build'.zip (outcomes env build' (World.init ToyOpt.heap)) ++ []) := by
  rw [List.append_nil]
  have hb : ∀ op ∈ build', op ≠ .dense ∧ op ≠ .denseAndResidual ∧ op ≠ .sparse := by
    intro op hop
    simp only [build', List.mem_cons, List.not_mem_nil, or_false] at hop
    rcases hop with h | h | h | h | h <;> subst h <;> simp
  refine ⟨fun h => ?_, fun h => ?_, fun h => ?_, fun h => ?_⟩
  · exact (hb _ (List.of_mem_zip h).1).1 rfl
  · exact (hb _ (List.of_mem_zip h).1).2.1 rfl
  · exact (hb _ (List.of_mem_zip h).1).2.1 rfl
  · exact (hb _ (List.of_mem_zip h).1).2.2 rfl

theorem lists' : world'.graph.getAllFactors = [genericBetween 11 0 1 2 2 3, genericPrior 10 0 [4, 4] 2] := by
  have ho : outcomes env (build' ++ .finalize :: []) (World.init ToyOpt.heap) =
      [.ok (), .ok (), .ok (), .ok (), .ok (), .ok ()] := by decide +kernel
  have h := (lists_runs (exec_runs env (build' ++ .finalize :: []) (World.init ToyOpt.heap)
    (by rw [ho]; decide)) (Hist.init ToyOpt.heap) _ (fun _ => rfl)).2
  rw [ho] at h
  exact h

theorem vars' : world'.graph.getAllVariables = [0, 1, 2] := by decide +kernel

/-- Building a graph does not change the variables. -/
theorem exec_heap (ops : List (Op Rat (GenVar Rat))) (hops : ∀ op ∈ ops, (∃ v, op = .addVariable v) ∨ (∃ f, op = .addFactor f) ∨
    op = .finalize) (w : World Rat (GenVar Rat)) : (exec env ops w).heap = w.heap := by
  induction ops generalizing w with
  | nil => rfl
  | cons op ops ih =>
    have h1 : (World.step env op w).1.heap = w.heap := by
      rcases hops op (by simp) with ⟨v, rfl⟩ | ⟨f, rfl⟩ | rfl <;> rfl
    exact (ih (fun op h => hops op (by simp [h])) _).trans h1

theorem heaps : world'.heap = ToyOpt.world.heap := by
  unfold world' ToyOpt.world
  rw [exec_heap, exec_heap]
  · intro op h
    simp only [build, List.cons_append, List.nil_append, List.mem_cons, List.not_mem_nil, or_false] at h
    rcases h with rfl | rfl | rfl | rfl | rfl | rfl <;> simp
  · intro op h
    simp only [build', List.cons_append, List.nil_append, List.mem_cons, List.not_mem_nil, or_false] at h
    rcases h with rfl | rfl | rfl | rfl | rfl | rfl <;> simp

theorem perm : ToyOpt.world.graph.getAllFactors.Perm world'.graph.getAllFactors := by
  rw [ToyOpt.facs_eq, lists']
  exact .swap _ _ _

theorem free : ∃ f ∈ ToyOpt.world.graph.getAllFactors, ∃ r, some r ∈ f.variables ∧
    VarLike.isConst (ToyOpt.world.heap r) = false := by
  rw [ToyOpt.facs_eq]
  exact ⟨_, List.mem_cons_self, 0, by simp [genericPrior], by decide +kernel⟩

attribute [irreducible] world'

/-- The optimizer before the run. -/
def o : Optimizer Rat (Ldlt.Fact Rat) := { Optimizer.init rat with hasGraph := true, settings := lm }

theorem defined : (optimize rat Ldlt.linAlg env ⟨ToyOpt.world.heap, ToyOpt.world.graph, o⟩).2 ≠ .ub ∧
    (optimize rat Ldlt.linAlg env ⟨world'.heap, world'.graph, o⟩).2 ≠ .ub := by decide +kernel
end C84

/-- The hypotheses are met by the example graph and the same graph with its factors added in the other order, optimized with
Levenberg-Marquardt. -/
example {s s' : OptWorld Rat (GenVar Rat) (Ldlt.Fact Rat)} {x x' : Res Unit}
    (hs : optimize ToyOpt.rat Ldlt.linAlg ToyOpt.env ⟨ToyOpt.world.heap, ToyOpt.world.graph, C84.o⟩ = (s, x))
    (hs' : optimize ToyOpt.rat Ldlt.linAlg ToyOpt.env ⟨C84.world'.heap, C84.world'.graph, C84.o⟩ = (s', x')) :=
  C84_factors_partial C84.exact ToyOpt.finalizedAfter C84.finalized' (by rw [List.append_nil]; exact ToyOpt.noJacobianYet)
    C84.noJacobian' C84.heaps (C84.vars'.trans ToyOpt.vars_eq.symm) C84.perm ToyOpt.identify ToyOpt.noRepeats
    ToyOpt.reuseSafe ToyOpt.proper C84.free C84.o ToyOpt.env ToyOpt.env hs hs'
    (by have := C84.defined.1; rwa [hs] at this) (by have := C84.defined.2; rwa [hs'] at this)

/-- The residuals of the two graphs are different vectors. -/
example : (computeResidual ToyOpt.env ToyOpt.world.heap ToyOpt.world.graph).2 = .ok [2, 6, -12, -21] ∧
    (computeResidual ToyOpt.env C84.world'.heap C84.world'.graph).2 = .ok [-12, -21, 2, 6] := by decide +kernel

end Factorama.Props
