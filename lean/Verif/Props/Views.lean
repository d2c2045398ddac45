import Verif.Lemmas.Views
import Verif.Examples.ToyOpt
import Verif.Props.Printing

/-!
# C101: arrays handed out keep their numbers
-/

namespace Factorama.Props
open Spec Graph Opt Views
variable {F V Fact : Type} [Zero F] [VarLike F V] [LawfulVar F V]

/-! ### Where it fails -/

namespace C101
/-- The graph of the example is built, finalized and evaluated. -/
def ready : List (Call Rat (GenVar Rat)) :=
  (ToyOpt.build ++ [Op.finalize]).map .user ++ [.setup true ToyOpt.gn, .user .residual]

/-- A program with an array in hand. -/
def follow : List (Call Rat (GenVar Rat)) → OptWorld Rat (GenVar Rat) (Ldlt.Fact Rat) × Arr →
    OptWorld Rat (GenVar Rat) (Ldlt.Fact Rat) × Arr
  | [], s => s
  | c :: cs, s => follow cs ((step ToyOpt.rat Ldlt.linAlg ToyOpt.env c s.1).1,
      s.2.after s.1 (step ToyOpt.rat Ldlt.linAlg ToyOpt.env c s.1).1)

theorem follow_runs (cs : List (Call Rat (GenVar Rat))) : ∀ (s : OptWorld Rat (GenVar Rat) (Ldlt.Fact Rat)) (a : Arr),
    Res.ub ∉ ToyOpt.callOutcomes cs s →
    Views.Runs ToyOpt.rat Ldlt.linAlg (s, a) (cs.zip (ToyOpt.callOutcomes cs s)) (follow cs (s, a)) := by
  induction cs with
  | nil => exact fun s a _ => .nil _
  | cons c cs ih =>
    intro s a h
    simp only [ToyOpt.callOutcomes, List.mem_cons, not_or] at h
    exact .cons ToyOpt.env rfl (fun e => h.1 e.symm) (ih _ _ h.2)

def start := ToyOpt.execCalls ready (Opt.init ToyOpt.rat ToyOpt.heap)
def later : List (Call Rat (GenVar Rat)) := [.optimize, .user .residual]
/-- A third factor is added. -/
def grown : List (Call Rat (GenVar Rat)) :=
  [.user (.addFactor (some (genericPrior 12 1 [0, 0] 1))), .user .finalize, .user .residual]
end C101

/-- **C101 is false** of the values of variables: `x0 = variable.value()`, then `optimize()`; `x0` is not what it was. -/
theorem C101_value_false : ¬ ∀ (h0 : Heap (GenVar Rat)) (pre post : List (Call Rat (GenVar Rat) × Res Unit))
    (s : OptWorld Rat (GenVar Rat) (Ldlt.Fact Rat)) (r : VRef) t,
    Opt.Runs ToyOpt.rat Ldlt.linAlg (Opt.init ToyOpt.rat h0) pre s →
    Views.Runs ToyOpt.rat Ldlt.linAlg (s, ⟨.value r, true⟩) post t →
    t.2.read t.1 = .ok (VarLike.value (s.heap r)) := by
  intro H
  have := H ToyOpt.heap _ _ C101.start 1 _ (ToyOpt.execCalls_runs C101.ready _ (by decide +kernel))
    (C101.follow_runs [.optimize] _ _ (by decide +kernel))
  exact absurd this (by decide +kernel)

/-- **C101 is false** of residuals: `r0 = graph.compute_full_residual_vector()`, then `optimize()`, then
`r1 = graph.compute_full_residual_vector()`; `r0` is not what it was. -/
theorem C101_residual_false : ¬ ∀ (h0 : Heap (GenVar Rat)) (pre post : List (Call Rat (GenVar Rat) × Res Unit))
    (s : OptWorld Rat (GenVar Rat) (Ldlt.Fact Rat)) t,
    Opt.Runs ToyOpt.rat Ldlt.linAlg (Opt.init ToyOpt.rat h0) (pre ++ [(.user .residual, .ok ())]) s →
    Views.Runs ToyOpt.rat Ldlt.linAlg (s, ⟨.residual, true⟩) post t →
    t.2.read t.1 = .ok s.graph.cachedRes := by
  intro H
  have hr := ToyOpt.execCalls_runs C101.ready (Opt.init ToyOpt.rat ToyOpt.heap) (by decide +kernel)
  have e : C101.ready.zip (ToyOpt.callOutcomes C101.ready (Opt.init ToyOpt.rat ToyOpt.heap)) =
      ((ToyOpt.build ++ [Op.finalize]).map Call.user ++ [.setup true ToyOpt.gn]).zip
        (List.replicate 7 (.ok ())) ++ [(.user .residual, .ok ())] := by
    have : ToyOpt.callOutcomes C101.ready (Opt.init ToyOpt.rat ToyOpt.heap) = List.replicate 8 (.ok ()) := by
      decide +kernel
    rw [this]
    rfl
  rw [e] at hr
  have := H ToyOpt.heap _ _ C101.start _ hr (C101.follow_runs C101.later _ _ (by decide +kernel))
  exact absurd this (by decide +kernel)

/-- An array may even outlive its memory: a factor is added, and the residuals are evaluated again. Reading the array is then
undefined behaviour, although every call returned. -/
theorem C101_defined_false : ¬ ∀ (h0 : Heap (GenVar Rat)) (pre post : List (Call Rat (GenVar Rat) × Res Unit))
    (s : OptWorld Rat (GenVar Rat) (Ldlt.Fact Rat)) t,
    Opt.Runs ToyOpt.rat Ldlt.linAlg (Opt.init ToyOpt.rat h0) pre s →
    Views.Runs ToyOpt.rat Ldlt.linAlg (s, ⟨.residual, true⟩) post t → (∀ ev ∈ post, ev.2 = .ok ()) →
    t.2.read t.1 ≠ .ub := by
  intro H
  have ho : ToyOpt.callOutcomes C101.grown C101.start = [.ok (), .ok (), .ok ()] := by decide +kernel
  have hr := C101.follow_runs C101.grown C101.start ⟨.residual, true⟩ (by rw [ho]; decide)
  rw [ho] at hr
  have := H ToyOpt.heap _ _ C101.start _ (ToyOpt.execCalls_runs C101.ready _ (by decide +kernel)) hr
    (by simp [C101.grown])
  exact absurd this (by decide +kernel)

/-! ### Where it holds -/

/-- **C101, the part that holds, for values**: an array from `variable.value()` keeps its numbers as long as no call may
write the variable. -/
theorem C101_value_partial {A : Arith F} {L : LinAlg F Fact} {s : OptWorld F V Fact} {r : VRef} {live : Bool}
    {evs : List (Call F V × Res Unit)} {t : OptWorld F V Fact × Arr} (hrun : Views.Runs A L (s, ⟨.value r, live⟩) evs t)
    (hw : ∀ ev ∈ evs, writes r ev.1 = false) : t.2.read t.1 = (⟨.value r, live⟩ : Arr).read s := by
  generalize e : (s, (⟨.value r, live⟩ : Arr)) = p at hrun
  induction hrun generalizing s live with
  | nil p => subst e; rfl
  | @cons s0 s1 a t c evs o env hs _ _ ih =>
    simp only [Prod.mk.injEq] at e
    obtain ⟨rfl, rfl⟩ := e
    have h1 := value_call (A := A) (L := L) (env := env) (s := s) (hw (c, o) (by simp))
    rw [hs] at h1
    dsimp only at h1
    have h2 : (⟨.value r, live⟩ : Arr).after s s1 = ⟨.value r, live⟩ := by simp [Arr.after, member, h1]
    rw [h2] at ih
    rw [ih (fun ev h => hw ev (by simp [h])) rfl]
    simp [Arr.read, member, h1]

/-- The value of the first variable is kept while the other is set and the graph is evaluated. -/
example : (C101.follow [.user (.setValue 1 [8, 9]), .user .residual, .prepare] (C101.start, ⟨.value 0, true⟩)).2.read
    (C101.follow [.user (.setValue 1 [8, 9]), .user .residual, .prepare] (C101.start, ⟨.value 0, true⟩)).1 =
    (⟨.value 0, true⟩ : Arr).read C101.start :=
  C101_value_partial (C101.follow_runs _ _ _ (by decide +kernel)) (by
    intro ev h
    have := List.of_mem_zip h
    simp at this
    rcases this.1 with h | h | h <;> rw [h] <;> rfl)

/-- **C101, the part that holds, for residuals**: an array from `compute_full_residual_vector()` keeps its numbers as long
as the residuals are not evaluated into the graph again, neither by a call for them nor by `optimize()`, and the graph is not
copied over. -/
theorem C101_residual_partial {A : Arith F} {L : LinAlg F Fact} {s : OptWorld F V Fact} {live : Bool}
    {evs : List (Call F V × Res Unit)} {t : OptWorld F V Fact × Arr} (hrun : Views.Runs A L (s, ⟨.residual, live⟩) evs t)
    (hw : ∀ ev ∈ evs, renews ev.1 = false) : t.2.read t.1 = (⟨.residual, live⟩ : Arr).read s := by
  generalize e : (s, (⟨.residual, live⟩ : Arr)) = p at hrun
  induction hrun generalizing s live with
  | nil p => subst e; rfl
  | @cons s0 s1 a t c evs o env hs _ _ ih =>
    simp only [Prod.mk.injEq] at e
    obtain ⟨rfl, rfl⟩ := e
    have h1 := cachedRes_call (A := A) (L := L) (env := env) (s := s) (hw (c, o) (by simp))
    rw [hs] at h1
    dsimp only at h1
    have h2 : (⟨.residual, live⟩ : Arr).after s s1 = ⟨.residual, live⟩ := by simp [Arr.after, member, h1]
    rw [h2] at ih
    rw [ih (fun ev h => hw ev (by simp [h])) rfl]
    simp [Arr.read, member, h1]

/-- The residuals are kept while values are set and Jacobians are evaluated. -/
example : (C101.follow [.user (.setValue 1 [8, 9]), .user .dense, .user .sparse] (C101.start, ⟨.residual, true⟩)).2.read
    (C101.follow [.user (.setValue 1 [8, 9]), .user .dense, .user .sparse] (C101.start, ⟨.residual, true⟩)).1 =
    .ok [2, 6, -12, -21] :=
  (C101_residual_partial (C101.follow_runs _ _ _ (by decide +kernel)) (by
    intro ev h
    have := List.of_mem_zip h
    simp at this
    rcases this.1 with h | h | h <;> rw [h] <;> rfl)).trans (by decide +kernel)

/-- **C101, what happens otherwise**: let the residuals be evaluated (the array is taken from this call), then let any calls
follow that do not change the structure of the graph, and let the residuals be evaluated again. Then the first array shows
what the second call returns. -/
theorem C101_current_partial {A : Arith F} {L : LinAlg F Fact} {env env' : Env F V} {s s1 s3 : OptWorld F V Fact}
    {evs : List (Call F V × Res Unit)} {s2 : OptWorld F V Fact × Arr}
    (h1 : step A L env (.user .residual) s = (s1, .ok ()))
    (hrun : Views.Runs A L (s1, ⟨.residual, true⟩) evs s2) (hc : ∀ ev ∈ evs, ¬ changesStructure ev.1)
    (h3 : step A L env' (.user .residual) s2.1 = (s3, .ok ())) :
    ∃ r, (Graph.computeResidual env' s2.1.heap s2.1.graph).2 = .ok r ∧ (s2.2.after s2.1 s3).read s3 = .ok r := by
  have full : FullLength s1.graph := by
    simp only [step, World.step, World.onGraph, Prod.mk.injEq] at h1
    obtain ⟨rfl, h1⟩ := h1
    have hf : s.graph.finalized = true := by
      cases hf : s.graph.finalized with
      | true => rfl
      | false => simp [computeResidual, hf, Res.void] at h1
    have hk := computeResidual_kept env s.heap s.graph
    exact ⟨hk.finalized.trans hf, (residual_length env s.heap s.graph hf).trans hk.numResiduals.symm⟩
  clear h1
  have key : s2.2 = ⟨.residual, true⟩ ∧ FullLength s2.1.graph := by
    clear h3
    generalize e : (s1, (⟨.residual, true⟩ : Arr)) = p at hrun
    induction hrun generalizing s1 with
    | nil p => subst e; exact ⟨rfl, full⟩
    | @cons s0 s1' a t c evs o env hs hne _ ih =>
      simp only [Prod.mk.injEq] at e
      obtain ⟨rfl, rfl⟩ := e
      obtain ⟨es, hv, hr⟩ := reach_call (hc (c, o) (by simp)) hs hne
      have f1 : FullLength s1'.graph := full.runs (w := OptWorld.world s1) (w' := OptWorld.world s1') hr hv
      have hk := (kept_call (hc (c, o) (by simp)) hs hne).1
      refine ih (fun ev h => hc ev (by simp [h])) f1 ?_
      simp [Arr.after, member, full.2, f1.2, hk.numResiduals]
  obtain ⟨ka, kf⟩ := key
  simp only [step, World.step, World.onGraph, Prod.mk.injEq] at h3
  obtain ⟨rfl, h3⟩ := h3
  have hl := residual_length env' s2.1.heap s2.1.graph kf.1
  rw [ka]
  have hm : (computeResidual env' s2.1.heap s2.1.graph).2 = .ok (computeResidual env' s2.1.heap s2.1.graph).1.cachedRes := by
    revert h3
    unfold computeResidual
    split
    · simp [Res.void]
    · simp only
      split <;> simp [Res.void]
  refine ⟨_, hm, ?_⟩
  simp [Arr.after, Arr.read, member, kf.2, hl]

namespace C101
def before := ToyOpt.execCalls (ready.take 7) (Opt.init ToyOpt.rat ToyOpt.heap)
def first := (step ToyOpt.rat Ldlt.linAlg ToyOpt.env (.user .residual) before).1
def middle := follow [.optimize] (first, ⟨.residual, true⟩)
def last := (step ToyOpt.rat Ldlt.linAlg ToyOpt.env (.user .residual) middle.1).1
theorem outcome_eq : ToyOpt.callOutcomes [.optimize] first = [.ok ()] := by decide +kernel
theorem evaluated : step ToyOpt.rat Ldlt.linAlg ToyOpt.env (.user .residual) before = (first, .ok ()) := by
  have h : (step ToyOpt.rat Ldlt.linAlg ToyOpt.env (.user .residual) before).2 = .ok () := by decide +kernel
  exact ok_pair h
theorem middle_runs : Views.Runs ToyOpt.rat Ldlt.linAlg (first, ⟨.residual, true⟩) [(.optimize, .ok ())] middle := by
  have := follow_runs [.optimize] first ⟨.residual, true⟩ (by rw [outcome_eq]; decide)
  rw [outcome_eq] at this
  exact this
theorem again : step ToyOpt.rat Ldlt.linAlg ToyOpt.env (.user .residual) middle.1 = (last, .ok ()) := by
  have h : (step ToyOpt.rat Ldlt.linAlg ToyOpt.env (.user .residual) middle.1).2 = .ok () := by decide +kernel
  exact ok_pair h
attribute [irreducible] before first middle last
end C101

/-- In the example: the array taken before `optimize()` shows the residuals after it. -/
example : ∃ r, (computeResidual ToyOpt.env C101.middle.1.heap C101.middle.1.graph).2 = .ok r ∧
    (C101.middle.2.after C101.middle.1 C101.last).read C101.last = .ok r :=
  C101_current_partial C101.evaluated C101.middle_runs (by simp [changesStructure]) C101.again

end Factorama.Props
