import Verif.Spec.Views
import Verif.Lemmas.Determined
import Verif.Lemmas.Lists
import Verif.Lemmas.OptHistory

/-!
# Which calls write the memory behind arrays
-/

namespace Factorama
open Spec Graph Opt
variable {F V Fact : Type} [Zero F] [VarLike F V] [LawfulVar F V]

omit [LawfulVar F V] in
theorem computeSparse_cachedRes (h : Heap V) (g : Graph F V) : (computeSparse h g).1.cachedRes = g.cachedRes :=
  congrArg (fun p => p.1.cachedRes) (computeSparse_dress g.cachedRes g.cachedJac h g)

omit [LawfulVar F V] in
theorem computeDense_cachedRes (env : Env F V) (h : Heap V) (g : Graph F V) :
    (computeDense env h g).1.cachedRes = g.cachedRes := by
  unfold computeDense
  split
  · rfl
  · simp only
    split <;> rfl

omit [LawfulVar F V] in
theorem prepare_same (A : Arith F) (L : LinAlg F Fact) (s : OptWorld F V Fact) :
    (prepare A L s).1.heap = s.heap ∧ (prepare A L s).1.graph = s.graph := by
  rcases prepare_cases A L s with ⟨_, e⟩ | ⟨_, _, e⟩ | ⟨_, _, ⟨_, _, e⟩ | ⟨_, _, ⟨_, e⟩ | ⟨_, _, e | e⟩⟩⟩ <;> rw [e] <;>
    exact ⟨rfl, rfl⟩

omit [LawfulVar F V] in
/-- Other calls leave the residual vector of the graph alone. -/
theorem cachedRes_call {A : Arith F} {L : LinAlg F Fact} {env : Env F V} {c : Call F V} {s : OptWorld F V Fact}
    (hc : renews c = false) : (step A L env c s).1.graph.cachedRes = s.graph.cachedRes := by
  cases c with
  | optimize => simp [renews] at hc
  | setup _ _ => rfl
  | prepare => exact congrArg Graph.cachedRes (prepare_same A L s).2
  | user op =>
    show (World.step env op ⟨s.heap, s.graph⟩).1.graph.cachedRes = _
    cases op with
    | residual => simp [renews] at hc
    | denseAndResidual => simp [renews] at hc
    | copy => simp [renews] at hc
    | addVariable p =>
      cases p with
      | none => rfl
      | some r => simp only [World.step, World.onGraph, Graph.addVariable]; split <;> rfl
    | addFactor p =>
      cases p with
      | none => rfl
      | some r => simp only [World.step, World.onGraph, Graph.addFactor]; split <;> rfl
    | finalize =>
      by_cases hw : WellPosed s.heap s.graph.varsVec s.graph.facs
      · obtain ⟨g', e, _, _, _, _, _, _, _, hg, _⟩ := finalize_ok hw
        simp only [World.step, World.onGraph, e]
        exact hg
      · obtain ⟨g', e, _, _, _, _, _, _, _, hg, _⟩ := finalize_threw hw
        simp only [World.step, World.onGraph, e]
        exact hg
    | dense => exact computeDense_cachedRes env s.heap s.graph
    | sparse => exact computeSparse_cachedRes s.heap s.graph
    | setConstant _ _ => rfl
    | setValue _ _ => rfl
    | incrOne _ _ => rfl
    | setVector _ => rfl
    | applyIncrement _ => rfl
    | residualInto _ => rfl

omit [LawfulVar F V] in
theorem mutate_other {q r : VRef} (hq : q ≠ r) (f : V → Res V) (h : Heap V) : (mutate q f h).1 r = h r := by
  unfold mutate
  cases f (h q) with
  | ok v => simp [Heap.set, Ne.symm hq]
  | threw => rfl
  | ub => rfl

omit [LawfulVar F V] in
/-- Other calls leave a variable alone. -/
theorem value_call {A : Arith F} {L : LinAlg F Fact} {env : Env F V} {c : Call F V} {s : OptWorld F V Fact} {r : VRef}
    (hc : writes r c = false) : (step A L env c s).1.heap r = s.heap r := by
  cases c with
  | optimize => simp [writes] at hc
  | setup _ _ => rfl
  | prepare => exact congrFun (prepare_same A L s).1 r
  | user op =>
    show (World.step env op ⟨s.heap, s.graph⟩).1.heap r = _
    cases op with
    | setValue q x => exact mutate_other (by simpa [writes] using hc) _ _
    | incrOne q x => exact mutate_other (by simpa [writes] using hc) _ _
    | setConstant q x =>
      exact mutate_other (by simpa [writes] using hc) (fun v => .ok (VarLike.setConst v x)) s.heap
    | setVector _ => simp [writes] at hc
    | applyIncrement _ => simp [writes] at hc
    | _ => rfl

omit [LawfulVar F V] in
/-- The residual vector of the graph has its full length from the first evaluation on. -/
theorem residual_length (env : Env F V) (h : Heap V) (g : Graph F V) (hf : g.finalized = true) :
    (computeResidual env h g).1.cachedRes.length = g.numResiduals := by
  have hbuf : (computeResidualInto env g h (if g.resValid then g.cachedRes else List.replicate g.numResiduals 0)).1.length
      = g.numResiduals := by
    unfold computeResidualInto
    simp only [hf, Bool.not_true, Bool.false_eq_true, if_false, SE.bind_modify]
    rw [residualLoop_length]
    exact resizeTo_length env _ _
  unfold computeResidual
  rw [if_neg (by simp [hf])]
  simp only
  split
  all_goals
    rename_i buf heq
    rw [heq] at hbuf
    exact hbuf

/-- Evaluated, with the present structure. -/
def FullLength (g : Graph F V) : Prop := g.finalized = true ∧ g.cachedRes.length = g.numResiduals

theorem FullLength.step {env : Env F V} {op : Op F V} {w : World F V} (hop : op.isValueOp) (hw : FullLength w.graph) :
    FullLength (World.step env op w).1.graph := by
  have hk := (kept_step (env := env) (w := w) hop).1
  refine ⟨hk.finalized.trans hw.1, ?_⟩
  rw [hk.numResiduals, ← hw.2]
  cases op with
  | addVariable _ => exact absurd hop (by simp [Op.isValueOp])
  | addFactor _ => exact absurd hop (by simp [Op.isValueOp])
  | finalize => exact absurd hop (by simp [Op.isValueOp])
  | setConstant _ _ => exact absurd hop (by simp [Op.isValueOp])
  | residual => exact (residual_length env w.heap w.graph hw.1).trans hw.2.symm
  | denseAndResidual =>
    have hd := computeDense_cachedRes env w.heap w.graph
    have hdk := computeDense_kept env w.heap w.graph
    simp only [World.step, World.onGraph, computeDenseAndResidual, hw.1, Bool.not_true, Bool.false_eq_true, if_false]
    rcases e : computeDense env w.heap w.graph with ⟨g1, r1⟩
    rw [e] at hd hdk
    cases r1 with
    | ok a =>
      rw [SE.bind_ok e]
      have h2 := residual_length env w.heap g1 (hdk.finalized.trans hw.1)
      rcases e2 : computeResidual env w.heap g1 with ⟨g2, r2⟩
      rw [e2] at h2
      have : g2.cachedRes.length = w.graph.cachedRes.length := h2.trans (hdk.numResiduals.trans hw.2.symm)
      cases r2 with
      | ok a => rw [SE.bind_ok e2]; exact this
      | threw => rw [SE.bind_threw e2]; exact this
      | ub => rw [SE.bind_ub e2]; exact this
    | threw => rw [SE.bind_threw e]; exact congrArg _ hd
    | ub => rw [SE.bind_ub e]; exact congrArg _ hd
  | dense => exact congrArg _ (computeDense_cachedRes env w.heap w.graph)
  | sparse => exact congrArg _ (computeSparse_cachedRes w.heap w.graph)
  | _ => rfl

theorem FullLength.runs {evs : List (Op F V × Res Unit)} {w w' : World F V} (hrun : World.Runs w evs w') :
    (∀ ev ∈ evs, ev.1.isValueOp) → FullLength w.graph → FullLength w'.graph := by
  induction hrun with
  | nil w => exact fun _ h => h
  | @cons w w1 w2 op evs r env hs _ _ ih =>
    intro hv h
    have := h.step (env := env) (w := w) (hv (op, r) (by simp))
    rw [hs] at this
    exact ih (fun ev h' => hv ev (by simp [h'])) this

end Factorama
