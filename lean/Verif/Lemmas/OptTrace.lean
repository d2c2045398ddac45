import Verif.Model.Optimizer
import Verif.Lemmas.Values

/-! Helper lemmas: what the optimizer does to variables and graph is a sequence of ordinary calls. -/

set_option linter.unusedSectionVars false

namespace Factorama
open Spec
namespace Opt
open Graph
variable {F V Fact : Type} [Zero F] [VarLike F V]

/-- The variables and the graph. -/
def OptWorld.world (s : OptWorld F V Fact) : World F V := ⟨s.heap, s.graph⟩

/-- `w'` is reached from `w` by calls that evaluate or change values. -/
def Reach (w w' : World F V) : Prop :=
  ∃ evs : List (Op F V × Res Unit), (∀ ev ∈ evs, ev.1.isValueOp) ∧ World.Runs w evs w'

theorem Reach.refl (w : World F V) : Reach w w := ⟨[], by simp, .nil w⟩

theorem runs_trans {evs evs' : List (Op F V × Res Unit)} {w w' w'' : World F V} (h1 : World.Runs w evs w')
    (h2 : World.Runs w' evs' w'') : World.Runs w (evs ++ evs') w'' := by
  induction h1 with
  | nil w => exact h2
  | cons env hs hne _ ih => exact .cons env hs hne (ih h2)

theorem Reach.trans {w w' w'' : World F V} (h1 : Reach w w') (h2 : Reach w' w'') : Reach w w'' := by
  obtain ⟨e1, v1, r1⟩ := h1
  obtain ⟨e2, v2, r2⟩ := h2
  refine ⟨e1 ++ e2, ?_, runs_trans r1 r2⟩
  intro ev hev
  rcases List.mem_append.1 hev with h | h
  · exact v1 ev h
  · exact v2 ev h

theorem Reach.single {env : Env F V} {op : Op F V} {w : World F V} (hop : op.isValueOp)
    (hne : (World.step env op w).2 ≠ .ub) : Reach w (World.step env op w).1 :=
  ⟨[(op, (World.step env op w).2)], by simpa using hop, .cons env rfl hne (.nil _)⟩

/-- A computation that does nothing to variables and graph but a sequence of such calls (unless it runs into
undefined behaviour). -/
def Traced {α : Type} (m : SE (OptWorld F V Fact) α) : Prop :=
  ∀ s, (m s).2 ≠ .ub → Reach (OptWorld.world s) (OptWorld.world (m s).1)

theorem Traced.of_world {α : Type} {m : SE (OptWorld F V Fact) α}
    (h : ∀ s, OptWorld.world (m s).1 = OptWorld.world s) : Traced m := by
  intro s _
  rw [h s]
  exact Reach.refl _

theorem Traced.bind {α β : Type} {m : SE (OptWorld F V Fact) α} {k : α → SE (OptWorld F V Fact) β} (hm : Traced m)
    (hk : ∀ a, Traced (k a)) : Traced (SE.bind m k) := by
  intro s hne
  have h1 := hm s
  rcases hms : m s with ⟨s1, r⟩
  rw [hms] at h1
  cases r with
  | ok a =>
    rw [SE.bind_ok hms] at hne ⊢
    exact (h1 (by simp)).trans (hk a s1 hne)
  | threw => rw [SE.bind_threw hms]; exact h1 (by simp)
  | ub => rw [SE.bind_ub hms] at hne; exact absurd rfl hne

theorem Traced.ret {α : Type} (a : α) : Traced (SE.ret a : SE (OptWorld F V Fact) α) := .of_world fun _ => rfl
theorem Traced.throw {α : Type} : Traced (SE.throw : SE (OptWorld F V Fact) α) := .of_world fun _ => rfl
theorem Traced.undefined {α : Type} : Traced (SE.undefined : SE (OptWorld F V Fact) α) := .of_world fun _ => rfl
theorem Traced.get : Traced (SE.get : SE (OptWorld F V Fact) _) := .of_world fun _ => rfl
theorem Traced.modStats (f : Stats F → Stats F) : Traced (modStats f : SE (OptWorld F V Fact) Unit) :=
  .of_world fun _ => rfl
theorem Traced.modOpt (f : Optimizer F Fact → Optimizer F Fact) : Traced (modOpt f : SE (OptWorld F V Fact) Unit) :=
  .of_world fun _ => rfl
theorem Traced.evalResidual1 (env : Env F V) : Traced (evalResidual1 env : SE (OptWorld F V Fact) Unit) :=
  .of_world fun _ => rfl
theorem Traced.evalResidual2 (env : Env F V) : Traced (evalResidual2 env : SE (OptWorld F V Fact) Unit) :=
  .of_world fun _ => rfl

theorem void_ne_ub {α : Type} {r : Res α} (h : r ≠ .ub) : r.void ≠ .ub := by
  cases r <;> simp [Res.void] at h ⊢

theorem Traced.evalInitial (env : Env F V) : Traced (evalInitial env : SE (OptWorld F V Fact) (List F)) := by
  intro s hne
  exact Reach.single (env := env) (op := .residual) (w := OptWorld.world s) (by simp [Op.isValueOp]) (void_ne_ub hne)

/-- The same for code that changes variables only. -/
def HeapTraced {α : Type} (m : SE (Heap V) α) : Prop :=
  ∀ (g : Graph F V) h, (m h).2 ≠ .ub → Reach ⟨h, g⟩ ⟨(m h).1, g⟩

theorem HeapTraced.bind {α β : Type} {m : SE (Heap V) α} {k : α → SE (Heap V) β} (hm : HeapTraced (F := F) m)
    (hk : ∀ a, HeapTraced (F := F) (k a)) : HeapTraced (F := F) (SE.bind m k) := by
  intro g s hne
  have h1 := hm g s
  rcases hms : m s with ⟨s1, r⟩
  rw [hms] at h1
  cases r with
  | ok a =>
    rw [SE.bind_ok hms] at hne ⊢
    exact (h1 (by simp)).trans (hk a g s1 hne)
  | threw => rw [SE.bind_threw hms]; exact h1 (by simp)
  | ub => rw [SE.bind_ub hms] at hne; exact absurd rfl hne

theorem HeapTraced.of_same {α : Type} {m : SE (Heap V) α} (h : ∀ s, (m s).1 = s) : HeapTraced (F := F) m := by
  intro g s _
  rw [h s]
  exact Reach.refl _

theorem HeapTraced.forEach {β : Type} {body : β → SE (Heap V) Unit} (hb : ∀ b, HeapTraced (F := F) (body b))
    (bs : List β) : HeapTraced (F := F) (SE.forEach bs body) := by
  induction bs with
  | nil => exact .of_same fun _ => rfl
  | cons b bs ih => exact .bind (hb b) fun _ => ih

theorem HeapTraced.incr (env0 : Env F V) (r : VRef) (x : List F) :
    HeapTraced (F := F) (mutate r fun v : V => VarLike.applyIncr v x) := by
  intro g h hne
  exact Reach.single (env := env0) (op := .incrOne r x) (w := ⟨h, g⟩) (by simp [Op.isValueOp]) (void_ne_ub hne)

theorem HeapTraced.set (env0 : Env F V) (r : VRef) (x : List F) :
    HeapTraced (F := F) (mutate r fun v : V => VarLike.setValue v x) := by
  intro g h hne
  exact Reach.single (env := env0) (op := .setValue r x) (w := ⟨h, g⟩) (by simp [Op.isValueOp]) (void_ne_ub hne)

theorem Traced.onHeap {α : Type} {m : Graph F V → SE (Heap V) α} (hm : ∀ g, HeapTraced (F := F) (m g)) :
    Traced (onHeap m : SE (OptWorld F V Fact) α) := by
  intro s hne
  exact hm s.graph s.graph s.heap hne

theorem HeapTraced.stepVariable (env0 : Env F V) (g : Graph F V) (dx : List F) (r : VRef) :
    HeapTraced (F := F) (stepVariable g dx r) := by
  unfold Opt.stepVariable
  refine .bind (.of_same fun _ => rfl) fun h => ?_
  split
  · exact .of_same fun _ => rfl
  · split
    · exact .of_same fun _ => rfl
    · exact .bind (.of_same fun _ => rfl) fun seg => .incr env0 r seg

theorem Traced.stepVariables (env0 : Env F V) (dx : List F) :
    Traced (stepVariables dx : SE (OptWorld F V Fact) Unit) :=
  .onHeap fun g => .forEach (fun r => .stepVariable env0 g dx r) _

theorem Traced.restoreValues (env0 : Env F V) (saved : List (VRef × List F)) :
    Traced (restoreValues saved : SE (OptWorld F V Fact) Unit) :=
  .onHeap fun _ => .forEach (fun p : VRef × List F => .set env0 p.1 p.2) _

theorem Traced.evalSparse (env0 : Env F V) : Traced (Opt.evalSparse : SE (OptWorld F V Fact) (SpMat F)) := by
  intro s hne
  exact Reach.single (env := env0) (op := .sparse) (w := OptWorld.world s) (by simp [Op.isValueOp]) (void_ne_ub hne)

theorem Traced.giveUp (st : Status) : Traced (giveUp st : SE (OptWorld F V Fact) Unit) := .modStats _

theorem Traced.gaussNewtonStep (A : Arith F) (L : LinAlg F Fact) (env : Env F V) :
    Traced (gaussNewtonStep A L env) := by
  unfold Opt.gaussNewtonStep
  refine .bind .get fun s0 => ?_
  split
  · exact .throw
  · refine .bind (.evalResidual1 env) fun _ => .bind (.evalSparse env) fun J => .bind .get fun s => ?_
    dsimp only
    split
    · exact .bind (.modOpt _) fun _ => .giveUp _
    · refine .bind (.modOpt _) fun _ => ?_
      split
      · exact .undefined
      · split
        · exact .giveUp _
        · split
          · exact .giveUp _
          · split
            · exact .giveUp _
            · exact .bind (.stepVariables env _) fun _ => .bind (.evalResidual2 env) fun _ => .bind .get fun s' => .modStats _

theorem Traced.raiseLambda (A : Arith F) : Traced (raiseLambda A : SE (OptWorld F V Fact) Unit) :=
  .bind .get fun _ => .modStats _

theorem Traced.lmTrials (A : Arith F) (L : LinAlg F Fact) (env : Env F V) (J : SpMat F) (cost : F) (k : Nat)
    (dx : List F) : Traced (lmTrials A L env J cost k dx) := by
  induction k generalizing dx with
  | zero => exact .ret _
  | succ k ih =>
    unfold Opt.lmTrials
    refine .bind .get fun s => ?_
    dsimp only
    split
    · exact .bind (.modOpt _) fun _ => .bind (.raiseLambda A) fun _ => ih _
    · refine .bind (.modOpt _) fun _ => ?_
      split
      · exact .undefined
      · split
        · exact .bind (.raiseLambda A) fun _ => ih _
        · split
          · exact .bind (.raiseLambda A) fun _ => ih _
          · refine .bind (.stepVariables env _) fun _ => .bind (.evalResidual2 env) fun _ => .bind .get fun s' => ?_
            split
            · exact .bind (.modStats _) fun _ => .ret _
            · refine .bind (.restoreValues env _) fun _ => .bind (.modStats _) fun _ => .bind .get fun s'' => ?_
              split
              · exact .ret _
              · exact ih _

theorem Traced.levenbergMarquardtStep (A : Arith F) (L : LinAlg F Fact) (env : Env F V) :
    Traced (levenbergMarquardtStep A L env) := by
  unfold Opt.levenbergMarquardtStep
  refine .bind .get fun s0 => ?_
  split
  · exact .throw
  · refine .bind (.evalResidual1 env) fun _ => .bind (.evalSparse env) fun J => .bind .get fun s => ?_
    dsimp only
    refine .bind (.modStats _) fun _ => .bind (.lmTrials A L env J _ 5 []) fun res => ?_
    split
    · exact .bind .get fun _ => .modStats _
    · refine .bind ?_ fun _ => .bind (.modOpt _) fun _ => .bind .get fun _ => .modStats _
      unfold lmRejected
      refine .bind .get fun _ => ?_
      split
      · exact .modStats _
      · exact .modStats _

theorem Traced.oneStep (A : Arith F) (L : LinAlg F Fact) (env : Env F V) : Traced (oneStep A L env) := by
  refine .bind .get fun s => ?_
  split
  · exact .gaussNewtonStep A L env
  · exact .levenbergMarquardtStep A L env

theorem Traced.iterate (A : Arith F) (L : LinAlg F Fact) (env : Env F V) (n : Nat) : Traced (iterate A L env n) := by
  induction n with
  | zero => exact .ret _
  | succ n ih =>
    intro s
    have h1 := Traced.oneStep A L env s
    unfold Opt.iterate
    rcases ho : Opt.oneStep A L env s with ⟨s', r⟩
    rw [ho] at h1
    cases r with
    | ub => intro hne; exact absurd rfl hne
    | threw => intro _; exact h1 (by simp)
    | ok u =>
      dsimp only
      split
      · intro _; exact h1 (by simp)
      · intro hne
        exact (h1 (by simp)).trans (ih _ hne)

/-- `optimize()` does nothing to variables and graph but a sequence of evaluations and value changes. -/
theorem Traced.optimize (A : Arith F) (L : LinAlg F Fact) (env : Env F V) : Traced (optimize A L env) := by
  unfold Opt.optimize
  refine .bind .get fun s0 => ?_
  split
  · exact .throw
  · exact .bind (.modStats _) fun _ => .bind (.evalInitial env) fun r => .bind (.modStats _) fun _ =>
      .bind (.modOpt _) fun _ => .bind (.iterate A L env _) fun _ => .bind (.modStats _) fun _ => .modOpt _

theorem Traced.prepare (A : Arith F) (L : LinAlg F Fact) : Traced (prepare A L : SE (OptWorld F V Fact) Unit) := by
  unfold Opt.prepare
  refine .bind .get fun s => ?_
  split
  · exact .ret _
  · split
    · exact .ret _
    · refine .bind (.of_world fun _ => rfl) fun J => ?_
      dsimp only
      split
      · exact .modOpt _
      · split
        · exact .bind (.modOpt _) fun _ => .undefined
        · exact .modOpt _

end Opt
end Factorama
