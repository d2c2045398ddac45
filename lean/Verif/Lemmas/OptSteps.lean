import Verif.Lemmas.OptTrace
import Verif.Spec.Optimizer

/-! Helper lemmas: outcomes of one step of the optimizer. -/

set_option linter.unusedSectionVars false

namespace Factorama
open Spec
namespace Opt
open Graph
variable {F V Fact : Type} [Zero F] [VarLike F V]

/-- Members which a step does not touch. -/
structure SameRun (s s' : OptWorld F V Fact) : Prop where
  init : s'.opt.initialStats = s.opt.initialStats
  settings : s'.opt.settings = s.opt.settings
  hasGraph : s'.opt.hasGraph = s.opt.hasGraph
  complete : s'.opt.complete = s.opt.complete
  hessianValid : s'.opt.hessianValid = s.opt.hessianValid
  hessian : s'.opt.hessian = s.opt.hessian
  kept : Kept s.graph s'.graph

theorem SameRun.refl (s : OptWorld F V Fact) : SameRun s s := ⟨rfl, rfl, rfl, rfl, rfl, rfl, .refl _⟩

theorem SameRun.trans {s s' s'' : OptWorld F V Fact} (h1 : SameRun s s') (h2 : SameRun s' s'') : SameRun s s'' :=
  ⟨h2.init.trans h1.init, h2.settings.trans h1.settings, h2.hasGraph.trans h1.hasGraph,
    h2.complete.trans h1.complete, h2.hessianValid.trans h1.hessianValid, h2.hessian.trans h1.hessian,
    h1.kept.trans h2.kept⟩

/-- The residual vector was evaluated successfully, with this result. -/
def Evaluated (env : Env F V) (g : Graph F V) (h : Heap V) (r : List F) : Prop :=
  ∃ buf, computeResidualInto env g h buf = (r, .ok ())

theorem computeResidualInto_congr {env : Env F V} {g g' : Graph F V} (hk : Kept g g') (h : Heap V) :
    computeResidualInto env g' h = computeResidualInto env g h := by
  unfold computeResidualInto
  rw [hk.finalized, hk.numResiduals, hk.facPl]

theorem Evaluated.kept {env : Env F V} {g g' : Graph F V} {h : Heap V} {r : List F} (he : Evaluated env g h r)
    (hk : Kept g g') : Evaluated env g' h r := by
  obtain ⟨buf, hb⟩ := he
  exact ⟨buf, by rw [computeResidualInto_congr hk]; exact hb⟩

/-! ### Effect on the variables -/

theorem stepVariable_cases (g : Graph F V) (dx : List F) (r : VRef) (h : Heap V) :
    (stepVariable g dx r h).1 = h ∨
      (VarLike.isConst (h r) = false ∧ ∃ x v, VarLike.applyIncr (h r) x = .ok v ∧ (stepVariable g dx r h).1 = h.set r v) := by
  unfold stepVariable
  simp only [SE.bind_get]
  split
  · exact .inl rfl
  · rename_i hc
    cases g.variablePlacement (VarLike.id (h r)) with
    | none => exact .inl rfl
    | some p =>
      dsimp only
      unfold segment
      by_cases hl : p.index + p.dim ≤ dx.length
      · rw [if_pos hl, SE.bind_lift_ok]
        unfold mutate
        dsimp only
        cases hv : VarLike.applyIncr (h r) (List.take p.dim (List.drop p.index dx)) with
        | ok v => exact .inr ⟨by simpa using hc, _, v, hv, rfl⟩
        | threw => exact .inl rfl
        | ub => exact .inl rfl
      · rw [if_neg hl]; exact .inl rfl

/-- Nothing but non-constant variables of the graph is changed by a trial step. -/
theorem stepLoop_frame (g : Graph F V) (dx : List F) (l : List VRef) (h : Heap V) (r : VRef)
    (hr : r ∉ l ∨ VarLike.isConst (h r) = true) : (SE.forEach l (stepVariable g dx) h).1 r = h r := by
  induction l generalizing h with
  | nil => rfl
  | cons a l ih =>
    have h1 : (stepVariable g dx a h).1 r = h r := by
      rcases stepVariable_cases g dx a h with e | ⟨hc, x, v, _, e⟩
      · rw [e]
      · rw [e]
        unfold Heap.set
        split
        · rename_i e'
          subst e'
          rcases hr with hr | hr
          · exact absurd List.mem_cons_self hr
          · rw [hc] at hr; exact absurd hr (by simp)
        · rfl
    rw [SE.forEach_cons]
    rcases hs : stepVariable g dx a h with ⟨h', res⟩
    rw [hs] at h1
    dsimp only at h1
    cases res with
    | ok u =>
      rw [SE.bind_ok hs, ih h' ?_, h1]
      rw [h1]
      exact hr.imp (fun hr hm => hr (List.mem_cons_of_mem _ hm)) id
    | threw => rw [SE.bind_threw hs]; exact h1
    | ub => rw [SE.bind_ub hs]; exact h1

/-- After a trial step every variable is unchanged or has received one increment. -/
theorem stepLoop_each (g : Graph F V) (dx : List F) (l : List VRef) (hnd : l.Nodup) (h : Heap V) (r : VRef) :
    (SE.forEach l (stepVariable g dx) h).1 r = h r ∨
      ∃ x, VarLike.applyIncr (h r) x = .ok ((SE.forEach l (stepVariable g dx) h).1 r) := by
  induction l generalizing h with
  | nil => exact .inl rfl
  | cons a l ih =>
    have hc := List.nodup_cons.1 hnd
    have h1 : (stepVariable g dx a h).1 r = h r ∨
        (r = a ∧ ∃ x, VarLike.applyIncr (h r) x = .ok ((stepVariable g dx a h).1 r)) := by
      rcases stepVariable_cases g dx a h with e | ⟨hc, x, v, hv, e⟩
      · rw [e]; exact .inl rfl
      · rw [e]
        unfold Heap.set
        by_cases e' : r = a
        · subst e'
          rw [if_pos rfl]
          exact .inr ⟨rfl, x, hv⟩
        · rw [if_neg e']; exact .inl rfl
    rw [SE.forEach_cons]
    rcases hs : stepVariable g dx a h with ⟨h', res⟩
    rw [hs] at h1
    dsimp only at h1
    cases res with
    | ok u =>
      rw [SE.bind_ok hs]
      rcases h1 with h1 | ⟨e, h1⟩
      · rw [← h1]; exact ih hc.2 h'
      · rw [stepLoop_frame g dx l h' r (.inl (e ▸ hc.1))]; exact .inr h1
    | threw => rw [SE.bind_threw hs]; exact h1.imp id fun h => h.2
    | ub => rw [SE.bind_ub hs]; exact h1.imp id fun h => h.2

theorem restoreLoop (h0 : Heap V) (l : List VRef) (h : Heap V)
    (hl : ∀ r ∈ l, VarLike.setValue (h r) (VarLike.value (h0 r)) = .ok (h0 r))
    (hl0 : ∀ r ∈ l, VarLike.setValue (h0 r) (VarLike.value (h0 r)) = .ok (h0 r)) :
    ∃ h', SE.forEach (l.map fun r => (r, VarLike.value (h0 r))) (fun p => mutate p.1 fun v => VarLike.setValue v p.2) h =
      (h', .ok ()) ∧ (∀ r ∈ l, h' r = h0 r) ∧ ∀ r, r ∉ l → h' r = h r := by
  induction l generalizing h with
  | nil => exact ⟨h, rfl, by simp, fun _ _ => rfl⟩
  | cons a l ih =>
    rw [List.map_cons, SE.forEach_cons]
    have ha : mutate a (fun v => VarLike.setValue v (VarLike.value (h0 a))) h = (h.set a (h0 a), .ok ()) := by
      unfold mutate
      dsimp only
      rw [hl a List.mem_cons_self]
    rw [SE.bind_ok ha]
    obtain ⟨h', e, h1, h2⟩ := ih (h.set a (h0 a)) (by
      intro r hr
      unfold Heap.set
      split
      · rename_i e; subst e; exact hl0 r List.mem_cons_self
      · exact hl r (List.mem_cons_of_mem _ hr)) (fun r hr => hl0 r (List.mem_cons_of_mem _ hr))
    refine ⟨h', e, ?_, ?_⟩
    · intro r hr
      by_cases hm : r ∈ l
      · exact h1 r hm
      · rw [h2 r hm]
        obtain rfl : r = a := (List.mem_cons.1 hr).resolve_right hm
        simp [Heap.set]
    · intro r hr
      rw [h2 r fun hm => hr (List.mem_cons_of_mem _ hm)]
      unfold Heap.set
      rw [if_neg]
      intro e
      exact hr (e ▸ List.mem_cons_self)

/-- A trial step followed by the roll-back leaves all variables as they were. -/
theorem trial_restore {good : V → Prop} (hgood : RestoresExactly good) {g : Graph F V} (hnd : g.varsVec.Nodup)
    {h h1 : Heap V} (hg : ∀ r ∈ g.varsVec, good (h r)) {dx : List F}
    (hs : (SE.forEach g.varsVec (stepVariable g dx) h).1 = h1) :
    SE.forEach (g.varsVec.map fun r => (r, VarLike.value (h r)))
      (fun p => mutate p.1 fun v => VarLike.setValue v p.2) h1 = (h, .ok ()) := by
  subst hs
  obtain ⟨h', e, h2, h3⟩ := restoreLoop h g.varsVec (SE.forEach g.varsVec (stepVariable g dx) h).1 (by
    intro r hr
    rcases stepLoop_each g dx _ hnd h r with e | ⟨x, e⟩
    · rw [e]; exact (hgood _ (hg r hr)).1
    · exact ((hgood _ (hg r hr)).2 x _ e).2) (fun r hr => (hgood _ (hg r hr)).1)
  rw [e]
  refine Prod.ext (funext fun r => ?_) rfl
  by_cases hm : r ∈ g.varsVec
  · exact h2 r hm
  · exact (h3 r hm).trans (stepLoop_frame g dx _ h r (.inl hm))

theorem restoreLoop_frame (saved : List (VRef × List F)) (h : Heap V) (r : VRef)
    (hr : ∀ p ∈ saved, p.1 = r → ∀ v, VarLike.setValue (h r) p.2 = .ok v → v = h r) :
    (SE.forEach saved (fun p => mutate p.1 fun v => VarLike.setValue v p.2) h).1 r = h r := by
  induction saved generalizing h with
  | nil => rfl
  | cons p l ih =>
    rw [SE.forEach_cons]
    have h1 : (mutate p.1 (fun v => VarLike.setValue v p.2) h).1 r = h r := by
      unfold mutate
      split
      · rename_i v hv
        dsimp only [Heap.set]
        by_cases e : r = p.1
        · subst e
          rw [if_pos rfl]
          exact hr p List.mem_cons_self rfl v hv
        · rw [if_neg e]
      · rfl
      · rfl
    rcases hs : mutate p.1 (fun v => VarLike.setValue v p.2) h with ⟨h', res⟩
    rw [hs] at h1
    dsimp only at h1
    cases res with
    | ok u =>
      rw [SE.bind_ok hs, ih h' ?_, h1]
      intro p' hp' e
      rw [h1]
      exact hr p' (List.mem_cons_of_mem _ hp') e
    | threw => rw [SE.bind_threw hs]; exact h1
    | ub => rw [SE.bind_ub hs]; exact h1

/-! ### The pieces of a step -/

theorem evalResidual1_eq (env : Env F V) (s : OptWorld F V Fact) :
    evalResidual1 env s = ({ s with opt := { s.opt with residual1 := (computeResidualInto env s.graph s.heap s.opt.residual1).1 } },
      (computeResidualInto env s.graph s.heap s.opt.residual1).2) := rfl

theorem evalResidual2_eq (env : Env F V) (s : OptWorld F V Fact) :
    evalResidual2 env s = ({ s with opt := { s.opt with residual2 := (computeResidualInto env s.graph s.heap s.opt.residual2).1 } },
      (computeResidualInto env s.graph s.heap s.opt.residual2).2) := rfl

/-- Both step functions start like this. -/
theorem start_cases {α : Type} (env : Env F V) (k : SpMat F → SE (OptWorld F V Fact) α) (s : OptWorld F V Fact) :
    (∃ s', SameRun s s' ∧ s'.heap = s.heap ∧ s'.opt.stats = s.opt.stats ∧
        (SE.bind (evalResidual1 env) (fun _ => SE.bind evalSparse k) s = (s', .threw) ∨
          SE.bind (evalResidual1 env) (fun _ => SE.bind evalSparse k) s = (s', .ub))) ∨
      ∃ s' J, SameRun s s' ∧ s'.heap = s.heap ∧ s'.opt.stats = s.opt.stats ∧
        Evaluated env s'.graph s'.heap s'.opt.residual1 ∧
        SE.bind (evalResidual1 env) (fun _ => SE.bind evalSparse k) s = k J s' := by
  rcases h1 : computeResidualInto env s.graph s.heap s.opt.residual1 with ⟨b, r⟩
  cases r with
  | threw =>
    have e : evalResidual1 env s = ({ s with opt := { s.opt with residual1 := b } }, .threw) := by
      rw [evalResidual1_eq, h1]
    rw [SE.bind_threw e]
    refine .inl ⟨_, ?_, ?_, ?_, .inl rfl⟩
    · exact ⟨rfl, rfl, rfl, rfl, rfl, rfl, .refl _⟩
    · rfl
    · rfl
  | ub =>
    have e : evalResidual1 env s = ({ s with opt := { s.opt with residual1 := b } }, .ub) := by
      rw [evalResidual1_eq, h1]
    rw [SE.bind_ub e]
    refine .inl ⟨_, ?_, ?_, ?_, .inr rfl⟩
    · exact ⟨rfl, rfl, rfl, rfl, rfl, rfl, .refl _⟩
    · rfl
    · rfl
  | ok u =>
    have e : evalResidual1 env s = ({ s with opt := { s.opt with residual1 := b } }, .ok ()) := by
      rw [evalResidual1_eq, h1]
    rw [SE.bind_ok e]
    have hk := computeSparse_kept s.heap s.graph
    rcases h2 : computeSparse s.heap s.graph with ⟨g', r2⟩
    rw [h2] at hk
    have e2 : evalSparse { s with opt := { s.opt with residual1 := b } } =
        (({ s with opt := { s.opt with residual1 := b }, graph := g' } : OptWorld F V Fact), r2) := by
      simp only [evalSparse, h2]
    cases r2 with
    | threw =>
      rw [SE.bind_threw e2]
      refine .inl ⟨_, ?_, ?_, ?_, .inl rfl⟩
      · exact ⟨rfl, rfl, rfl, rfl, rfl, rfl, hk⟩
      · rfl
      · rfl
    | ub =>
      rw [SE.bind_ub e2]
      refine .inl ⟨_, ?_, ?_, ?_, .inr rfl⟩
      · exact ⟨rfl, rfl, rfl, rfl, rfl, rfl, hk⟩
      · rfl
      · rfl
    | ok J =>
      rw [SE.bind_ok e2]
      refine .inr ⟨_, J, ?_, ?_, ?_, ?_, rfl⟩
      · exact ⟨rfl, rfl, rfl, rfl, rfl, rfl, hk⟩
      · rfl
      · rfl
      · exact Evaluated.kept ⟨_, h1⟩ hk

/-- A trial step and its evaluation. -/
theorem trial_cases {α : Type} (env : Env F V) (dx : List F) (k : SE (OptWorld F V Fact) α) (s : OptWorld F V Fact) :
    ∃ b h', h' = (SE.forEach s.graph.varsVec (stepVariable s.graph dx) s.heap).1 ∧
      ((∃ r : Res α, (r = .threw ∨ r = .ub) ∧ SE.bind (stepVariables dx) (fun _ => SE.bind (evalResidual2 env) fun _ => k) s =
          ({ s with heap := h', opt := { s.opt with residual2 := b } }, r)) ∨
        (Evaluated env s.graph h' b ∧ SE.bind (stepVariables dx) (fun _ => SE.bind (evalResidual2 env) fun _ => k) s =
          k { s with heap := h', opt := { s.opt with residual2 := b } })) := by
  rcases h1 : SE.forEach s.graph.varsVec (stepVariable s.graph dx) s.heap with ⟨h', r⟩
  have e : stepVariables dx s = ({ s with heap := h' }, r) := by simp only [stepVariables, onHeap, h1]
  cases r with
  | threw => exact ⟨s.opt.residual2, h', rfl, .inl ⟨.threw, .inl rfl, SE.bind_threw e⟩⟩
  | ub => exact ⟨s.opt.residual2, h', rfl, .inl ⟨.ub, .inr rfl, SE.bind_ub e⟩⟩
  | ok u =>
    rcases h2 : computeResidualInto env s.graph h' s.opt.residual2 with ⟨b, r2⟩
    have e2 : evalResidual2 env { s with heap := h' } =
        ({ s with heap := h', opt := { s.opt with residual2 := b } }, r2) := by
      rw [evalResidual2_eq]
      simp only [h2]
    refine ⟨b, h', rfl, ?_⟩
    rw [SE.bind_ok e]
    cases r2 with
    | threw => exact .inl ⟨.threw, .inl rfl, SE.bind_threw e2⟩
    | ub => exact .inl ⟨.ub, .inr rfl, SE.bind_ub e2⟩
    | ok u => exact .inr ⟨⟨_, h2⟩, SE.bind_ok e2⟩

/-! ### Gauss-Newton -/

/-- The three statuses of a step that could not solve its linear system. -/
def Status.isSystemError (st : Status) : Prop := st = .singularHessian ∨ st = .illConditioned ∨ st = .failed

/-- What the statistics say after a completed step with update `dx` and new residual `r`. -/
def recorded (A : Arith F) (st : Stats F) (dx r : List F) : Stats F :=
  { st with deltaNorm := A.norm dx, chi2 := A.sqNorm r, residualNorm := A.norm r, iteration := st.iteration + 1 }

theorem gaussNewtonStep_cases (A : Arith F) (L : LinAlg F Fact) (env : Env F V) (s : OptWorld F V Fact)
    (hg : s.opt.hasGraph = true) :
    SameRun s (gaussNewtonStep A L env s).1 ∧
    (∀ r, r ∉ s.graph.varsVec ∨ VarLike.isConst (s.heap r) = true → (gaussNewtonStep A L env s).1.heap r = s.heap r) ∧
    match (gaussNewtonStep A L env s).2 with
    | .ok () =>
      ((gaussNewtonStep A L env s).1.heap = s.heap ∧ ∃ st, Status.isSystemError st ∧
        (gaussNewtonStep A L env s).1.opt.stats = { s.opt.stats with valid := false, status := st }) ∨
      ∃ dx r, Evaluated env (gaussNewtonStep A L env s).1.graph (gaussNewtonStep A L env s).1.heap r ∧
        (gaussNewtonStep A L env s).1.opt.stats = recorded A s.opt.stats dx r
    | _ => (gaussNewtonStep A L env s).1.opt.stats = s.opt.stats := by
  unfold gaussNewtonStep
  simp only [SE.bind_get]
  rw [if_neg (by simp [hg])]
  rcases start_cases env _ s with ⟨s', hs, hh, hst, e | e⟩ | ⟨s', J, hs, hh, hst, hev, e⟩
  · rw [e]; exact ⟨hs, fun r _ => by rw [hh], hst⟩
  · rw [e]; exact ⟨hs, fun r _ => by rw [hh], hst⟩
  rw [e]
  simp only [SE.bind_get]
  clear e
  cases hf : L.factorize (L.gram J) with
  | none =>
    refine ⟨hs.trans ⟨rfl, rfl, rfl, rfl, rfl, rfl, .refl _⟩, fun r _ => by rw [← hh]; rfl, ?_⟩
    exact .inl ⟨hh, .failed, .inr (.inr rfl), by rw [← hst]; rfl⟩
  | some f =>
    dsimp only
    simp only [modOpt, SE.bind_modify]
    split
    · exact ⟨hs.trans ⟨rfl, rfl, rfl, rfl, rfl, rfl, .refl _⟩, fun r _ => by rw [← hh]; rfl, hst⟩
    split
    · refine ⟨hs.trans ⟨rfl, rfl, rfl, rfl, rfl, rfl, .refl _⟩, fun r _ => by rw [← hh]; rfl, ?_⟩
      exact .inl ⟨hh, .singularHessian, .inl rfl, by rw [← hst]; rfl⟩
    split
    · refine ⟨hs.trans ⟨rfl, rfl, rfl, rfl, rfl, rfl, .refl _⟩, fun r _ => by rw [← hh]; rfl, ?_⟩
      exact .inl ⟨hh, .illConditioned, .inr (.inl rfl), by rw [← hst]; rfl⟩
    cases hsol : L.solve f (L.rhs J s'.opt.residual1) with
    | none =>
      refine ⟨hs.trans ⟨rfl, rfl, rfl, rfl, rfl, rfl, .refl _⟩, fun r _ => by rw [← hh]; rfl, ?_⟩
      exact .inl ⟨hh, .failed, .inr (.inr rfl), by rw [← hst]; rfl⟩
    | some d =>
      dsimp only
      obtain ⟨b, h', hh', hcase⟩ := trial_cases env (A.scale s'.opt.settings.learningRate d)
        (SE.bind SE.get fun s'' => recordStats A (A.scale s'.opt.settings.learningRate d) s''.opt.residual2)
        { s' with opt := { s'.opt with solver := some f } }
      dsimp only at hh'
      have hfr : ∀ r, r ∉ s.graph.varsVec ∨ VarLike.isConst (s.heap r) = true → h' r = s.heap r := by
        intro r hr
        rw [hh', ← hh]
        exact stepLoop_frame _ _ _ _ _ (by rw [hs.kept.varsVec, hh]; exact hr)
      rcases hcase with ⟨r, hr | hr, e⟩ | ⟨hev2, e⟩
      · subst hr
        rw [e]
        exact ⟨hs.trans ⟨rfl, rfl, rfl, rfl, rfl, rfl, .refl _⟩, hfr, hst⟩
      · subst hr
        rw [e]
        exact ⟨hs.trans ⟨rfl, rfl, rfl, rfl, rfl, rfl, .refl _⟩, hfr, hst⟩
      · rw [e]
        refine ⟨hs.trans ⟨rfl, rfl, rfl, rfl, rfl, rfl, .refl _⟩, hfr, .inr ⟨A.scale s'.opt.settings.learningRate d, b, hev2, ?_⟩⟩
        rw [← hst]
        rfl

/-! ### Levenberg-Marquardt -/

/-- State changes inside the trial loop. -/
structure InTrial (s s' : OptWorld F V Fact) : Prop where
  run : SameRun s s'
  graph : s'.graph = s.graph
  residual1 : s'.opt.residual1 = s.opt.residual1
  stats : s'.opt.stats = { s.opt.stats with damping := s'.opt.stats.damping }

theorem InTrial.refl (s : OptWorld F V Fact) : InTrial s s := ⟨.refl s, rfl, rfl, rfl⟩

theorem InTrial.trans {s s' s'' : OptWorld F V Fact} (h1 : InTrial s s') (h2 : InTrial s' s'') : InTrial s s'' :=
  ⟨h1.run.trans h2.run, h2.graph.trans h1.graph, h2.residual1.trans h1.residual1, by rw [h2.stats, h1.stats]⟩

/-- A variable outside the graph, or a constant one which is not changed by setting it to its own value. -/
def Untouchable (s : OptWorld F V Fact) (r : VRef) : Prop :=
  r ∈ s.graph.varsVec → VarLike.isConst (s.heap r) = true ∧
    ∀ v, VarLike.setValue (s.heap r) (VarLike.value (s.heap r)) = .ok v → v = s.heap r

/-- All variables of the graph satisfy their class invariant, and there are no repetitions. -/
def GoodVars (good : V → Prop) (s : OptWorld F V Fact) : Prop :=
  s.graph.varsVec.Nodup ∧ ∀ r ∈ s.graph.varsVec, good (s.heap r)

/-- What is known after the trial loop. -/
structure TrialPost (A : Arith F) (env : Env F V) (cost : F) (s : OptWorld F V Fact)
    (o : OptWorld F V Fact × Res (Bool × List F)) : Prop where
  inTrial : InTrial s o.1
  frame : ∀ r, Untouchable s r → o.1.heap r = s.heap r
  accept : ∀ dx, o.2 = .ok (true, dx) → Evaluated env o.1.graph o.1.heap o.1.opt.residual2 ∧
    A.lt (A.mul (A.lit (1 / 2)) (A.sqNorm o.1.opt.residual2)) cost = true
  reject : ∀ good, RestoresExactly good → GoodVars good s → ∀ dx, o.2 = .ok (false, dx) → o.1.heap = s.heap
  good : ∀ good, RestoresExactly good → GoodVars good s → GoodVars good o.1

theorem TrialPost.of_same {A : Arith F} {env : Env F V} {cost : F} {s s1 : OptWorld F V Fact}
    {r : Res (Bool × List F)} (h1 : InTrial s s1) (hh : s1.heap = s.heap) (hr : ∀ dx, r ≠ .ok (true, dx)) :
    TrialPost A env cost s (s1, r) where
  inTrial := h1
  frame := fun _ _ => by rw [hh]
  accept := fun dx e => absurd e (hr dx)
  reject := fun _ _ _ _ _ => hh
  good := fun good _ hg => by
    unfold GoodVars at *
    dsimp only
    rw [h1.graph, hh]
    exact hg

theorem TrialPost.step {A : Arith F} {env : Env F V} {cost : F} {s s1 : OptWorld F V Fact}
    {o : OptWorld F V Fact × Res (Bool × List F)} (h1 : InTrial s s1) (hf : ∀ r, Untouchable s r → s1.heap r = s.heap r)
    (hr : ∀ good, RestoresExactly good → GoodVars good s → s1.heap = s.heap) (h2 : TrialPost A env cost s1 o) :
    TrialPost A env cost s o := by
  have hu : ∀ r, Untouchable s r → Untouchable s1 r := by
    intro r hr
    have := hf r hr
    unfold Untouchable at *
    rw [this, h1.graph]
    exact hr
  have hgv : ∀ good, RestoresExactly good → GoodVars good s → GoodVars good s1 := by
    intro good hg hgs
    have := hr good hg hgs
    unfold GoodVars at *
    rw [this, h1.graph]
    exact hgs
  refine ⟨h1.trans h2.inTrial, fun r h => ?_, h2.accept, fun good hg hgs dx e => ?_,
    fun good hg hgs => h2.good good hg (hgv good hg hgs)⟩
  · rw [h2.frame r (hu r h), hf r h]
  · rw [h2.reject good hg (hgv good hg hgs) dx e, hr good hg hgs]

theorem lmTrials_post (A : Arith F) (L : LinAlg F Fact) (env : Env F V) (J : SpMat F) (cost : F) (k : Nat)
    (dx : List F) (s : OptWorld F V Fact) : TrialPost A env cost s (lmTrials A L env J cost k dx s) := by
  induction k generalizing dx s with
  | zero => exact .of_same (.refl s) rfl (by simp)
  | succ k ih =>
    unfold lmTrials
    simp only [SE.bind_get]
    cases hf : L.factorize (addDiagonal A (L.gram J) s.opt.stats.damping) with
    | none =>
      dsimp only
      simp only [modOpt, SE.bind_modify]
      refine .step (s1 := _) ?_ ?_ ?_ (ih dx _)
      · exact ⟨⟨rfl, rfl, rfl, rfl, rfl, rfl, .refl _⟩, rfl, rfl, rfl⟩
      · exact fun _ _ => rfl
      · exact fun _ _ _ => rfl
    | some f =>
      dsimp only
      simp only [modOpt, SE.bind_modify]
      split
      · exact .of_same ⟨⟨rfl, rfl, rfl, rfl, rfl, rfl, .refl _⟩, rfl, rfl, rfl⟩ rfl (by simp)
      split
      · refine .step (s1 := _) ?_ ?_ ?_ (ih dx _)
        · exact ⟨⟨rfl, rfl, rfl, rfl, rfl, rfl, .refl _⟩, rfl, rfl, rfl⟩
        · exact fun _ _ => rfl
        · exact fun _ _ _ => rfl
      cases hsol : L.solve f (L.rhs J s.opt.residual1) with
      | none =>
        dsimp only
        refine .step (s1 := _) ?_ ?_ ?_ (ih _ _)
        · exact ⟨⟨rfl, rfl, rfl, rfl, rfl, rfl, .refl _⟩, rfl, rfl, rfl⟩
        · exact fun _ _ => rfl
        · exact fun _ _ _ => rfl
      | some d =>
        dsimp only
        generalize hdx : A.scale s.opt.settings.learningRate d = dx'
        generalize hs1 : ({ s with opt := { s.opt with solver := some f } } : OptWorld F V Fact) = s1
        have hin : InTrial s s1 := by subst hs1; exact ⟨⟨rfl, rfl, rfl, rfl, rfl, rfl, .refl _⟩, rfl, rfl, rfl⟩
        have hh1 : s1.heap = s.heap := by subst hs1; rfl
        obtain ⟨b, h', hh', hcase⟩ := trial_cases env dx' (SE.bind SE.get fun s' =>
          if A.lt (A.mul (A.lit (1 / 2)) (A.sqNorm s'.opt.residual2)) cost = true then
            SE.bind (modStats fun st => { st with
              damping := A.stdMax (A.mul st.damping s.opt.settings.lambdaDown) (A.lit (1 / 10 ^ 12)) }) fun _ =>
            SE.ret (true, dx')
          else
            SE.bind (restoreValues (saveValues s)) fun _ =>
            SE.bind (modStats fun st => { st with
              damping := A.stdMin (A.mul st.damping s.opt.settings.lambdaUp) s.opt.settings.maxLambda }) fun _ =>
            SE.bind SE.get fun s'' =>
            if A.le s.opt.settings.maxLambda s''.opt.stats.damping = true then SE.ret (false, dx')
            else lmTrials A L env J cost k dx') s1
        rw [hin.graph, hh1] at hh'
        have hfr : ∀ r, Untouchable s r → h' r = s.heap r := by
          intro r hr
          rw [hh']
          refine stepLoop_frame _ _ _ _ _ ?_
          by_cases hm : r ∈ s.graph.varsVec
          · exact .inr (hr hm).1
          · exact .inl hm
        have hgd : ∀ good, RestoresExactly good → GoodVars good s → ∀ r ∈ s.graph.varsVec, good (h' r) := by
          intro good hg hgs r hr
          rw [hh']
          rcases stepLoop_each s.graph dx' s.graph.varsVec hgs.1 s.heap r with e | ⟨x, e⟩
          · rw [e]; exact hgs.2 r hr
          · exact ((hg _ (hgs.2 r hr)).2 x _ e).1
        have hin2 : InTrial s { s1 with heap := h', opt := { s1.opt with residual2 := b } } :=
          hin.trans ⟨⟨rfl, rfl, rfl, rfl, rfl, rfl, .refl _⟩, rfl, rfl, rfl⟩
        have hbad : ∀ r : Res (Bool × List F), r = .threw ∨ r = .ub →
            TrialPost A env cost s ({ s1 with heap := h', opt := { s1.opt with residual2 := b } }, r) := by
          intro r hr
          refine ⟨hin2, hfr, ?_, ?_, ?_⟩
          · rcases hr with rfl | rfl <;> simp
          · rcases hr with rfl | rfl <;> simp
          · intro good hg hgs
            refine ⟨?_, ?_⟩
            · dsimp only; rw [hin.graph]; exact hgs.1
            · dsimp only; rw [hin.graph]; exact hgd good hg hgs
        rcases hcase with ⟨r, hr, e⟩ | ⟨hev2, e⟩
        · rw [e]; exact hbad r hr
        rw [e]
        clear e
        simp only [SE.bind_get]
        split
        · rename_i hlt
          refine ⟨hin2.trans ⟨⟨rfl, rfl, rfl, rfl, rfl, rfl, .refl _⟩, rfl, rfl, rfl⟩, hfr, ?_, ?_, ?_⟩
          · intro dx _
            exact ⟨hev2, hlt⟩
          · intro good hg hgs dx e
            exact absurd e (by simp [modStats, SE.bind, SE.modify, SE.ret])
          · intro good hg hgs
            refine ⟨?_, ?_⟩
            · show s1.graph.varsVec.Nodup
              rw [hin.graph]; exact hgs.1
            · show ∀ r ∈ s1.graph.varsVec, good (h' r)
              rw [hin.graph]; exact hgd good hg hgs
        · have hfr2 : ∀ r, Untouchable s r →
              (SE.forEach (saveValues s) (fun p => mutate p.1 fun v => VarLike.setValue v p.2) h').1 r = s.heap r := by
            intro r hr
            rw [restoreLoop_frame, hfr r hr]
            intro p hp e v hv
            rw [hfr r hr] at hv ⊢
            unfold saveValues at hp
            obtain ⟨r', hr', e'⟩ := List.mem_map.1 hp
            subst e'
            dsimp only at e hv
            subst e
            exact (hr hr').2 v hv
          have hrest : ∀ good, RestoresExactly good → GoodVars good s →
              SE.forEach (saveValues s) (fun p => mutate p.1 fun v => VarLike.setValue v p.2) h' = (s.heap, .ok ()) :=
            fun good hg hgs => trial_restore hg hgs.1 hgs.2 hh'.symm
          rcases hrv : SE.forEach (saveValues s) (fun p => mutate p.1 fun v => VarLike.setValue v p.2) h' with ⟨h2, res⟩
          rw [hrv] at hfr2 hrest
          have erv : restoreValues (saveValues s) { s1 with heap := h', opt := { s1.opt with residual2 := b } } =
              (({ s1 with heap := h2, opt := { s1.opt with residual2 := b } } : OptWorld F V Fact), res) := by
            simp only [restoreValues, onHeap, hrv]
          have hin3 : InTrial s { s1 with heap := h2, opt := { s1.opt with residual2 := b } } :=
            hin.trans ⟨⟨rfl, rfl, rfl, rfl, rfl, rfl, .refl _⟩, rfl, rfl, rfl⟩
          cases res with
          | threw =>
            rw [SE.bind_threw erv]
            exact ⟨hin3, hfr2, by simp, by simp, fun good hg hgs => absurd (hrest good hg hgs) (by simp)⟩
          | ub =>
            rw [SE.bind_ub erv]
            exact ⟨hin3, hfr2, by simp, by simp, fun good hg hgs => absurd (hrest good hg hgs) (by simp)⟩
          | ok u =>
            rw [SE.bind_ok erv]
            simp only [modStats, SE.bind_modify, SE.bind_get]
            split
            · refine .step (s1 := _) ?_ ?_ ?_ (.of_same (.refl _) rfl (by simp))
              · exact hin3.trans ⟨⟨rfl, rfl, rfl, rfl, rfl, rfl, .refl _⟩, rfl, rfl, rfl⟩
              · exact hfr2
              · exact fun good hg hgs => congrArg Prod.fst (hrest good hg hgs)
            · refine .step (s1 := _) ?_ ?_ ?_ (ih _ _)
              · exact hin3.trans ⟨⟨rfl, rfl, rfl, rfl, rfl, rfl, .refl _⟩, rfl, rfl, rfl⟩
              · exact hfr2
              · exact fun good hg hgs => congrArg Prod.fst (hrest good hg hgs)

/-- How one step that returned can have ended. -/
inductive Ended (A : Arith F) (env : Env F V) (s s' : OptWorld F V Fact) : Prop where
  /-- Gauss-Newton: the linear system was not solved -/
  | unsolved (st : Status) : s.opt.settings.method = .gaussNewton → Status.isSystemError st → s'.heap = s.heap →
      s'.opt.stats = { s.opt.stats with valid := false, status := st } → Ended A env s s'
  /-- Gauss-Newton: the variables were moved -/
  | moved (dx r : List F) : s.opt.settings.method = .gaussNewton → Evaluated env s'.graph s'.heap r →
      s'.opt.stats = recorded A s.opt.stats dx r → Ended A env s s'
  /-- Levenberg-Marquardt: a trial was accepted -/
  | accepted (dx r0 r : List F) (lambda : F) : s.opt.settings.method = .levenbergMarquardt →
      Evaluated env s'.graph s.heap r0 → Evaluated env s'.graph s'.heap r →
      A.lt (A.mul (A.lit (1 / 2)) (A.sqNorm r)) (A.mul (A.lit (1 / 2)) (A.sqNorm r0)) = true →
      s'.opt.stats = recorded A { s.opt.stats with damping := lambda } dx r → Ended A env s s'
  /-- Levenberg-Marquardt: no trial was accepted -/
  | rejected (n : Nat) (r0 : List F) (lambda : F) (valid : Bool) (st : Status) : s.opt.settings.method = .levenbergMarquardt →
      Evaluated env s'.graph s.heap r0 →
      (∀ good, RestoresExactly good → GoodVars good s → s'.heap = s.heap) →
      s'.opt.stats = recorded A { s.opt.stats with damping := lambda, valid := valid, status := st }
        (List.replicate n (A.lit 0)) r0 →
      (if A.lt (A.mul (A.lit (1 / 2)) (A.sqNorm r0)) (A.mul s.opt.initialStats.chi2 (A.lit (1 / 2))) = true then
        valid = true ∧ st = .success else valid = false ∧ (st = .illConditioned ∨ st = .failed)) → Ended A env s s'

/-- What is known after a step. -/
structure StepPost (A : Arith F) (env : Env F V) (s : OptWorld F V Fact) (o : OptWorld F V Fact × Res Unit) : Prop where
  run : SameRun s o.1
  frame : ∀ r, (s.opt.settings.method = .gaussNewton ∧ VarLike.isConst (s.heap r) = true) ∨ Untouchable s r →
    o.1.heap r = s.heap r
  good : s.opt.settings.method = .levenbergMarquardt → ∀ good, RestoresExactly good → GoodVars good s → GoodVars good o.1
  ended : o.2 = .ok () → Ended A env s o.1
  interrupted : o.2 ≠ .ok () → ∃ lambda, o.1.opt.stats = { s.opt.stats with damping := lambda }

theorem lmRejected_eq (A : Arith F) (cost : F) (s : OptWorld F V Fact) : ∃ v st,
    lmRejected A cost s = ({ s with opt := { s.opt with stats := { s.opt.stats with valid := v, status := st } } }, .ok ()) ∧
    if A.lt cost (A.mul s.opt.initialStats.chi2 (A.lit (1 / 2))) = true then v = true ∧ st = .success
    else v = false ∧ (st = .illConditioned ∨ st = .failed) := by
  unfold lmRejected
  simp only [SE.bind_get]
  by_cases hlt : A.lt cost (A.mul s.opt.initialStats.chi2 (A.lit (1 / 2))) = true
  · refine ⟨true, .success, ?_, ?_⟩
    · rw [if_pos hlt]; rfl
    · rw [if_pos hlt]; exact ⟨rfl, rfl⟩
  · refine ⟨false, if A.le s.opt.settings.maxLambda s.opt.stats.damping = true then .illConditioned else .failed, ?_, ?_⟩
    · rw [if_neg hlt]; rfl
    rw [if_neg hlt]
    refine ⟨rfl, ?_⟩
    split
    · exact .inl rfl
    · exact .inr rfl

theorem levenbergMarquardtStep_post (A : Arith F) (L : LinAlg F Fact) (env : Env F V) (s : OptWorld F V Fact)
    (hg : s.opt.hasGraph = true) (hm : s.opt.settings.method = .levenbergMarquardt) :
    StepPost A env s (levenbergMarquardtStep A L env s) := by
  have hm' : ¬ s.opt.settings.method = .gaussNewton := by rw [hm]; simp
  unfold levenbergMarquardtStep
  simp only [SE.bind_get]
  rw [if_neg (by simp [hg])]
  rcases start_cases env _ s with ⟨s1, hs, hh, hst, e⟩ | ⟨s1, J, hs, hh, hst, hev, e⟩
  · have hgd : ∀ good, RestoresExactly good → GoodVars good s → GoodVars good s1 := by
      intro good _ hgs
      unfold GoodVars at *
      rw [hs.kept.varsVec, hh]
      exact hgs
    rcases e with e | e <;> rw [e] <;>
      exact ⟨hs, fun r _ => by rw [hh], fun _ => hgd, by simp, fun _ => ⟨_, hst⟩⟩
  rw [e]
  clear e
  simp only [SE.bind_get, modStats, SE.bind_modify]
  generalize hc : A.mul (A.lit (1 / 2)) (A.sqNorm s1.opt.residual1) = cost
  generalize hs2 : ({ s1 with opt := { s1.opt with stats := if s1.opt.stats.iteration = 0 then
    { s1.opt.stats with damping := s1.opt.settings.initialLambda } else s1.opt.stats } } : OptWorld F V Fact) = s2
  have hrun2 : SameRun s s2 := by subst hs2; exact hs.trans ⟨rfl, rfl, rfl, rfl, rfl, rfl, .refl _⟩
  have hh2 : s2.heap = s.heap := by subst hs2; exact hh
  have hr2 : s2.opt.residual1 = s1.opt.residual1 := by subst hs2; rfl
  have hg2 : s2.graph = s1.graph := by subst hs2; rfl
  have hst2 : ∃ l, s2.opt.stats = { s.opt.stats with damping := l } := by
    subst hs2
    by_cases h0 : s1.opt.stats.iteration = 0
    · exact ⟨s1.opt.settings.initialLambda, by dsimp only; rw [if_pos h0, hst]⟩
    · exact ⟨s.opt.stats.damping, by dsimp only; rw [if_neg h0, hst]⟩
  have hp := lmTrials_post A L env J cost 5 [] s2
  have hut : ∀ r, Untouchable s r → Untouchable s2 r := by
    intro r hr
    unfold Untouchable at *
    rw [hh2, hrun2.kept.varsVec]
    exact hr
  have hgv : ∀ good, GoodVars good s → GoodVars good s2 := by
    intro good hgs
    unfold GoodVars at *
    rw [hh2, hrun2.kept.varsVec]
    exact hgs
  obtain ⟨l2, hst2⟩ := hst2
  rcases ht : lmTrials A L env J cost 5 [] s2 with ⟨s3, res⟩
  rw [ht] at hp
  have hst3 : s3.opt.stats = { s.opt.stats with damping := s3.opt.stats.damping } := by
    rw [hp.inTrial.stats, hst2]
  have hfr : ∀ r, (s.opt.settings.method = .gaussNewton ∧ VarLike.isConst (s.heap r) = true) ∨ Untouchable s r →
      s3.heap r = s.heap r := by
    intro r hr
    rcases hr with hr | hr
    · exact absurd hr.1 hm'
    · rw [hp.frame r (hut r hr), hh2]
  have hgd : ∀ good, RestoresExactly good → GoodVars good s → GoodVars good s3 :=
    fun good hg hgs => hp.good good hg (hgv good hgs)
  have hrun3 := hrun2.trans hp.inTrial.run
  cases res with
  | threw =>
    rw [SE.bind_threw ht]
    exact ⟨hrun3, hfr, fun _ => hgd, by simp, fun _ => ⟨_, hst3⟩⟩
  | ub =>
    rw [SE.bind_ub ht]
    exact ⟨hrun3, hfr, fun _ => hgd, by simp, fun _ => ⟨_, hst3⟩⟩
  | ok p =>
    obtain ⟨acc, dx⟩ := p
    rw [SE.bind_ok ht]
    have hev0 : Evaluated env s3.graph s.heap s1.opt.residual1 := by
      rw [hp.inTrial.graph, hg2, ← hh]; exact hev
    cases acc with
    | true =>
      obtain ⟨hev3, hlt⟩ := hp.accept dx rfl
      refine ⟨hrun3.trans ⟨rfl, rfl, rfl, rfl, rfl, rfl, .refl _⟩, hfr, fun _ => hgd, fun _ => ?_, fun h => ?_⟩
      · refine .accepted dx s1.opt.residual1 s3.opt.residual2 s3.opt.stats.damping hm hev0 hev3 ?_ ?_
        · rw [hc]; exact hlt
        · rw [← hst3]; rfl
      · exact absurd rfl h
    | false =>
      have hrej : ∀ good, RestoresExactly good → GoodVars good s → s3.heap = s.heap :=
        fun good hg hgs => (hp.reject good hg (hgv good hgs) dx rfl).trans hh2
      have hr3 : s3.opt.residual1 = s1.opt.residual1 := hp.inTrial.residual1.trans hr2
      obtain ⟨v, st, erej, hverdict⟩ := lmRejected_eq A cost s3
      simp only [Bool.false_eq_true, if_false]
      rw [SE.bind_ok erej]
      simp only [modOpt, SE.bind_modify, SE.bind_get]
      refine ⟨hrun3.trans ⟨rfl, rfl, rfl, rfl, rfl, rfl, .refl _⟩, hfr, fun _ => hgd, fun _ => ?_, fun h => ?_⟩
      · refine .rejected dx.length s1.opt.residual1 s3.opt.stats.damping v st hm hev0 hrej ?_ ?_
        · simp only [recordStats, modStats, SE.modify, recorded, hr3]
          rw [hst3]
        · rw [hc, ← hrun3.init]; exact hverdict
      · exact absurd rfl h

theorem oneStep_post (A : Arith F) (L : LinAlg F Fact) (env : Env F V) (s : OptWorld F V Fact)
    (hg : s.opt.hasGraph = true) : StepPost A env s (oneStep A L env s) := by
  unfold oneStep
  simp only [SE.bind_get]
  cases hm : s.opt.settings.method with
  | levenbergMarquardt => exact levenbergMarquardtStep_post A L env s hg hm
  | gaussNewton =>
    dsimp only
    obtain ⟨h1, h2, h3⟩ := gaussNewtonStep_cases A L env s hg
    refine ⟨h1, fun r hr => h2 r ?_, fun h => by rw [hm] at h; simp at h, fun e => ?_, fun e => ?_⟩
    · rcases hr with hr | hr
      · exact .inr hr.2
      · by_cases hmem : r ∈ s.graph.varsVec
        · exact .inr (hr hmem).1
        · exact .inl hmem
    · rw [e] at h3
      rcases h3 with ⟨hh, st, hst, e'⟩ | ⟨dx, r, hev, e'⟩
      · exact .unsolved st hm hst hh e'
      · exact .moved dx r hm hev e'
    · refine ⟨s.opt.stats.damping, ?_⟩
      cases hr : (gaussNewtonStep A L env s).2 with
      | ok u => exact absurd hr e
      | threw => rw [hr] at h3; exact h3
      | ub => rw [hr] at h3; exact h3

end Opt
end Factorama
