import Verif.Lemmas.OptTrace
import Verif.Lemmas.OptLoop

/-!
# Two runs of the optimizer side by side
-/

namespace Factorama.Opt
open Spec Graph
variable {F V Fact : Type} [Zero F] [VarLike F V]

/-- The outcomes of two computations correspond, unless one of them is undefined. -/
inductive Matched {S α : Type} (Post : α → S → S → Prop) (Thr : S → S → Prop) : S × Res α → S × Res α → Prop where
  | ok {s s' : S} {a : α} : Post a s s' → Matched Post Thr (s, .ok a) (s', .ok a)
  | threw {s s' : S} : Thr s s' → Matched Post Thr (s, .threw) (s', .threw)
  | left {s : S} {p : S × Res α} : Matched Post Thr (s, .ub) p
  | right {s : S} {p : S × Res α} : Matched Post Thr p (s, .ub)

/-- Two computations started in corresponding states end with the same outcome in corresponding states. -/
def Rel {S α : Type} (Thr Pre : S → S → Prop) (m m' : SE S α) (Post : α → S → S → Prop) : Prop :=
  ∀ s s', Pre s s' → Matched Post Thr (m s) (m' s')

section
variable {S α β : Type} {Thr Pre : S → S → Prop}

theorem Rel.bind {m m' : SE S α} {k k' : α → SE S β} {Mid : α → S → S → Prop} {Post : β → S → S → Prop}
    (hm : Rel Thr Pre m m' Mid) (hk : ∀ a, Rel Thr (Mid a) (k a) (k' a) Post) :
    Rel Thr Pre (SE.bind m k) (SE.bind m' k') Post := by
  intro s s' hs
  have h := hm s s' hs
  rcases e : m s with ⟨t, r⟩
  rcases e' : m' s' with ⟨t', r'⟩
  rw [e, e'] at h
  cases h with
  | ok h1 => rw [SE.bind_ok e, SE.bind_ok e']; exact hk _ _ _ h1
  | threw h1 => rw [SE.bind_threw e, SE.bind_threw e']; exact .threw h1
  | left => rw [SE.bind_ub e]; exact .left
  | right => rw [SE.bind_ub e']; exact .right

theorem Rel.get {k k' : S → SE S β} {Post : β → S → S → Prop}
    (hk : ∀ s s', Pre s s' → Matched Post Thr (k s s) (k' s' s')) :
    Rel Thr Pre (SE.bind SE.get k) (SE.bind SE.get k') Post := hk

theorem Rel.ret {a : α} {Post : α → S → S → Prop} (h : ∀ s s', Pre s s' → Post a s s') :
    Rel Thr Pre (SE.ret a) (SE.ret a) Post := fun _ _ hs => .ok (h _ _ hs)

theorem Rel.undefined {Post : α → S → S → Prop} : Rel Thr Pre (SE.undefined : SE S α) SE.undefined Post :=
  fun _ _ _ => .left

theorem Rel.mono {m m' : SE S α} {Pre' : S → S → Prop} {Post Post' : α → S → S → Prop} (hm : Rel Thr Pre m m' Post)
    (h1 : ∀ s s', Pre' s s' → Pre s s') (h2 : ∀ a s s', Post a s s' → Post' a s s') : Rel Thr Pre' m m' Post' := by
  intro s s' hs
  have h := hm s s' (h1 _ _ hs)
  generalize m s = p, m' s' = p' at h
  cases h with
  | ok h => exact .ok (h2 _ _ _ h)
  | threw h => exact .threw h
  | left => exact .left
  | right => exact .right

end

/-- Residual vectors of the two runs. -/
abbrev ResPair (F : Type) := List F → List F → List F → List F → Prop

/-- Two states with the same variables and the same optimizer state except for the residual vectors. -/
def Twin (G : Heap V → Graph F V → Graph F V → Prop) (P : ResPair F) (s s' : OptWorld F V Fact) : Prop :=
  ∃ g' a b, s' = ⟨s.heap, g', { s.opt with residual1 := a, residual2 := b }⟩ ∧ G s.heap s.graph g' ∧
    P s.opt.residual1 a s.opt.residual2 b

/-- What the simulation needs to know about the two graphs and environments. `G` relates the graphs at given variables, `G1`
also relates their sparse Jacobians. -/
structure TwinLaws (A : Arith F) (L : LinAlg F Fact) (env env' : Env F V)
    (G G1 : Heap V → Graph F V → Graph F V → Prop) : Prop where
  weaken {h g g'} : G1 h g g' → G h g g'
  vars {h g g'} : G h g g' → g'.varsVec = g.varsVec
  place {h g g'} : G h g g' → g'.varPl = g.varPl
  shape {h h' g g'} : G h g g' → SameShape h h' → G h' g g'
  shape1 {h h' g g'} : G1 h g g' → SameShape h h' → G1 h' g g'
  residual {h g g'} (b b' : List F) : G h g g' →
    (∃ r r', computeResidualInto env g h b = (r, .ok ()) ∧ computeResidualInto env' g' h b' = (r', .ok ()) ∧
      A.sqNorm r = A.sqNorm r') ∨
    ((computeResidualInto env g h b).2 = .threw ∧ (computeResidualInto env' g' h b').2 = .threw) ∨
    (computeResidualInto env g h b).2 = .ub ∨ (computeResidualInto env' g' h b').2 = .ub
  initial {h g g'} : G1 h g g' →
    (∃ g1 g1' r r', computeResidual env h g = (g1, .ok r) ∧ computeResidual env' h g' = (g1', .ok r') ∧
      A.sqNorm r = A.sqNorm r' ∧ G1 h g1 g1') ∨
    (∃ g1 g1', computeResidual env h g = (g1, .threw) ∧ computeResidual env' h g' = (g1', .threw) ∧ G h g1 g1') ∨
    (computeResidual env h g).2 = .ub ∨ (computeResidual env' h g').2 = .ub
  sparse {h g g'} : G h g g' →
    (∃ g1 g1' J J', computeSparse h g = (g1, .ok J) ∧ computeSparse h g' = (g1', .ok J') ∧ G1 h g1 g1' ∧
      L.gram J = L.gram J' ∧
      ∀ r r', Evaluated env g h r → Evaluated env' g' h r' → L.rhs J r = L.rhs J' r') ∨
    (∃ g1 g1', computeSparse h g = (g1, .threw) ∧ computeSparse h g' = (g1', .threw) ∧ G h g1 g1') ∨
    (computeSparse h g).2 = .ub ∨ (computeSparse h g').2 = .ub
  jac {h g g'} : G1 h g g' →
    (∃ J J', g.sparseJacobian = .ok J ∧ g'.sparseJacobian = .ok J' ∧ L.gram J = L.gram J') ∨
    (g.sparseJacobian = .threw ∧ g'.sparseJacobian = .threw)

section
variable {A : Arith F} {L : LinAlg F Fact} {env env' : Env F V} {G G1 : Heap V → Graph F V → Graph F V → Prop}

/-- No condition on the residual vectors. -/
abbrev anyPair : ResPair F := fun _ _ _ _ => True

theorem Twin.mono {G G' : Heap V → Graph F V → Graph F V → Prop} {P P' : ResPair F} (hG : ∀ {h g g'}, G h g g' → G' h g g')
    (hP : ∀ a b c d, P a b c d → P' a b c d) {s s' : OptWorld F V Fact} (h : Twin G P s s') : Twin G' P' s s' := by
  obtain ⟨g', a, b, e, h1, h2⟩ := h
  exact ⟨g', a, b, e, hG h1, hP _ _ _ _ h2⟩

theorem Rel.modStats {Thr : OptWorld F V Fact → OptWorld F V Fact → Prop} {P : ResPair F} (f : Stats F → Stats F) :
    Rel Thr (Twin G P) (Opt.modStats f : SE (OptWorld F V Fact) Unit) (Opt.modStats f) fun _ => Twin G P := by
  rintro s _ ⟨g', a, b, rfl, h1, h2⟩
  exact .ok ⟨g', a, b, rfl, h1, h2⟩

theorem Rel.setSolver {Thr : OptWorld F V Fact → OptWorld F V Fact → Prop} {P : ResPair F} (f : Option Fact) :
    Rel Thr (Twin G P) (Opt.modOpt fun o => { o with solver := f } : SE (OptWorld F V Fact) Unit)
      (Opt.modOpt fun o => { o with solver := f }) fun _ => Twin G P := by
  rintro s _ ⟨g', a, b, rfl, h1, h2⟩
  exact .ok ⟨g', a, b, rfl, h1, h2⟩

theorem Rel.raiseLambda {Thr : OptWorld F V Fact → OptWorld F V Fact → Prop} {P : ResPair F} (A : Arith F) :
    Rel Thr (Twin G P) (Opt.raiseLambda A : SE (OptWorld F V Fact) Unit) (Opt.raiseLambda A) fun _ => Twin G P := by
  rintro s _ ⟨g', a, b, rfl, h1, h2⟩
  exact .ok ⟨g', a, b, rfl, h1, h2⟩

variable [LawfulVar F V]

/-- Code that changes variables only. -/
theorem Rel.onHeap {α : Type} {P : ResPair F} {m : Graph F V → SE (Heap V) α}
    (weaken : ∀ {h g g'}, G1 h g g' → G h g g') (shape1 : ∀ {h h' g g'}, G1 h g g' → SameShape h h' → G1 h' g g')
    (hm : ∀ {h g g'}, G1 h g g' → m g' = m g) (ht : ∀ g, HeapTraced (F := F) (m g)) :
    Rel (Twin G anyPair) (Twin G1 P) (Opt.onHeap m : SE (OptWorld F V Fact) α) (Opt.onHeap m) fun _ => Twin G1 P := by
  rintro s _ ⟨g', a, b, rfl, h1, h2⟩
  have e := hm h1
  unfold Opt.onHeap
  dsimp only
  rw [e]
  rcases hr : m s.graph s.heap with ⟨h', r⟩
  have hs : r ≠ .ub → SameShape s.heap h' := by
    intro hne
    have := ht s.graph s.graph s.heap
    rw [hr] at this
    obtain ⟨evs, hv, hrun⟩ := this hne
    exact (kept_runs hrun hv).2
  cases r with
  | ok x => exact .ok ⟨g', a, b, rfl, shape1 h1 (hs (by simp)), h2⟩
  | threw => exact .threw ⟨g', a, b, rfl, weaken (shape1 h1 (hs (by simp))), trivial⟩
  | ub => exact .left

theorem Rel.stepVariables (hL : TwinLaws A L env env' G G1) {P : ResPair F} (dx : List F) :
    Rel (Twin G anyPair) (Twin G1 P) (Opt.stepVariables dx : SE (OptWorld F V Fact) Unit) (Opt.stepVariables dx)
      fun _ => Twin G1 P := by
  refine Rel.onHeap hL.weaken hL.shape1 (fun {h g g'} h1 => ?_) fun g => .forEach (fun r => .stepVariable env g dx r) _
  have e1 := hL.vars (hL.weaken h1)
  have e2 := hL.place (hL.weaken h1)
  have : stepVariable g' dx = stepVariable g dx := by
    funext r
    simp only [stepVariable, variablePlacement, e2]
  rw [e1, this]

theorem Rel.restoreValues (hL : TwinLaws A L env env' G G1) {P : ResPair F} (saved : List (VRef × List F)) :
    Rel (Twin G anyPair) (Twin G1 P) (Opt.restoreValues saved : SE (OptWorld F V Fact) Unit) (Opt.restoreValues saved)
      fun _ => Twin G1 P :=
  Rel.onHeap hL.weaken hL.shape1 (fun _ => rfl) fun _ => .forEach (fun p : VRef × List F => .set env p.1 p.2) _

omit [LawfulVar F V] in
theorem Rel.evalResidual2 (hL : TwinLaws A L env env' G G1) {P : List F → List F → Prop} :
    Rel (Twin G anyPair) (Twin G1 fun a b _ _ => P a b) (Opt.evalResidual2 env : SE (OptWorld F V Fact) Unit)
      (Opt.evalResidual2 env') fun _ => Twin G1 fun a b c d => P a b ∧ A.sqNorm c = A.sqNorm d := by
  rintro s _ ⟨g', a, b, rfl, h1, h2⟩
  rw [evalResidual2_eq, evalResidual2_eq]
  dsimp only
  rcases hL.residual s.opt.residual2 b (hL.weaken h1) with ⟨r, r', e, e', hn⟩ | ⟨e, e'⟩ | e | e'
  · rw [e, e']
    exact .ok ⟨g', a, r', rfl, h1, h2, hn⟩
  · rw [e, e']
    exact .threw ⟨g', a, _, rfl, hL.weaken h1, trivial⟩
  · rw [e]; exact .left
  · rw [e']; exact .right

/-- The common start of both step functions. -/
theorem Rel.start (hL : TwinLaws A L env env' G G1) {P : ResPair F} {α : Type} {k k' : SpMat F → SE (OptWorld F V Fact) α}
    {Post : α → OptWorld F V Fact → OptWorld F V Fact → Prop}
    (hk : ∀ J J' r r', L.gram J = L.gram J' → L.rhs J r = L.rhs J' r' → A.sqNorm r = A.sqNorm r' →
      Rel (Twin G anyPair) (Twin G1 fun a b _ _ => a = r ∧ b = r') (k J) (k' J') Post) :
    Rel (Twin G anyPair) (Twin G1 P) (SE.bind (Opt.evalResidual1 env) fun _ => SE.bind evalSparse k)
      (SE.bind (Opt.evalResidual1 env') fun _ => SE.bind evalSparse k') Post := by
  rintro s _ ⟨g', a, b, rfl, h1, h2⟩
  rcases hL.residual s.opt.residual1 a (hL.weaken h1) with ⟨r, r', e, e', hn⟩ | ⟨e, e'⟩ | e | e'
  · have e1 : Opt.evalResidual1 env s = ({ s with opt := { s.opt with residual1 := r } }, .ok ()) := by
      rw [evalResidual1_eq, e]
    have e1' : Opt.evalResidual1 env' ⟨s.heap, g', { s.opt with residual1 := a, residual2 := b }⟩ =
        (⟨s.heap, g', { s.opt with residual1 := r', residual2 := b }⟩, .ok ()) := by
      rw [evalResidual1_eq]
      dsimp only
      rw [e']
    rw [SE.bind_ok e1, SE.bind_ok e1']
    rcases hL.sparse (hL.weaken h1) with ⟨g1, g1', J, J', f, f', h3, h4, h5⟩ | ⟨g1, g1', f, f', h3⟩ | f | f
    · have e2 : evalSparse { s with opt := { s.opt with residual1 := r } } =
          (({ s with opt := { s.opt with residual1 := r }, graph := g1 } : OptWorld F V Fact), .ok J) := by
        simp only [evalSparse, f]
      have e2' : evalSparse ⟨s.heap, g', { s.opt with residual1 := r', residual2 := b }⟩ =
          ((⟨s.heap, g1', { s.opt with residual1 := r', residual2 := b }⟩ : OptWorld F V Fact), .ok J') := by
        simp only [evalSparse, f']
      rw [SE.bind_ok e2, SE.bind_ok e2']
      exact hk J J' r r' h4 (h5 r r' ⟨_, e⟩ ⟨_, e'⟩) hn _ _ ⟨g1', r', b, rfl, h3, rfl, rfl⟩
    · have e2 : evalSparse { s with opt := { s.opt with residual1 := r } } =
          (({ s with opt := { s.opt with residual1 := r }, graph := g1 } : OptWorld F V Fact), .threw) := by
        simp only [evalSparse, f]
      have e2' : evalSparse ⟨s.heap, g', { s.opt with residual1 := r', residual2 := b }⟩ =
          ((⟨s.heap, g1', { s.opt with residual1 := r', residual2 := b }⟩ : OptWorld F V Fact), .threw) := by
        simp only [evalSparse, f']
      rw [SE.bind_threw e2, SE.bind_threw e2']
      exact .threw ⟨g1', r', b, rfl, h3, trivial⟩
    · have e2 : ∃ t, evalSparse { s with opt := { s.opt with residual1 := r } } = ((t : OptWorld F V Fact), .ub) :=
        ⟨_, Prod.ext rfl f⟩
      obtain ⟨t, e2⟩ := e2
      rw [SE.bind_ub e2]
      exact .left
    · have e2 : ∃ t, evalSparse ⟨s.heap, g', { s.opt with residual1 := r', residual2 := b }⟩ =
          ((t : OptWorld F V Fact), .ub) := ⟨_, Prod.ext rfl f⟩
      obtain ⟨t, e2⟩ := e2
      rw [SE.bind_ub e2]
      exact .right
  · have e1 : Opt.evalResidual1 env s = ({ s with opt := { s.opt with
        residual1 := (computeResidualInto env s.graph s.heap s.opt.residual1).1 } }, .threw) := by
      rw [evalResidual1_eq, e]
    have e1' : Opt.evalResidual1 env' ⟨s.heap, g', { s.opt with residual1 := a, residual2 := b }⟩ =
        (⟨s.heap, g', { s.opt with
          residual1 := (computeResidualInto env' g' s.heap a).1, residual2 := b }⟩, .threw) := by
      rw [evalResidual1_eq]
      dsimp only
      rw [e']
    rw [SE.bind_threw e1, SE.bind_threw e1']
    exact .threw ⟨g', _, b, rfl, hL.weaken h1, trivial⟩
  · have e2 : ∃ t, Opt.evalResidual1 env s = ((t : OptWorld F V Fact), .ub) := ⟨_, Prod.ext rfl e⟩
    obtain ⟨t, e2⟩ := e2
    rw [SE.bind_ub e2]
    exact .left
  · have e2 : ∃ t, Opt.evalResidual1 env' ⟨s.heap, g', { s.opt with residual1 := a, residual2 := b }⟩ =
        ((t : OptWorld F V Fact), .ub) := ⟨_, Prod.ext rfl e'⟩
    obtain ⟨t, e2⟩ := e2
    rw [SE.bind_ub e2]
    exact .right

omit [LawfulVar F V] in
theorem Twin.forget {P : ResPair F} {s s' : OptWorld F V Fact} (h : Twin G P s s') : Twin G anyPair s s' :=
  h.mono id fun _ _ _ _ _ => trivial

omit [LawfulVar F V] in
theorem Rel.giveUp {P : ResPair F} {Thr : OptWorld F V Fact → OptWorld F V Fact → Prop} (st : Status) :
    Rel Thr (Twin G P) (Opt.giveUp st : SE (OptWorld F V Fact) Unit) (Opt.giveUp st) fun _ => Twin G anyPair :=
  (Rel.modStats _).mono (fun _ _ h => h) fun _ _ _ h => h.forget

omit [LawfulVar F V] in
/-- The statistics written at the end of a step. -/
theorem Rel.record {P : List F → List F → Prop} {Thr : OptWorld F V Fact → OptWorld F V Fact → Prop} (dx : List F) :
    Rel Thr (Twin G fun a b c d => P a b ∧ A.sqNorm c = A.sqNorm d)
      (SE.bind SE.get fun s => Opt.recordStats A dx s.opt.residual2 : SE (OptWorld F V Fact) Unit)
      (SE.bind SE.get fun s => Opt.recordStats A dx s.opt.residual2) fun _ => Twin G anyPair := by
  rintro s _ ⟨g', a, b, rfl, h1, h2, h3⟩
  refine .ok ⟨g', a, b, ?_, h1, trivial⟩
  simp only [Arith.norm, h3]

/-- Two Gauss-Newton steps. -/
theorem Rel.gaussNewtonStep (hL : TwinLaws A L env env' G G1) {P : ResPair F} :
    Rel (Twin G anyPair) (Twin G1 P) (Opt.gaussNewtonStep A L env) (Opt.gaussNewtonStep A L env')
      fun _ => Twin G1 anyPair := by
  refine Rel.get fun s s' hs => ?_
  have hg : s'.opt.hasGraph = s.opt.hasGraph := by
    obtain ⟨g', a, b, rfl, h1, h2⟩ := hs
    rfl
  rw [hg]
  by_cases h0 : (!s.opt.hasGraph) = true
  · rw [if_pos h0, if_pos h0]
    exact .threw (hs.mono hL.weaken fun _ _ _ _ _ => trivial)
  rw [if_neg h0, if_neg h0]
  refine Rel.start hL (fun J J' r r' e1 e2 e3 => ?_) s s' hs
  refine Rel.get fun t t' ht => ?_
  have hr : t.opt.residual1 = r ∧ t'.opt.residual1 = r' ∧ t'.opt.settings = t.opt.settings := by
    obtain ⟨g', a, b, rfl, h1, h2, h3⟩ := ht
    exact ⟨h2, h3, rfl⟩
  rw [hr.1, hr.2.1, hr.2.2, ← e1, ← e2]
  dsimp only
  generalize t.opt.settings.learningRate = lr
  cases L.factorize (L.gram J) with
  | none => exact Rel.bind (Rel.setSolver _) (fun _ => Rel.giveUp _) t t' ht
  | some f =>
    refine Rel.bind (Rel.setSolver _) (fun _ => ?_) t t' ht
    split
    · exact .undefined
    split
    · exact .giveUp _
    split
    · exact .giveUp _
    cases L.solve f (L.rhs J r) with
    | none => exact .giveUp _
    | some d =>
      refine Rel.bind (Rel.stepVariables hL _) fun _ => ?_
      refine Rel.bind ((Rel.evalResidual2 hL).mono (fun _ _ h => h) fun _ _ _ h => h) fun _ => ?_
      exact Rel.record _

/-- Two runs of the trial loop. -/
theorem Rel.lmTrials (hL : TwinLaws A L env env' G G1) {J J' : SpMat F} {r r' : List F} (cost : F)
    (e1 : L.gram J = L.gram J') (e2 : L.rhs J r = L.rhs J' r') (k : Nat) : ∀ dx,
    Rel (Twin G anyPair) (Twin G1 fun a b _ _ => a = r ∧ b = r') (Opt.lmTrials A L env J cost k dx)
      (Opt.lmTrials A L env' J' cost k dx) fun res => Twin G1 fun a b c d =>
        (a = r ∧ b = r') ∧ (res.1 = true → A.sqNorm c = A.sqNorm d) := by
  have hend : ∀ dx, Rel (Twin G anyPair) (Twin G1 fun a b _ _ => a = r ∧ b = r')
      (SE.ret (false, dx) : SE (OptWorld F V Fact) (Bool × List F)) (SE.ret (false, dx)) fun res => Twin G1 fun a b c d =>
        (a = r ∧ b = r') ∧ (res.1 = true → A.sqNorm c = A.sqNorm d) := fun dx =>
    .ret fun _ _ h => h.mono id fun _ _ _ _ h => ⟨h, fun hh => by simp at hh⟩
  induction k with
  | zero => exact hend
  | succ k ih =>
    intro dx
    unfold Opt.lmTrials
    refine Rel.get fun t t' ht => ?_
    have hr : t.opt.residual1 = r ∧ t'.opt.residual1 = r' ∧ t'.opt.settings = t.opt.settings ∧
        t'.opt.stats = t.opt.stats ∧ saveValues t' = saveValues t := by
      obtain ⟨g', a, b, rfl, h1, h2, h3⟩ := ht
      exact ⟨h2, h3, rfl, rfl, by simp only [saveValues, hL.vars (hL.weaken h1)]⟩
    rw [hr.1, hr.2.1, hr.2.2.1, hr.2.2.2.1, hr.2.2.2.2, ← e1, ← e2]
    dsimp only
    generalize t.opt.settings = S
    generalize t.opt.stats.damping = lam
    generalize saveValues t = saved
    cases L.factorize (addDiagonal A (L.gram J) lam) with
    | none => exact Rel.bind (Rel.setSolver _) (fun _ => Rel.bind (Rel.raiseLambda A) fun _ => ih _) t t' ht
    | some f =>
      refine Rel.bind (Rel.setSolver _) (fun _ => ?_) t t' ht
      split
      · exact .undefined
      split
      · exact Rel.bind (Rel.raiseLambda A) fun _ => ih _
      cases L.solve f (L.rhs J r) with
      | none => exact Rel.bind (Rel.raiseLambda A) fun _ => ih _
      | some d =>
        refine Rel.bind (Rel.stepVariables hL _) fun _ => ?_
        refine Rel.bind (Rel.evalResidual2 hL (P := fun a b => a = r ∧ b = r')) fun _ => ?_
        refine Rel.get fun u u' hu => ?_
        have hn : A.sqNorm u'.opt.residual2 = A.sqNorm u.opt.residual2 := by
          obtain ⟨g', a, b, rfl, h1, h2, h3⟩ := hu
          exact h3.symm
        rw [hn]
        split
        · refine Rel.bind (Rel.modStats _) (fun _ => ?_) u u' hu
          refine Rel.ret fun _ _ h => ?_
          exact h.mono id fun _ _ _ _ h => ⟨h.1, fun _ => h.2⟩
        · refine Rel.bind (Mid := fun _ => Twin G1 fun a b _ _ => a = r ∧ b = r')
            ((Rel.restoreValues hL saved).mono (fun _ _ h => h) fun _ _ _ h => h.mono id fun _ _ _ _ h => h.1)
            (fun _ => ?_) u u' hu
          refine Rel.bind (Rel.modStats _) fun _ => ?_
          refine Rel.get fun w w' hw => ?_
          have hd : w'.opt.stats.damping = w.opt.stats.damping := by
            obtain ⟨g', a, b, rfl, h1, h2⟩ := hw
            rfl
          rw [hd]
          split
          · exact hend _ w w' hw
          · exact ih _ w w' hw

/-- Two Levenberg-Marquardt steps. -/
theorem Rel.levenbergMarquardtStep (hL : TwinLaws A L env env' G G1) {P : ResPair F} :
    Rel (Twin G anyPair) (Twin G1 P) (Opt.levenbergMarquardtStep A L env) (Opt.levenbergMarquardtStep A L env')
      fun _ => Twin G1 anyPair := by
  refine Rel.get fun s s' hs => ?_
  have hg : s'.opt.hasGraph = s.opt.hasGraph := by
    obtain ⟨g', a, b, rfl, h1, h2⟩ := hs
    rfl
  rw [hg]
  by_cases h0 : (!s.opt.hasGraph) = true
  · rw [if_pos h0, if_pos h0]
    exact .threw (hs.mono hL.weaken fun _ _ _ _ _ => trivial)
  rw [if_neg h0, if_neg h0]
  refine Rel.start hL (fun J J' r r' e1 e2 e3 => ?_) s s' hs
  refine Rel.get fun t t' ht => ?_
  have hr : t.opt.residual1 = r ∧ t'.opt.residual1 = r' ∧ t'.opt.settings = t.opt.settings := by
    obtain ⟨g', a, b, rfl, h1, h2, h3⟩ := ht
    exact ⟨h2, h3, rfl⟩
  rw [hr.1, hr.2.1, hr.2.2, ← e3]
  generalize t.opt.settings = S
  refine Rel.bind (Rel.modStats _) (fun _ => ?_) t t' ht
  refine Rel.bind (Rel.lmTrials hL _ e1 e2 5 []) fun res => ?_
  rcases res with ⟨b, dx⟩
  cases b with
  | true =>
    refine (Rel.record (P := fun a b => a = r ∧ b = r') dx).mono (fun _ _ h => ?_) fun _ _ _ h => h
    exact h.mono id fun _ _ _ _ h => ⟨h.1, h.2 rfl⟩
  | false =>
    refine Rel.bind (Mid := fun _ => Twin G1 fun a b _ _ => a = r ∧ b = r') ?_ fun _ => ?_
    · refine Rel.get fun u u' hu => ?_
      have hw : u'.opt.initialStats = u.opt.initialStats ∧ u'.opt.settings = u.opt.settings := by
        obtain ⟨g', a, b, rfl, h1, h2⟩ := hu
        exact ⟨rfl, rfl⟩
      rw [hw.1, hw.2]
      have hu' : Twin G1 (fun a b _ _ => a = r ∧ b = r') u u' := hu.mono id fun _ _ _ _ h => h.1
      split
      · exact Rel.modStats _ u u' hu'
      · exact Rel.modStats _ u u' hu'
    refine Rel.bind (Mid := fun _ => Twin G1 fun a b c d => (a = r ∧ b = r') ∧ A.sqNorm c = A.sqNorm d) ?_ fun _ => ?_
    · rintro u _ ⟨g', a, b, rfl, h1, h2, h3⟩
      exact .ok ⟨g', a, a, rfl, h1, ⟨h2, h3⟩, by show A.sqNorm u.opt.residual1 = A.sqNorm a; rw [h2, h3, e3]⟩
    · exact Rel.record _

theorem Rel.oneStep (hL : TwinLaws A L env env' G G1) {P : ResPair F} :
    Rel (Twin G anyPair) (Twin G1 P) (Opt.oneStep A L env) (Opt.oneStep A L env') fun _ => Twin G1 anyPair := by
  refine Rel.get fun s s' hs => ?_
  have hg : s'.opt.settings = s.opt.settings := by
    obtain ⟨g', a, b, rfl, h1, h2⟩ := hs
    rfl
  rw [hg]
  cases s.opt.settings.method with
  | gaussNewton => exact Rel.gaussNewtonStep hL s s' hs
  | levenbergMarquardt => exact Rel.levenbergMarquardtStep hL s s' hs

/-- What holds after the main loop: also the sparse Jacobians correspond, unless an iteration was interrupted. -/
def AfterLoop (G G1 : Heap V → Graph F V → Graph F V → Prop) (s s' : OptWorld F V Fact) : Prop :=
  Twin G anyPair s s' ∧ (s.opt.stats.status ≠ .failed → Twin G1 anyPair s s')

theorem Rel.iterate (hL : TwinLaws A L env env' G G1) (n : Nat) {P : ResPair F} :
    Rel (Twin G anyPair) (Twin G1 P) (Opt.iterate A L env n) (Opt.iterate A L env' n) fun _ => AfterLoop G G1 := by
  induction n generalizing P with
  | zero => exact .ret fun _ _ h => ⟨(h.mono hL.weaken fun _ _ _ _ h => h).forget, fun _ => h.forget⟩
  | succ n ih =>
    intro s s' hs
    have h := Rel.oneStep hL s s' hs
    unfold Opt.iterate
    have hst : s'.opt.stats = s.opt.stats := by
      obtain ⟨g', a, b, rfl, h1, h2⟩ := hs
      rfl
    rw [hst]
    generalize Opt.oneStep A L env s = p, Opt.oneStep A L env' s' = p' at h ⊢
    cases h with
    | left => exact .left
    | right => exact .right
    | threw h =>
      obtain ⟨g', a, b, rfl, h1, h2⟩ := h
      exact .ok ⟨⟨g', a, b, rfl, h1, h2⟩, fun hne => absurd rfl hne⟩
    | ok h =>
      obtain ⟨g', a, b, rfl, h1, h2⟩ := h
      dsimp only
      split
      · exact .ok ⟨⟨g', a, b, rfl, hL.weaken h1, h2⟩, fun _ => ⟨g', a, b, rfl, h1, h2⟩⟩
      · exact ih _ _ ⟨g', a, b, rfl, h1, h2⟩

/-- Two runs of `optimize`. -/
theorem Rel.optimize (hL : TwinLaws A L env env' G G1) {P : ResPair F} :
    Rel (Twin G anyPair) (Twin G1 P) (Opt.optimize A L env) (Opt.optimize A L env') fun _ => AfterLoop G G1 := by
  refine Rel.get fun s s' hs => ?_
  have hg : s'.opt.hasGraph = s.opt.hasGraph ∧ s'.opt.settings = s.opt.settings := by
    obtain ⟨g', a, b, rfl, h1, h2⟩ := hs
    exact ⟨rfl, rfl⟩
  rw [hg.1, hg.2]
  by_cases h0 : (!s.opt.hasGraph) = true
  · rw [if_pos h0, if_pos h0]
    exact .threw (hs.mono hL.weaken fun _ _ _ _ _ => trivial)
  rw [if_neg h0, if_neg h0]
  generalize s.opt.settings.maxIterations = n
  refine Rel.bind (Rel.modStats _) (fun _ => ?_) s s' hs
  rintro t _ ⟨g', a, b, rfl, h1, h2⟩
  rcases hL.initial h1 with ⟨g1, g1', r, r', e, e', hn, h3⟩ | ⟨g1, g1', e, e', h3⟩ | e | e
  · have f : evalInitial env t = (({ t with graph := g1 } : OptWorld F V Fact), .ok r) := by simp only [evalInitial, e]
    have f' : evalInitial env' ⟨t.heap, g', { t.opt with residual1 := a, residual2 := b }⟩ =
        ((⟨t.heap, g1', { t.opt with residual1 := a, residual2 := b }⟩ : OptWorld F V Fact), .ok r') := by
      simp only [evalInitial, e']
    rw [SE.bind_ok f, SE.bind_ok f']
    simp only [Arith.norm, ← hn]
    refine Rel.bind (Rel.modStats (G := G1) (P := anyPair) _) (fun _ => ?_) _ _ ⟨g1', a, b, rfl, h3, trivial⟩
    refine Rel.bind (Mid := fun _ => Twin G1 anyPair) ?_ fun _ => ?_
    · rintro u _ ⟨g', a, b, rfl, h1, h2⟩
      exact .ok ⟨g', a, b, rfl, h1, h2⟩
    refine Rel.bind (Rel.iterate hL n) fun _ => ?_
    refine Rel.bind (Mid := fun _ => AfterLoop G G1) ?_ fun _ => ?_
    · rintro u _ ⟨⟨g', a, b, rfl, h1, h2⟩, h3⟩
      refine .ok ⟨⟨g', a, b, rfl, h1, h2⟩, fun hne => ?_⟩
      have hne' : u.opt.stats.status ≠ .failed := by
        intro hu
        apply hne
        simp [hu]
      obtain ⟨g2, a2, b2, e, h4, h5⟩ := h3 hne'
      injection e with e1 e2 e3
      subst e2
      exact ⟨g', a, b, rfl, h4, trivial⟩
    · rintro u _ ⟨⟨g', a, b, rfl, h1, h2⟩, h3⟩
      refine .ok ⟨⟨g', a, b, rfl, h1, h2⟩, fun hne => ?_⟩
      obtain ⟨g2, a2, b2, e, h4, h5⟩ := h3 hne
      injection e with e1 e2 e3
      subst e2
      exact ⟨g', a, b, rfl, h4, trivial⟩
  · have f : evalInitial env t = (({ t with graph := g1 } : OptWorld F V Fact), .threw) := by simp only [evalInitial, e]
    have f' : evalInitial env' ⟨t.heap, g', { t.opt with residual1 := a, residual2 := b }⟩ =
        ((⟨t.heap, g1', { t.opt with residual1 := a, residual2 := b }⟩ : OptWorld F V Fact), .threw) := by
      simp only [evalInitial, e']
    rw [SE.bind_threw f, SE.bind_threw f']
    exact .threw ⟨g1', a, b, rfl, h3, trivial⟩
  · have e2 : ∃ u, evalInitial env t = ((u : OptWorld F V Fact), .ub) := ⟨_, Prod.ext rfl e⟩
    obtain ⟨u, e2⟩ := e2
    rw [SE.bind_ub e2]
    exact .left
  · have e2 : ∃ u, evalInitial env' ⟨t.heap, g', { t.opt with residual1 := a, residual2 := b }⟩ =
        ((u : OptWorld F V Fact), .ub) := ⟨_, Prod.ext rfl e⟩
    obtain ⟨u, e2⟩ := e2
    rw [SE.bind_ub e2]
    exact .right

omit [LawfulVar F V] in
/-- Two calls of `prepare_to_estimate_covariances`. -/
theorem Rel.prepare (hjac : ∀ {h g g'}, G1 h g g' →
    (∃ J J', g.sparseJacobian = .ok J ∧ g'.sparseJacobian = .ok J' ∧ L.gram J = L.gram J') ∨
    (g.sparseJacobian = .threw ∧ g'.sparseJacobian = .threw)) :
    Rel (Twin G1 anyPair) (Twin G1 anyPair) (Opt.prepare A L : SE (OptWorld F V Fact) Unit) (Opt.prepare A L)
      fun _ => Twin G1 anyPair := by
  rintro s _ ⟨g', a, b, rfl, h1, h2⟩
  have key : ∀ J : SpMat F, Matched (fun _ : Unit => Twin G1 anyPair) (Twin G1 anyPair)
      ((match L.factorize (L.gram J) with
        | none => modOpt fun o => { o with hessian := L.gram J, solver := none }
        | some f =>
          if ((L.vectorD f).map A.abs).isEmpty then
            SE.bind (modOpt fun o => { o with hessian := L.gram J, solver := some f }) fun _ => SE.undefined
          else modOpt fun o => { o with hessian := L.gram J, solver := some f, hessianValid := true } :
            SE (OptWorld F V Fact) Unit) s)
      ((match L.factorize (L.gram J) with
        | none => modOpt fun o => { o with hessian := L.gram J, solver := none }
        | some f =>
          if ((L.vectorD f).map A.abs).isEmpty then
            SE.bind (modOpt fun o => { o with hessian := L.gram J, solver := some f }) fun _ => SE.undefined
          else modOpt fun o => { o with hessian := L.gram J, solver := some f, hessianValid := true } :
            SE (OptWorld F V Fact) Unit) ⟨s.heap, g', { s.opt with residual1 := a, residual2 := b }⟩) := by
    intro J
    cases L.factorize (L.gram J) with
    | none => exact .ok ⟨g', a, b, rfl, h1, h2⟩
    | some f =>
      dsimp only
      split
      · exact .left
      · exact .ok ⟨g', a, b, rfl, h1, h2⟩
  unfold Opt.prepare
  rw [SE.bind_get, SE.bind_get]
  dsimp only
  split
  · exact .ok ⟨g', a, b, rfl, h1, h2⟩
  split
  · exact .ok ⟨g', a, b, rfl, h1, h2⟩
  rcases hjac h1 with ⟨J, J', e, e', hg⟩ | ⟨e, e'⟩
  · rw [e, e']
    have k1 := key J
    unfold SE.bind SE.lift
    dsimp only
    rw [← hg]
    exact k1
  · rw [e, e']
    exact .threw ⟨g', a, b, rfl, h1, h2⟩

omit [LawfulVar F V] in
/-- `estimate_covariance` in corresponding states. -/
theorem Twin.covariance (hplace : ∀ {h g g'}, G h g g' → g'.varPl = g.varPl) {P : ResPair F} {s s' : OptWorld F V Fact} (h : Twin G P s s')
    (v : Option VRef) : estimateCovariance A L s' v = estimateCovariance A L s v := by
  obtain ⟨g', a, b, rfl, h1, h2⟩ := h
  have hp : g'.variablePlacement = s.graph.variablePlacement := by
    funext i
    simp only [variablePlacement, hplace h1]
  cases v with
  | none => rfl
  | some r =>
    unfold estimateCovariance
    simp only [hp]

end

end Factorama.Opt
