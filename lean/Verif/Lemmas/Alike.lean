import Verif.Lemmas.Order
import Verif.Spec.Unused

/-! Helper lemmas: graphs over the same variables whose factors lead to the same linear systems. -/

namespace Factorama.Opt
open Spec Graph
variable {F V Fact : Type} [Zero F] [VarLike F V]

/-- `J` is the stacked Jacobian of the factors at `h`. -/
structure Stacks (h : Heap V) (vars : List VRef) (facs : List (Factor F V)) (J : SpMat F) : Prop where
  rows : J.rows = rowTotal facs
  columns : J.columns.length = freeTotal h vars
  jacobian : ∃ blocks : Nat → List (Mat F),
    (∀ (k : Nat) f, facs[k]? = some f → f.computeJacobians h [] = .ok (blocks k) ∧ ProperBlocks h f (blocks k)) ∧
    IsStackedJacobian h vars facs blocks J.coeff

/-- Whenever the first list of factors can be evaluated, so can the second, with the same cost and the same linear system. -/
structure SameSystems (A : Arith F) (L : LinAlg F Fact) (vars : List VRef) (facs facs' : List (Factor F V)) : Prop where
  residual : ∀ h r, IsResidual h facs r → ∃ r', IsResidual h facs' r' ∧ A.sqNorm r = A.sqNorm r'
  jacobians : ∀ h, (∀ f ∈ facs, ∃ js, f.computeJacobians h [] = .ok js) → ∀ f ∈ facs', ∃ js, f.computeJacobians h [] = .ok js
  free : ∀ h : Heap V, (∃ f ∈ facs, ∃ r, some r ∈ f.variables ∧ VarLike.isConst (h r) = false) →
    ∃ f ∈ facs', ∃ r, some r ∈ f.variables ∧ VarLike.isConst (h r) = false
  gram : ∀ h J J', Stacks h vars facs J → Stacks h vars facs' J' → L.gram J = L.gram J'
  rhs : ∀ h J J' r r', Stacks h vars facs J → Stacks h vars facs' J' → IsResidual h facs r → IsResidual h facs' r' →
    L.rhs J r = L.rhs J' r'

/-- Two graphs with the same variables and factors that lead to the same linear systems. -/
structure AlikeTwin (A : Arith F) (L : LinAlg F Fact) (h : Heap V) (g g' : Graph F V) : Prop where
  layout : Layout h g
  layout' : Layout h g'
  ready : Ready (ownBuffers g.facs) h g
  ready' : Ready (ownBuffers g'.facs) h g'
  vars : g'.varsVec = g.varsVec
  facs : SameSystems A L g.varsVec g.facs g'.facs
  facs' : SameSystems A L g.varsVec g'.facs g.facs
  safe : ∀ f ∈ g.facs, ReuseSafe f
  safe' : ∀ f ∈ g'.facs, ReuseSafe f
  proper : ∀ h', SameShape h h' → ∀ f ∈ g.facs, ∀ js, f.computeJacobians h' [] = .ok js → ProperBlocks h' f js
  proper' : ∀ h', SameShape h h' → ∀ f ∈ g'.facs, ∀ js, f.computeJacobians h' [] = .ok js → ProperBlocks h' f js
  free : ∃ f ∈ g.facs, ∃ r, some r ∈ f.variables ∧ VarLike.isConst (h r) = false

/-- In addition, the sparse Jacobians give the same normal matrix. -/
def AlikeTwinJac (A : Arith F) (L : LinAlg F Fact) (h : Heap V) (g g' : Graph F V) : Prop :=
  AlikeTwin A L h g g' ∧ ((∃ J J', g.sparseJacobian = .ok J ∧ g'.sparseJacobian = .ok J' ∧ L.gram J = L.gram J') ∨
    (g.sparseJacobian = .threw ∧ g'.sparseJacobian = .threw))

variable [LawfulVar F V] {A : Arith F} {L : LinAlg F Fact}

theorem AlikeTwin.shape {h h' : Heap V} {g g' : Graph F V} (hs : AlikeTwin A L h g g') (hh : SameShape h h') :
    AlikeTwin A L h' g g' where
  layout := hs.layout.kept (Kept.refl g) hh
  layout' := hs.layout'.kept (Kept.refl g') hh
  ready := hs.ready.shape hh
  ready' := hs.ready'.shape hh
  vars := hs.vars
  facs := hs.facs
  facs' := hs.facs'
  safe := hs.safe
  safe' := hs.safe'
  proper h2 h3 := hs.proper h2 (hh.trans h3)
  proper' h2 h3 := hs.proper' h2 (hh.trans h3)
  free := by
    obtain ⟨f, hf, r, h1, h2⟩ := hs.free
    exact ⟨f, hf, r, h1, by rw [(hh r).2.1]; exact h2⟩

/-- The parts of a graph that evaluations keep. -/
theorem AlikeTwin.evaluated {h : Heap V} {g g' g1 g1' : Graph F V} (hs : AlikeTwin A L h g g')
    (h1 : Ready (ownBuffers g.facs) h g1 ∧ SameStructure g g1) (h1' : Ready (ownBuffers g'.facs) h g1' ∧ SameStructure g' g1')
    (hk : Kept g g1) (hk' : Kept g' g1') : AlikeTwin A L h g1 g1' where
  layout := hs.layout.kept hk (SameShape.refl h)
  layout' := hs.layout'.kept hk' (SameShape.refl h)
  ready := by rw [h1.2.facs]; exact h1.1
  ready' := by rw [h1'.2.facs]; exact h1'.1
  vars := by rw [h1.2.varsVec, h1'.2.varsVec, hs.vars]
  facs := by rw [h1.2.facs, h1'.2.facs, h1.2.varsVec]; exact hs.facs
  facs' := by rw [h1.2.facs, h1'.2.facs, h1.2.varsVec]; exact hs.facs'
  safe := by rw [h1.2.facs]; exact hs.safe
  safe' := by rw [h1'.2.facs]; exact hs.safe'
  proper := by rw [h1.2.facs]; exact hs.proper
  proper' := by rw [h1'.2.facs]; exact hs.proper'
  free := by rw [h1.2.facs]; exact hs.free

theorem AlikeTwin.symm {h : Heap V} {g g' : Graph F V} (hs : AlikeTwin A L h g g') : AlikeTwin A L h g' g where
  layout := hs.layout'
  layout' := hs.layout
  ready := hs.ready'
  ready' := hs.ready
  vars := hs.vars.symm
  facs := by rw [hs.vars]; exact hs.facs'
  facs' := by rw [hs.vars]; exact hs.facs
  safe := hs.safe'
  safe' := hs.safe
  proper := hs.proper'
  proper' := hs.proper
  free := hs.facs.free h hs.free

theorem AlikeTwin.residual_ok {h : Heap V} {g g' : Graph F V} (hs : AlikeTwin A L h g g') {env : Env F V} (env' : Env F V)
    {b r : List F} (b' : List F) (e : computeResidualInto env g h b = (r, .ok ())) :
    ∃ r', computeResidualInto env' g' h b' = (r', .ok ()) ∧ A.sqNorm r = A.sqNorm r' := by
  have h1 := evaluated_isResidual hs.layout ⟨b, e⟩
  obtain ⟨r', h2, h3⟩ := hs.facs.residual h r h1
  exact ⟨r', isResidual_evaluates hs.layout' h2 b', h3⟩

theorem AlikeTwin.sparse_ok {h : Heap V} {g g' g1 : Graph F V} (hs : AlikeTwin A L h g g') {J : SpMat F}
    (e : computeSparse h g = (g1, .ok J)) : ∃ g1' J', computeSparse h g' = (g1', .ok J') := by
  have hfac := hs.facs.jacobians h (computeSparse_factors hs.ready hs.safe e)
  let blocks : Nat → List (Mat F) := fun k => match g'.facs[k]? with
    | none => []
    | some f => match f.computeJacobians h [] with
      | .ok js => js
      | _ => []
  have hblocks : ∀ (k : Nat) f, g'.facs[k]? = some f →
      f.computeJacobians h [] = .ok (blocks k) ∧ ProperBlocks h f (blocks k) := by
    intro k f hf
    have hm := List.mem_of_getElem? hf
    obtain ⟨js, hjs⟩ := hfac f hm
    have : blocks k = js := by simp only [blocks, hf, hjs]
    rw [this]
    exact ⟨hjs, hs.proper' h (SameShape.refl h) f hm js hjs⟩
  obtain ⟨g2, m, e1, _⟩ := computeSparse_ok hs.ready' blocks hblocks
    (fun k f hf h buf hb => hs.safe' f (List.mem_of_getElem? hf) h buf (hb f hf))
    (fun hc => alloc_pos hs.ready' blocks (fun k f hf => (hblocks k f hf).2) hs.symm.free hc.2)
  exact ⟨g2, m, e1⟩

/-- The laws of the simulation for graphs with the same linear systems. -/
theorem alikeTwin_laws (env env' : Env F V) : TwinLaws A L env env' (AlikeTwin A L) (AlikeTwinJac A L) where
  weaken h := h.1
  vars h := h.vars
  place h := by rw [h.layout.pl, h.layout'.pl, h.vars]
  shape h hh := h.shape hh
  shape1 h hh := ⟨h.1.shape hh, h.2⟩
  residual {h g g'} b b' hs := by
    rcases into_outcome (env := env) (h := h) (g := g) (b := b) with ⟨r, e⟩ | e | e
    · obtain ⟨r', e', hp⟩ := hs.residual_ok env' b' e
      exact .inl ⟨r, r', e, e', hp⟩
    · rcases into_outcome (env := env') (h := h) (g := g') (b := b') with ⟨r', e'⟩ | e' | e'
      · obtain ⟨r, e2, _⟩ := hs.symm.residual_ok env b e'
        rw [e2] at e
        cases e
      · exact .inr (.inl ⟨e, e'⟩)
      · exact .inr (.inr (.inr e'))
    · exact .inr (.inr (.inl e))
  initial {h g g'} hs := by
    have hf := computeResidual_frame (env := env) hs.1.ready
    have hf' := computeResidual_frame (env := env') hs.1.ready'
    have hk := computeResidual_kept env h g
    have hk' := computeResidual_kept env' h g'
    have hsh := hs.1.evaluated hf hf' hk hk'
    have hj : ∀ (env : Env F V) (g : Graph F V), (computeResidual env h g).1.sparseJacobian = g.sparseJacobian := by
      intro env g
      unfold computeResidual
      split
      · rfl
      · dsimp only
        split <;> rfl
    have key : ∀ (env : Env F V) (g : Graph F V), Layout h g →
        (∀ r, (computeResidual env h g).2 = .ok r → computeResidualInto env g h
          (if g.resValid then g.cachedRes else List.replicate g.numResiduals 0) = (r, .ok ())) ∧
        (∀ r b, computeResidualInto env g h b = (r, .ok ()) → (computeResidual env h g).2 = .ok r) := by
      intro env g hl
      refine ⟨fun r hr => ?_, fun r b e => ?_⟩
      · unfold computeResidual at hr
        rw [if_neg (by simp [hl.fin])] at hr
        dsimp only at hr
        split at hr
        · rename_i buf heq
          rw [← Res.ok.inj hr]; exact heq
        · cases hr
        · cases hr
      · have := isResidual_evaluates (env := env) hl (evaluated_isResidual hl ⟨b, e⟩)
          (if g.resValid then g.cachedRes else List.replicate g.numResiduals 0)
        unfold computeResidual
        rw [if_neg (by simp [hl.fin])]
        dsimp only
        rw [this]
    have k1 := key env g hs.1.layout
    have k2 := key env' g' hs.1.layout'
    rcases e : computeResidual env h g with ⟨g1, x⟩
    rcases e' : computeResidual env' h g' with ⟨g1', x'⟩
    have j1 := hj env g
    have j2 := hj env' g'
    rw [e] at k1 hsh j1
    rw [e'] at k2 hsh j2
    dsimp only at k1 k2 hsh j1 j2
    cases x with
    | ok r =>
      obtain ⟨r', e2, hp⟩ := hs.1.residual_ok env' [] (k1.1 r rfl)
      obtain rfl := k2.2 r' _ e2
      exact .inl ⟨g1, g1', r, r', rfl, rfl, hp, hsh, by rw [j1, j2]; exact hs.2⟩
    | threw =>
      cases x' with
      | ok r' =>
        obtain ⟨r, e2, hp⟩ := hs.1.symm.residual_ok env [] (k2.1 r' rfl)
        cases k1.2 r _ e2
      | threw => exact .inr (.inl ⟨g1, g1', rfl, rfl, hsh⟩)
      | ub => exact .inr (.inr (.inr rfl))
    | ub => exact .inr (.inr (.inl rfl))
  sparse {h g g'} hs := by
    have hf := computeSparse_frame hs.ready
    have hf' := computeSparse_frame hs.ready'
    have hk := computeSparse_kept h g
    have hk' := computeSparse_kept h g'
    have hsh := hs.evaluated hf hf' hk hk'
    rcases e : computeSparse h g with ⟨g1, x⟩
    rcases e' : computeSparse h g' with ⟨g1', x'⟩
    rw [e, e'] at hsh
    dsimp only at hsh
    cases x with
    | ok J =>
      obtain ⟨g2, J', e2⟩ := hs.sparse_ok e
      rw [e'] at e2
      simp only [Prod.mk.injEq] at e2
      obtain ⟨rfl, rfl⟩ := e2
      obtain ⟨_, a2, a3, a4⟩ := computeSparse_stacked hs.ready hs.safe (hs.proper h (SameShape.refl h)) e
      obtain ⟨_, b2, b3, b4⟩ := computeSparse_stacked hs.ready' hs.safe' (hs.proper' h (SameShape.refl h)) e'
      rw [hs.vars] at b3 b4
      have s1 : Stacks h g.varsVec g.facs J := ⟨a2, a3, a4⟩
      have s2 : Stacks h g.varsVec g'.facs J' := ⟨b2, b3, b4⟩
      have hgram := hs.facs.gram h J J' s1 s2
      exact .inl ⟨g1, g1', J, J', rfl, rfl, ⟨hsh, .inl ⟨J, J', computeSparse_cached e, computeSparse_cached e', hgram⟩⟩, hgram,
        fun r r' hr hr' => hs.facs.rhs h J J' r r' s1 s2 (evaluated_isResidual hs.layout hr) (evaluated_isResidual hs.layout' hr')⟩
    | threw =>
      cases x' with
      | ok J' =>
        obtain ⟨g2, J, e2⟩ := hs.symm.sparse_ok e'
        rw [e] at e2
        cases e2
      | threw => exact .inr (.inl ⟨g1, g1', rfl, rfl, hsh⟩)
      | ub => exact .inr (.inr (.inr rfl))
    | ub => exact .inr (.inr (.inl rfl))
  jac h := h.2

theorem no_sparse_yet {h0 : Heap V} {pre post : List (Op F V × Res Unit)} {w : World F V}
    (hw : FinalizedAfter h0 pre post w) (hpre : NoJacobianYet (pre ++ post)) : w.graph.sparseJacobian = .threw := by
  have hno : NoJacobianYet (pre ++ (.finalize, .ok ()) :: post) := by
    obtain ⟨h1, h2, h3, h4⟩ := hpre
    simp only [List.mem_append, not_or] at h1 h2 h3 h4
    refine ⟨?_, ?_, ?_, ?_⟩ <;> simp only [List.mem_append, List.mem_cons, Prod.mk.injEq, not_or, reduceCtorEq, false_and,
      not_false_eq_true, true_and]
    · exact h1
    · exact h2
    · exact h3
    · exact h4
  simp [sparseJacobian, (no_jacobian hw.1 hno).2]

theorem _root_.Factorama.Spec.Unused.ready {w : World F V} (hw : Unused w) : Ready (ownBuffers w.graph.facs) w.heap w.graph := by
  obtain ⟨h0, pre, post, hf, hpre⟩ := hw.history
  refine finalizedAfter_ready hf ⟨fun c => hpre.1 (by simp [c]), fun c => hpre.2.1 (by simp [c]),
    fun c => hpre.2.2.1 (by simp [c]), fun c => hpre.2.2.2 (by simp [c])⟩ hw.ids hw.noRepeats (fun _ _ _ => .nil) ?_
  intro k f hf h buf js hb hj f' hf'
  obtain rfl : f = f' := Option.some.inj (hf.symm.trans hf')
  exact .out (hb f hf) hj

/-- Two graphs over the same variables with the same linear systems: optimizations have the same outcome, statistics and
final variables, and lead to the same covariances. -/
theorem same_runs {w w' : World F V} (hw : Unused w) (hw' : Unused w') (hheap : w'.heap = w.heap)
    (hvars : w'.graph.getAllVariables = w.graph.getAllVariables)
    (hfacs : SameSystems A L w.graph.getAllVariables w.graph.getAllFactors w'.graph.getAllFactors)
    (hfacs' : SameSystems A L w.graph.getAllVariables w'.graph.getAllFactors w.graph.getAllFactors)
    (hfree : ∃ f ∈ w.graph.getAllFactors, ∃ r, some r ∈ f.variables ∧ VarLike.isConst (w.heap r) = false)
    (o : Optimizer F Fact) (env env' : Env F V) {s s' : OptWorld F V Fact} {x x' : Res Unit}
    (hs : optimize A L env ⟨w.heap, w.graph, o⟩ = (s, x)) (hs' : optimize A L env' ⟨w'.heap, w'.graph, o⟩ = (s', x'))
    (hx : x ≠ .ub) (hx' : x' ≠ .ub) :
    x' = x ∧ s'.heap = s.heap ∧ s'.opt.stats = s.opt.stats ∧ s'.opt.initialStats = s.opt.initialStats ∧
    (x = .ok () → s.opt.stats.status ≠ .failed → ∀ t t' y y', prepare A L s = (t, y) → prepare A L s' = (t', y') →
      y ≠ .ub → y' ≠ .ub → y' = y ∧ ∀ v, estimateCovariance A L t' v = estimateCovariance A L t v) := by
  obtain ⟨h0, pre, post, hf, hpre⟩ := hw.history
  obtain ⟨h0', pre', post', hf', hpre'⟩ := hw'.history
  have hsh : AlikeTwin A L w.heap w.graph w'.graph :=
    { layout := finalizedAfter_layout hf
      layout' := by rw [← hheap]; exact finalizedAfter_layout hf'
      ready := hw.ready
      ready' := by rw [← hheap]; exact hw'.ready
      vars := hvars
      facs := hfacs
      facs' := hfacs'
      safe := hw.safe
      safe' := hw'.safe
      proper := hw.proper
      proper' := by rw [← hheap]; exact hw'.proper
      free := hfree }
  have hlaws := alikeTwin_laws (V := V) (A := A) (L := L) env env'
  have hrel := Rel.optimize hlaws (P := anyPair) ⟨w.heap, w.graph, o⟩ ⟨w'.heap, w'.graph, o⟩
    ⟨w'.graph, o.residual1, o.residual2, by rw [hheap], ⟨hsh, .inr ⟨no_sparse_yet hf hpre, no_sparse_yet hf' hpre'⟩⟩, trivial⟩
  rw [hs, hs'] at hrel
  have fields : ∀ {G : Heap V → Graph F V → Graph F V → Prop}, Twin G anyPair s s' →
      s'.heap = s.heap ∧ s'.opt.stats = s.opt.stats ∧ s'.opt.initialStats = s.opt.initialStats := by
    rintro G ⟨g', a, b, rfl, _⟩
    exact ⟨rfl, rfl, rfl⟩
  cases hrel with
  | left => exact absurd rfl hx
  | right => exact absurd rfl hx'
  | threw h =>
    obtain ⟨h1, h2, h3⟩ := fields h
    exact ⟨rfl, h1, h2, h3, fun e => by cases e⟩
  | ok h =>
    obtain ⟨h1, h2, h3⟩ := fields h.1
    refine ⟨rfl, h1, h2, h3, fun _ hne t t' y y' ht ht' hy hy' => ?_⟩
    have hp := Rel.prepare (A := A) (L := L) (G1 := AlikeTwinJac A L) hlaws.jac s s' (h.2 hne)
    rw [ht, ht'] at hp
    cases hp with
    | left => exact absurd rfl hy
    | right => exact absurd rfl hy'
    | threw hp => exact ⟨rfl, hp.covariance fun hg => hlaws.place hg.1⟩
    | ok hp => exact ⟨rfl, hp.covariance fun hg => hlaws.place hg.1⟩

end Factorama.Opt
