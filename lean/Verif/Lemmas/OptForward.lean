import Verif.Lemmas.OptSystem

/-!
# Iterations that return
-/

namespace Factorama
open Spec Graph
namespace Opt
variable {F V Fact : Type} [Zero F] [VarLike F V]

theorem stepLoop_forward {h0 : Heap V} {g : Graph F V} (hl : Layout h0 g) (dx : List F) (hlen : dx.length = g.numValues)
    {h1 : Heap V} (hnew : Stepped h0 h1 g.varsVec dx)
    (rs : List VRef) (hnd : rs.Nodup) (hsub : ∀ r ∈ rs, r ∈ g.varsVec) (h : Heap V) (hagree : ∀ r ∈ rs, h r = h0 r) :
    SE.forEach rs (stepVariable g dx) h =
      ((fun r => if r ∈ rs ∧ VarLike.isConst (h0 r) = false then h1 r else h r), .ok ()) := by
  induction rs generalizing h with
  | nil => simp [SE.forEach, SE.ret]
  | cons r rs ih =>
    rw [SE.forEach_cons]
    simp only [List.nodup_cons] at hnd
    have hrh : h r = h0 r := hagree r (by simp)
    have hrm : r ∈ g.varsVec := hsub r (by simp)
    by_cases hc : VarLike.isConst (h0 r)
    · have e1 : stepVariable g dx r h = (h, .ok ()) := by
        simp [stepVariable, SE.bind_get, hrh, hc, SE.ret]
      rw [SE.bind_ok e1, ih hnd.2 (fun r' hr' => hsub r' (by simp [hr'])) h (fun r' hr' => hagree r' (by simp [hr']))]
      congr 1
      funext r'
      by_cases e : r' = r
      · subst e; simp [hc]
      · simp [e]
    · have hc' : VarLike.isConst (h0 r) = false := by simpa using hc
      have hend := col_end_le (h := h0) hrm
      rw [freeSize_of_nonconst hc', ← hl.nv, ← hlen] at hend
      have e1 : stepVariable g dx r h = (h.set r (h1 r), .ok ()) := by
        have hn := (hnew r).1 ⟨hrm, hc'⟩
        simp only [partOf] at hn
        simp only [stepVariable, SE.bind_get, hrh, hc', hl.placement hrm, freeSize_of_nonconst hc']
        rw [if_neg (by simp)]
        simp only [segment, if_pos hend, SE.bind, SE.lift, mutate, hrh, hn]
      rw [SE.bind_ok e1, ih hnd.2 (fun r' hr' => hsub r' (by simp [hr'])) (h.set r (h1 r)) (by
        intro r' hr'
        have : r' ≠ r := fun e => hnd.1 (e ▸ hr')
        simp [Heap.set, this, hagree r' (by simp [hr'])])]
      congr 1
      funext r'
      by_cases e : r' = r
      · subst e; simp [hc', hnd.1, Heap.set]
      · simp [e, Heap.set]

theorem stepVariables_forward {s : OptWorld F V Fact} (hl : Layout s.heap s.graph) (dx : List F)
    (hlen : dx.length = s.graph.numValues) {h1 : Heap V} (hnew : Stepped s.heap h1 s.graph.varsVec dx) :
    stepVariables dx s = ({ s with heap := h1 }, .ok ()) := by
  have e := stepLoop_forward hl dx hlen hnew s.graph.varsVec hl.nodup (fun _ h => h) s.heap (fun _ _ => rfl)
  have e1 : (fun r => if r ∈ s.graph.varsVec ∧ VarLike.isConst (s.heap r) = false then h1 r else s.heap r) = h1 := by
    funext r
    by_cases hr : r ∈ s.graph.varsVec ∧ VarLike.isConst (s.heap r) = false
    · rw [if_pos hr]
    · rw [if_neg hr, (hnew r).2 hr]
  rw [e1] at e
  simp only [stepVariables, onHeap, e]

theorem residual_forward [LawfulVar F V] {env : Env F V} {h : Heap V} {g : Graph F V} (hl : Layout h g) {r : List F}
    (hr : IsResidual h g.facs r) (buf : List F) : computeResidualInto env g h buf = (r, .ok ()) := by
  obtain ⟨segs, h1, h2, rfl⟩ := hr
  exact residualInto_layout hl segs h1 h2 buf

theorem gaussNewton_forward [LawfulVar F V] {A : Arith F} {L : LinAlg F Fact} {env : Env F V} {s : OptWorld F V Fact}
    (hg : s.opt.hasGraph = true) (hl : Layout s.heap s.graph) {r : List F} (hr : IsResidual s.heap s.graph.facs r)
    {g' : Graph F V} {J : SpMat F} (hJ : computeSparse s.heap s.graph = (g', .ok J))
    (hne : ∀ f, L.factorize (L.gram J) = some f → L.vectorD f ≠ [])
    (hstep : ∀ d, SystemSolved A L (L.gram J) (L.rhs J r) d → d.length = s.graph.numValues ∧
      ∃ h' r', Stepped s.heap h' s.graph.varsVec (A.scale s.opt.settings.learningRate d) ∧ IsResidual h' s.graph.facs r') :
    ∃ s', gaussNewtonStep A L env s = (s', .ok ()) := by
  have hk : Kept s.graph g' := by
    have := computeSparse_kept s.heap s.graph
    rw [hJ] at this
    exact this
  unfold gaussNewtonStep
  simp only [SE.bind_get]
  rw [if_neg (by simp [hg])]
  have e1 : evalResidual1 env s = ({ s with opt := { s.opt with residual1 := r } }, .ok ()) := by
    rw [evalResidual1_eq, residual_forward hl hr]
  rw [SE.bind_ok e1]
  have e2 : evalSparse ({ s with opt := { s.opt with residual1 := r } } : OptWorld F V Fact) =
      ({ s with graph := g', opt := { s.opt with residual1 := r } }, .ok J) := by
    simp only [evalSparse, hJ]
  rw [SE.bind_ok e2]
  simp only [SE.bind_get]
  cases hf : L.factorize (L.gram J) with
  | none =>
    simp only [modOpt, giveUp, modStats, SE.bind_modify, SE.modify]
    exact ⟨_, rfl⟩
  | some f =>
    simp only [modOpt, SE.bind_modify]
    rw [if_neg (by simpa using hne f hf)]
    split
    · simp only [giveUp, modStats, SE.modify]; exact ⟨_, rfl⟩
    rename_i hp
    have hp : PivotsLarge A (L.vectorD f) := by simpa [PivotsLarge] using hp
    split
    · simp only [giveUp, modStats, SE.modify]; exact ⟨_, rfl⟩
    rename_i hq
    have hq : PivotsBalanced A (L.vectorD f) := by simpa [PivotsBalanced] using hq
    cases hd : L.solve f (L.rhs J r) with
    | none => simp only [giveUp, modStats, SE.modify]; exact ⟨_, rfl⟩
    | some d =>
      obtain ⟨hlen, h', r', hs, hr'⟩ := hstep d ⟨f, hf, hp, hq, hd⟩
      dsimp only
      have hl1 : Layout s.heap g' := hl.kept hk (SameShape.refl _)
      have e3 := stepVariables_forward (Fact := Fact)
        (s := { s with graph := g', opt := { s.opt with residual1 := r, solver := some f } }) hl1
        (A.scale s.opt.settings.learningRate d) (by rw [← hk.numValues] at hlen; simpa [Arith.scale] using hlen) (h1 := h')
        (by rw [hk.varsVec]; exact hs)
      rw [SE.bind_ok e3]
      have e4 := residual_forward (env := env) (hl1.kept (.refl _) (stepped_shape (hk.varsVec ▸ hs)))
        (r := r') (by rw [hk.facs]; exact hr')
      have e5 : evalResidual2 env ({ heap := h', graph := g', opt := { s.opt with residual1 := r, solver := some f } } : OptWorld F V Fact) =
          ({ heap := h', graph := g', opt := { s.opt with residual1 := r, solver := some f, residual2 := r' } }, .ok ()) := by
        rw [evalResidual2_eq]
        dsimp only
        rw [e4]
      rw [SE.bind_ok e5]
      simp only [SE.bind_get, recordStats, modStats, SE.modify]
      exact ⟨_, rfl⟩

theorem lmTrials_forward [LawfulVar F V] {A : Arith F} {L : LinAlg F Fact} {env : Env F V} {J : SpMat F} {good : V → Prop}
    (hgood : RestoresExactly good) {P : F → Prop} {cost : F} (n : Nat) (dx0 : List F) (s : OptWorld F V Fact)
    (hgs : GoodVars good s) (hl : Layout s.heap s.graph) (hP : P s.opt.stats.damping)
    (hup : ∀ l, P l → P (A.mul l s.opt.settings.lambdaUp) ∧ P (A.stdMin (A.mul l s.opt.settings.lambdaUp) s.opt.settings.maxLambda))
    (hne : ∀ l f, P l → L.factorize (damped A (L.gram J) l) = some f → L.vectorD f ≠ [])
    (hstep : ∀ l d, P l → SystemSolved A L (damped A (L.gram J) l) (L.rhs J s.opt.residual1) d → d.length = s.graph.numValues ∧
      ∃ h' r', Stepped s.heap h' s.graph.varsVec (A.scale s.opt.settings.learningRate d) ∧ IsResidual h' s.graph.facs r') :
    ∃ s' res, lmTrials A L env J cost n dx0 s = (s', .ok res) := by
  induction n generalizing dx0 s with
  | zero => exact ⟨_, _, rfl⟩
  | succ n ih =>
    unfold lmTrials
    simp only [SE.bind_get]
    rw [damped_eq]
    have retry : ∀ (sol : Option Fact) dx1, ∃ s' res, SE.bind (raiseLambda A) (fun _ => lmTrials A L env J cost n dx1)
        ({ s with opt := { s.opt with solver := sol } } : OptWorld F V Fact) = (s', .ok res) := by
      intro sol dx1
      exact ih dx1 ({ s with opt := { s.opt with solver := sol, stats := { s.opt.stats with
        damping := A.mul s.opt.stats.damping s.opt.settings.lambdaUp } } } : OptWorld F V Fact) hgs hl (hup _ hP).1 hup hstep
    cases hf : L.factorize (damped A (L.gram J) s.opt.stats.damping) with
    | none =>
      simp only [modOpt, SE.bind_modify]
      exact retry none dx0
    | some f =>
      simp only [modOpt, SE.bind_modify]
      rw [if_neg (by simpa using hne _ f hP hf)]
      split
      · exact retry (some f) dx0
      rename_i hok
      simp only [Bool.or_eq_true, not_or, Bool.not_eq_true] at hok
      cases hsol : L.solve f (L.rhs J s.opt.residual1) with
      | none => exact retry (some f) _
      | some d =>
        obtain ⟨hlen, h', r', hs, hr'⟩ := hstep _ d hP ⟨f, hf, hok.1, hok.2, hsol⟩
        dsimp only
        have e3 := stepVariables_forward (Fact := Fact) (s := { s with opt := { s.opt with solver := some f } }) hl
          (A.scale s.opt.settings.learningRate d) (by simpa [Arith.scale] using hlen) (h1 := h') hs
        rw [SE.bind_ok e3]
        have e4 := residual_forward (env := env) (hl.kept (.refl _) (stepped_shape hs)) (r := r') hr'
        have e5 : evalResidual2 env ({ heap := h', graph := s.graph, opt := { s.opt with solver := some f } } : OptWorld F V Fact) =
            ({ heap := h', graph := s.graph, opt := { s.opt with solver := some f, residual2 := r' } }, .ok ()) := by
          rw [evalResidual2_eq]
          dsimp only
          rw [e4]
        rw [SE.bind_ok e5]
        simp only [SE.bind_get]
        split
        · simp only [modStats, SE.bind_modify, SE.ret]
          exact ⟨_, _, rfl⟩
        · have hh : (SE.forEach s.graph.varsVec (stepVariable s.graph (A.scale s.opt.settings.learningRate d)) s.heap).1 = h' :=
            congrArg (fun x => x.1.heap) e3
          have hrest := trial_restore hgood hgs.1 hgs.2 hh
          have e6 : restoreValues (saveValues s)
              ({ heap := h', graph := s.graph, opt := { s.opt with solver := some f, residual2 := r' } } : OptWorld F V Fact) =
              ({ heap := s.heap, graph := s.graph, opt := { s.opt with solver := some f, residual2 := r' } }, .ok ()) := by
            simp only [restoreValues, onHeap, saveValues, hrest]
          rw [SE.bind_ok e6]
          simp only [modStats, SE.bind_modify, SE.bind_get]
          split
          · exact ⟨_, _, rfl⟩
          · exact ih _ _ hgs hl (hup _ hP).2 hup hstep

theorem levenbergMarquardt_forward [LawfulVar F V] {A : Arith F} {L : LinAlg F Fact} {env : Env F V} {s : OptWorld F V Fact}
    {good : V → Prop} (hgood : RestoresExactly good) (hgs : GoodVars good s)
    (hg : s.opt.hasGraph = true) (hl : Layout s.heap s.graph) {r : List F} (hr : IsResidual s.heap s.graph.facs r)
    {g' : Graph F V} {J : SpMat F} (hJ : computeSparse s.heap s.graph = (g', .ok J)) {P : F → Prop}
    (hP : P (firstDamping s.opt.settings s.opt.stats))
    (hup : ∀ l, P l → P (A.mul l s.opt.settings.lambdaUp) ∧ P (A.stdMin (A.mul l s.opt.settings.lambdaUp) s.opt.settings.maxLambda))
    (hne : ∀ l f, P l → L.factorize (damped A (L.gram J) l) = some f → L.vectorD f ≠ [])
    (hstep : ∀ l d, P l → SystemSolved A L (damped A (L.gram J) l) (L.rhs J r) d → d.length = s.graph.numValues ∧
      ∃ h' r', Stepped s.heap h' s.graph.varsVec (A.scale s.opt.settings.learningRate d) ∧ IsResidual h' s.graph.facs r') :
    ∃ s', levenbergMarquardtStep A L env s = (s', .ok ()) := by
  have hk : Kept s.graph g' := by
    have := computeSparse_kept s.heap s.graph
    rw [hJ] at this
    exact this
  unfold levenbergMarquardtStep
  simp only [SE.bind_get]
  rw [if_neg (by simp [hg])]
  have e1 : evalResidual1 env s = ({ s with opt := { s.opt with residual1 := r } }, .ok ()) := by
    rw [evalResidual1_eq, residual_forward hl hr]
  rw [SE.bind_ok e1]
  have e2 : evalSparse ({ s with opt := { s.opt with residual1 := r } } : OptWorld F V Fact) =
      ({ s with graph := g', opt := { s.opt with residual1 := r } }, .ok J) := by
    simp only [evalSparse, hJ]
  rw [SE.bind_ok e2]
  simp only [SE.bind_get, modStats, SE.bind_modify]
  have hl1 : Layout s.heap g' := hl.kept hk (SameShape.refl _)
  obtain ⟨s', res, e⟩ := lmTrials_forward (A := A) (L := L) (env := env) (J := J) hgood (P := P)
    (cost := A.mul (A.lit (1 / 2)) (A.sqNorm r)) 5 []
    ({ s with graph := g', opt := { s.opt with residual1 := r, stats :=
      if s.opt.stats.iteration = 0 then { s.opt.stats with damping := s.opt.settings.initialLambda } else s.opt.stats } } :
        OptWorld F V Fact) ⟨by rw [hk.varsVec]; exact hgs.1, by rw [hk.varsVec]; exact hgs.2⟩ hl1
    (by
      unfold firstDamping at hP
      dsimp only
      split <;> rename_i h0
      · rw [if_pos h0] at hP; exact hP
      · rw [if_neg h0] at hP; exact hP) hup hne (fun l d hl hd => by
      rw [hk.varsVec, hk.facs, hk.numValues]
      exact hstep l d hl hd)
  rw [SE.bind_ok e]
  obtain ⟨b, dx⟩ := res
  cases b with
  | true => simp only [if_true, SE.bind_get, recordStats, modStats, SE.modify]; exact ⟨_, rfl⟩
  | false =>
    obtain ⟨v, st, e', _⟩ := lmRejected_eq A (A.mul (A.lit (1 / 2)) (A.sqNorm r)) s'
    simp only [Bool.false_eq_true, if_false]
    rw [SE.bind_ok e']
    simp only [SE.bind_get, recordStats, modStats, modOpt, SE.modify, SE.bind_modify]
    exact ⟨_, rfl⟩

end Opt
end Factorama
