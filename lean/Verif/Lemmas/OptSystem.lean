import Verif.Spec.Steps
import Verif.Lemmas.OptLoop
import Verif.Lemmas.OptTotal

/-!
# Helper lemmas: what a step of the optimizer does
-/

set_option linter.unusedSectionVars false

namespace Factorama
open Spec

theorem SE.bind_ok_iff {S α β : Type} {m : SE S α} {k : α → SE S β} {s s' : S} {b : β} :
    SE.bind m k s = (s', .ok b) ↔ ∃ s1 a, m s = (s1, .ok a) ∧ k a s1 = (s', .ok b) := by
  constructor
  · intro h
    rcases hm : m s with ⟨s1, r⟩
    cases r with
    | ok a => exact ⟨s1, a, rfl, by rw [SE.bind_ok hm] at h; exact h⟩
    | threw => rw [SE.bind_threw hm] at h; simp at h
    | ub => rw [SE.bind_ub hm] at h; simp at h
  · rintro ⟨s1, a, h1, h2⟩
    rw [SE.bind_ok h1, h2]

namespace Opt
open Graph
variable {F V Fact : Type} [Zero F] [VarLike F V]

/-- A step that was taken: the variables before and after, the graph, the residuals. -/
structure Took (env : Env F V) (g : Graph F V) (h h' : Heap V) (dx r' : List F) : Prop where
  step : SE.forEach g.varsVec (stepVariable g dx) h = (h', .ok ())
  residual : ∃ buf, computeResidualInto env g h' buf = (r', .ok ())

theorem gaussNewtonStep_ok {A : Arith F} {L : LinAlg F Fact} {env : Env F V} {s s' : OptWorld F V Fact}
    (h : gaussNewtonStep A L env s = (s', .ok ())) :
    ∃ r J, (∃ buf, computeResidualInto env s.graph s.heap buf = (r, .ok ())) ∧
      computeSparse s.heap s.graph = (s'.graph, .ok J) ∧
      ((s'.heap = s.heap ∧ ∃ st, SystemRefused A L (L.gram J) (L.rhs J r) st ∧
          s'.opt.stats = { s.opt.stats with valid := false, status := st }) ∨
        ∃ d r', SystemSolved A L (L.gram J) (L.rhs J r) d ∧
          Took env s'.graph s.heap s'.heap (A.scale s.opt.settings.learningRate d) r' ∧
          s'.opt.stats = recorded A s.opt.stats (A.scale s.opt.settings.learningRate d) r') := by
  unfold gaussNewtonStep at h
  simp only [SE.bind_get] at h
  split at h
  · simp [SE.throw] at h
  rw [SE.bind_ok_iff] at h
  obtain ⟨s1, _, h1, h⟩ := h
  rw [SE.bind_ok_iff] at h
  obtain ⟨s2, J, h2, h⟩ := h
  simp only [SE.bind_get] at h
  rw [evalResidual1_eq] at h1
  rcases hres : computeResidualInto env s.graph s.heap s.opt.residual1 with ⟨r, res⟩
  rw [hres] at h1
  simp only [Prod.mk.injEq] at h1
  obtain ⟨rfl, rfl⟩ := h1
  simp only [evalSparse, Prod.mk.injEq] at h2
  obtain ⟨h2, hJ⟩ := h2
  subst h2
  have hsp : computeSparse s.heap s.graph = ((computeSparse s.heap s.graph).1, .ok J) := Prod.ext rfl hJ
  refine ⟨r, J, ⟨_, hres⟩, ?_⟩
  dsimp only at h
  cases hf : L.factorize (L.gram J) with
  | none =>
    rw [hf] at h
    simp only [modOpt, giveUp, modStats, SE.bind_modify, SE.modify, Prod.mk.injEq, and_true] at h
    subst h
    exact ⟨hsp, .inl ⟨rfl, .failed, .noFactorisation hf, rfl⟩⟩
  | some f =>
    rw [hf] at h
    simp only [modOpt, SE.bind_modify] at h
    split at h
    · simp [SE.undefined] at h
    split at h
    · rename_i hp
      simp only [giveUp, modStats, SE.modify, Prod.mk.injEq, and_true] at h
      subst h
      exact ⟨hsp, .inl ⟨rfl, _, .singular hf (by simp [PivotsLarge, hp]), rfl⟩⟩
    rename_i hp
    have hp : PivotsLarge A (L.vectorD f) := by simpa [PivotsLarge] using hp
    split at h
    · rename_i hq
      simp only [giveUp, modStats, SE.modify, Prod.mk.injEq, and_true] at h
      subst h
      exact ⟨hsp, .inl ⟨rfl, _, .unbalanced hf hp (by simp [PivotsBalanced, hq]), rfl⟩⟩
    rename_i hq
    have hq : PivotsBalanced A (L.vectorD f) := by simpa [PivotsBalanced] using hq
    cases hd : L.solve f (L.rhs J r) with
    | none =>
      rw [hd] at h
      simp only [giveUp, modStats, SE.modify, Prod.mk.injEq, and_true] at h
      subst h
      exact ⟨hsp, .inl ⟨rfl, _, .noSolution hf hp hq hd, rfl⟩⟩
    | some d =>
      rw [hd] at h
      dsimp only at h
      rw [SE.bind_ok_iff] at h
      obtain ⟨s3, _, h3, h⟩ := h
      rw [SE.bind_ok_iff] at h
      obtain ⟨s4, _, h4, h⟩ := h
      simp only [SE.bind_get, recordStats, modStats, SE.modify, Prod.mk.injEq, and_true] at h
      simp only [stepVariables, onHeap, Prod.mk.injEq] at h3
      obtain ⟨h3, h3'⟩ := h3
      subst h3
      rw [evalResidual2_eq] at h4
      simp only [Prod.mk.injEq] at h4
      obtain ⟨h4, h4'⟩ := h4
      subst h4
      subst h
      exact ⟨hsp, .inr ⟨d, _, ⟨f, hf, hp, hq, hd⟩, ⟨Prod.ext rfl h3', _, Prod.ext rfl h4'⟩, rfl⟩⟩

/-! ### The checks after a step -/

theorem afterStep_stops {A : Arith F} {settings : Settings F} {init prev st st' : Stats F}
    (herr : ¬ Status.isSystemError st.status) (hv : st.valid = true) (h : afterStep A settings init prev st = (st', true)) :
    ∃ status valid, Stops A settings init.residualNorm prev.residualNorm st.residualNorm st.deltaNorm status valid ∧
      st' = { st with status := status, valid := valid } := by
  have hv' : ∀ status, ({ st with status := status } : Stats F) = { st with status := status, valid := true } := by
    intro status; rw [← hv]
  unfold afterStep at h
  rw [if_neg (by simpa [Status.isSystemError] using herr)] at h
  dsimp only at h
  split at h
  · rename_i h1
    obtain rfl := (Prod.mk.inj h).1
    exact ⟨_, _, .smallStep h1, hv' _⟩
  rename_i h1
  rw [Bool.not_eq_true] at h1
  split at h
  · rename_i h2
    split at h
    · rename_i h3
      obtain rfl := (Prod.mk.inj h).1
      exact ⟨_, _, .worseThanStart h1 h2 h3, hv' _⟩
    · rename_i h3
      rw [Bool.not_eq_true] at h3
      obtain rfl := (Prod.mk.inj h).1
      exact ⟨_, _, .worseThanBefore h1 h2 h3, hv' _⟩
  rename_i h2
  rw [Bool.not_eq_true] at h2
  split at h
  · rename_i h3
    obtain rfl := (Prod.mk.inj h).1
    exact ⟨_, _, .smallGain h1 h2 h3, hv' _⟩
  rename_i h3
  rw [Bool.not_eq_true] at h3
  split at h
  · rename_i h4
    obtain rfl := (Prod.mk.inj h).1
    exact ⟨_, _, .tenfold h1 h2 h3 h4, rfl⟩
  · simp at h

theorem afterStep_continues {A : Arith F} {settings : Settings F} {init prev st : Stats F}
    (h : (afterStep A settings init prev st).2 = false) :
    Continues A settings init.residualNorm prev.residualNorm st.residualNorm st.deltaNorm := by
  unfold afterStep at h
  dsimp only at h
  split at h
  · simp at h
  split at h
  · simp at h
  rename_i h1
  split at h
  · split at h <;> simp at h
  rename_i h2
  split at h
  · simp at h
  rename_i h3
  split at h
  · simp at h
  rename_i h4
  simp only [Bool.not_eq_true] at h1 h2 h3 h4
  exact ⟨h1, h2, h3, h4⟩

/-! ### The update loop -/

theorem stepLoop_ok {h0 : Heap V} {g : Graph F V} (hl : Layout h0 g) (dx : List F) (rs : List VRef) (hnd : rs.Nodup)
    (hsub : ∀ r ∈ rs, r ∈ g.varsVec) (h h' : Heap V) (hagree : ∀ r ∈ rs, h r = h0 r)
    (he : SE.forEach rs (stepVariable g dx) h = (h', .ok ())) :
    ∀ r, (r ∈ rs ∧ VarLike.isConst (h0 r) = false → VarLike.applyIncr (h0 r) (partOf h0 g.varsVec dx r) = .ok (h' r)) ∧
      (¬ (r ∈ rs ∧ VarLike.isConst (h0 r) = false) → h' r = h r) := by
  induction rs generalizing h with
  | nil =>
    simp only [SE.forEach, SE.ret, Prod.mk.injEq, and_true] at he
    subst he
    simp
  | cons a rs ih =>
    rw [SE.forEach_cons, SE.bind_ok_iff] at he
    obtain ⟨h1, _, e1, he⟩ := he
    simp only [List.nodup_cons] at hnd
    have ha : h a = h0 a := hagree a (by simp)
    have ham : a ∈ g.varsVec := hsub a (by simp)
    have hstep : (VarLike.isConst (h0 a) = false → VarLike.applyIncr (h0 a) (partOf h0 g.varsVec dx a) = .ok (h1 a)) ∧
        (VarLike.isConst (h0 a) = true → h1 a = h a) ∧ ∀ r, r ≠ a → h1 r = h r := by
      unfold stepVariable at e1
      simp only [SE.bind_get, ha] at e1
      by_cases hc : VarLike.isConst (h0 a) = true
      · rw [if_pos hc] at e1
        simp only [SE.ret, Prod.mk.injEq, and_true] at e1
        subst e1
        simp [hc]
      · have hc' : VarLike.isConst (h0 a) = false := by simpa using hc
        rw [if_neg hc, hl.placement ham] at e1
        dsimp only at e1
        rw [freeSize_of_nonconst hc'] at e1
        unfold segment at e1
        split at e1
        · rw [SE.bind_lift_ok] at e1
          unfold mutate at e1
          dsimp only at e1
          rw [ha] at e1
          split at e1
          · rename_i v hv
            simp only [Prod.mk.injEq, and_true] at e1
            subst e1
            refine ⟨fun _ => ?_, fun h => absurd h hc, fun r hr => by simp [Heap.set, hr]⟩
            simp only [Heap.set, if_pos]
            exact hv
          · simp at e1
          · simp at e1
        · simp [SE.bind, SE.lift] at e1
    have hrest := ih hnd.2 (fun r hr => hsub r (by simp [hr])) h1 (fun r hr => by
      rw [hstep.2.2 r (fun e => hnd.1 (e ▸ hr))]; exact hagree r (by simp [hr])) he
    intro r
    by_cases e : r = a
    · subst e
      have h2 := (hrest r).2 (fun h => hnd.1 h.1)
      rw [h2]
      refine ⟨fun h => hstep.1 h.2, fun h => hstep.2.1 ?_⟩
      simpa using h
    · have h2 := hrest r
      rw [hstep.2.2 r e] at h2
      simpa [e] using h2

theorem Took.stepped {env : Env F V} {g : Graph F V} {h h' : Heap V} {dx r' : List F} (hl : Layout h g)
    (ht : Took env g h h' dx r') : Stepped h h' g.varsVec dx :=
  stepLoop_ok hl dx g.varsVec hl.nodup (fun _ h => h) h h' (fun _ _ => rfl) ht.step

variable [LawfulVar F V]

theorem stepped_shape {h h' : Heap V} {vars : List VRef} {dx : List F} (hs : Stepped h h' vars dx) : SameShape h h' := by
  intro r
  by_cases hr : r ∈ vars ∧ VarLike.isConst (h r) = false
  · have e := (hs r).1 hr
    exact ⟨LawfulVar.id_applyIncr _ _ _ e, LawfulVar.isConst_applyIncr _ _ _ e, LawfulVar.size_applyIncr _ _ _ e⟩
  · rw [(hs r).2 hr]; exact ⟨rfl, rfl, rfl⟩

/-! ### The trial loop -/

theorem damped_eq (A : Arith F) (H : Mat F) (l : F) : addDiagonal A H l = damped A H l := rfl

theorem not_solved {A : Arith F} {L : LinAlg F Fact} {H : Mat F} {b : List F}
    (h : ∀ f, L.factorize H = some f → ¬ PivotsLarge A (L.vectorD f) ∨ ¬ PivotsBalanced A (L.vectorD f) ∨ L.solve f b = none) :
    ∀ d, ¬ SystemSolved A L H b d := by
  rintro d ⟨f, hf, h1, h2, h3⟩
  rcases h f hf with h | h | h
  · exact h h1
  · exact h h2
  · rw [h] at h3; simp at h3

theorem lmTrials_trials {A : Arith F} {L : LinAlg F Fact} {env : Env F V} {J : SpMat F} {good : V → Prop}
    (hgood : RestoresExactly good) (n : Nat) (dx0 : List F) (s s' : OptWorld F V Fact) (hgs : GoodVars good s)
    (hl : Layout s.heap s.graph) (b : Bool) (dx : List F)
    (h : lmTrials A L env J (A.mul (A.lit (1 / 2)) (A.sqNorm s.opt.residual1)) n dx0 s = (s', .ok (b, dx))) :
    ∃ o, Trials A L s.opt.settings s.heap s.graph.varsVec s.graph.facs s.opt.residual1 J n s.opt.stats.damping o
        s'.opt.stats.damping ∧
      match o with
      | none => b = false ∧ s'.heap = s.heap
      | some (dx', h', r') => b = true ∧ dx = dx' ∧ s'.heap = h' ∧ s'.opt.residual2 = r' := by
  induction n generalizing dx0 s with
  | zero =>
    simp only [lmTrials, SE.ret, Prod.mk.injEq, Res.ok.injEq] at h
    obtain ⟨rfl, rfl, rfl⟩ := h
    exact ⟨none, .exhausted, rfl, rfl⟩
  | succ n ih =>
    unfold lmTrials at h
    simp only [SE.bind_get] at h
    rw [damped_eq] at h
    have retry : (∀ d, ¬ SystemSolved A L (damped A (L.gram J) s.opt.stats.damping) (L.rhs J s.opt.residual1) d) →
        ∀ (sol : Option Fact) dx1, SE.bind (raiseLambda A) (fun _ => lmTrials A L env J
            (A.mul (A.lit (1 / 2)) (A.sqNorm s.opt.residual1)) n dx1)
          ({ s with opt := { s.opt with solver := sol } } : OptWorld F V Fact) = (s', .ok (b, dx)) →
        ∃ o, Trials A L s.opt.settings s.heap s.graph.varsVec s.graph.facs s.opt.residual1 J (n + 1) s.opt.stats.damping o
            s'.opt.stats.damping ∧
          match o with
          | none => b = false ∧ s'.heap = s.heap
          | some (dx', h', r') => b = true ∧ dx = dx' ∧ s'.heap = h' ∧ s'.opt.residual2 = r' := by
      intro hns sol dx1 h
      generalize hs1 : ({ s with opt := { s.opt with solver := sol, stats := { s.opt.stats with
        damping := A.mul s.opt.stats.damping s.opt.settings.lambdaUp } } } : OptWorld F V Fact) = s1
      replace h : lmTrials A L env J (A.mul (A.lit (1 / 2)) (A.sqNorm s1.opt.residual1)) n dx1 s1 = (s', .ok (b, dx)) := by
        subst hs1; exact h
      have := ih dx1 s1 (by subst hs1; exact hgs) (by subst hs1; exact hl) h
      subst hs1
      obtain ⟨o, h1, h2⟩ := this
      exact ⟨o, .retry (.unsolved hns) h1, h2⟩
    cases hf : L.factorize (damped A (L.gram J) s.opt.stats.damping) with
    | none =>
      rw [hf] at h
      simp only [modOpt, SE.bind_modify] at h
      exact retry (not_solved fun f hf' => by rw [hf] at hf'; simp at hf') none dx0 h
    | some f =>
      rw [hf] at h
      simp only [modOpt, SE.bind_modify] at h
      split at h
      · simp [SE.undefined] at h
      split at h
      · rename_i hbad
        refine retry (not_solved fun f' hf' => ?_) (some f) dx0 h
        obtain rfl : f = f' := by rw [hf] at hf'; exact Option.some.inj hf'
        rcases Bool.or_eq_true _ _ ▸ hbad with hb | hb
        · exact .inl (by simp [PivotsLarge, hb])
        · exact .inr (.inl (by simp [PivotsBalanced, hb]))
      rename_i hok
      simp only [Bool.or_eq_true, not_or, Bool.not_eq_true] at hok
      cases hsol : L.solve f (L.rhs J s.opt.residual1) with
      | none =>
        rw [hsol] at h
        refine retry (not_solved fun f' hf' => ?_) (some f) _ h
        obtain rfl : f = f' := by rw [hf] at hf'; exact Option.some.inj hf'
        exact .inr (.inr hsol)
      | some d =>
        have hsolved : SystemSolved A L (damped A (L.gram J) s.opt.stats.damping) (L.rhs J s.opt.residual1) d :=
          ⟨f, hf, hok.1, hok.2, hsol⟩
        rw [hsol] at h
        dsimp only at h
        rw [SE.bind_ok_iff] at h
        obtain ⟨s3, _, h3, h⟩ := h
        rw [SE.bind_ok_iff] at h
        obtain ⟨s4, _, h4, h⟩ := h
        simp only [SE.bind_get] at h
        simp only [stepVariables, onHeap, Prod.mk.injEq] at h3
        obtain ⟨h3, h3'⟩ := h3
        subst h3
        rw [evalResidual2_eq] at h4
        simp only [Prod.mk.injEq] at h4
        obtain ⟨h4, h4'⟩ := h4
        subst h4
        dsimp only at h h4'
        have htook : Took env s.graph s.heap _ (A.scale s.opt.settings.learningRate d) _ :=
          ⟨Prod.ext rfl h3', _, Prod.ext rfl h4'⟩
        have hstep := htook.stepped hl
        have hl' := hl.kept (.refl s.graph) (stepped_shape hstep)
        have hres := evaluated_isResidual hl' htook.residual
        split at h
        · rename_i hlt
          simp only [modStats, SE.bind_modify, SE.ret, Prod.mk.injEq, Res.ok.injEq] at h
          obtain ⟨rfl, rfl, rfl⟩ := h
          exact ⟨_, .accepted hsolved hstep hres hlt, rfl, rfl, rfl, rfl⟩
        · rename_i hlt
          rw [SE.bind_ok_iff] at h
          obtain ⟨s5, _, h5, h⟩ := h
          have hrest := trial_restore hgood hgs.1 hgs.2 (rfl : (SE.forEach s.graph.varsVec
            (stepVariable s.graph (A.scale s.opt.settings.learningRate d)) s.heap).1 = _)
          simp only [restoreValues, onHeap, saveValues, hrest, Prod.mk.injEq] at h5
          obtain ⟨rfl, _⟩ := h5
          simp only [modStats, SE.bind_modify, SE.bind_get] at h
          have hfail := FailedTrial.worse (settings := s.opt.settings) hsolved hstep hres (by simpa using hlt)
          split at h
          · rename_i hstop
            simp only [SE.ret, Prod.mk.injEq, Res.ok.injEq] at h
            obtain ⟨rfl, rfl, rfl⟩ := h
            rw [hstop] at hfail
            exact ⟨none, .limit hfail, rfl, rfl⟩
          · rename_i hgo
            rw [Bool.not_eq_true] at hgo
            rw [hgo] at hfail
            generalize hs1 : OptWorld.mk s.heap s.graph _ = s1 at h
            replace h : lmTrials A L env J (A.mul (A.lit (1 / 2)) (A.sqNorm s1.opt.residual1)) n
                (A.scale s.opt.settings.learningRate d) s1 = (s', .ok (b, dx)) := by
              subst hs1; exact h
            have := ih _ s1 (by subst hs1; exact hgs) (by subst hs1; exact hl) h
            subst hs1
            obtain ⟨o, h1, h2⟩ := this
            exact ⟨o, .retry hfail h1, h2⟩

theorem levenbergMarquardtStep_ok {A : Arith F} {L : LinAlg F Fact} {env : Env F V} {s s' : OptWorld F V Fact}
    {good : V → Prop} (hgood : RestoresExactly good) (hgs : GoodVars good s) (hl : Layout s.heap s.graph)
    (h : levenbergMarquardtStep A L env s = (s', .ok ())) :
    ∃ r J o lambda, (∃ buf, computeResidualInto env s.graph s.heap buf = (r, .ok ())) ∧
      computeSparse s.heap s.graph = (s'.graph, .ok J) ∧
      Trials A L s.opt.settings s.heap s.graph.varsVec s.graph.facs r J 5 (firstDamping s.opt.settings s.opt.stats) o lambda ∧
      match o with
      | none => s'.heap = s.heap ∧ ∃ n : Nat, s'.opt.stats = recorded A { s.opt.stats with
          damping := lambda
          valid := A.lt (A.mul (A.lit (1 / 2)) (A.sqNorm r)) (A.mul s.opt.initialStats.chi2 (A.lit (1 / 2)))
          status := if A.lt (A.mul (A.lit (1 / 2)) (A.sqNorm r)) (A.mul s.opt.initialStats.chi2 (A.lit (1 / 2))) = true
            then .success else if A.le s.opt.settings.maxLambda lambda = true then .illConditioned else .failed }
          (List.replicate n (A.lit 0)) r
      | some (dx, h', r') => s'.heap = h' ∧ s'.opt.stats = recorded A { s.opt.stats with damping := lambda } dx r' := by
  unfold levenbergMarquardtStep at h
  simp only [SE.bind_get] at h
  split at h
  · simp [SE.throw] at h
  rw [SE.bind_ok_iff] at h
  obtain ⟨s1, _, h1, h⟩ := h
  rw [SE.bind_ok_iff] at h
  obtain ⟨s2, J, h2, h⟩ := h
  simp only [SE.bind_get, modStats, SE.bind_modify] at h
  rw [evalResidual1_eq] at h1
  rcases hres : computeResidualInto env s.graph s.heap s.opt.residual1 with ⟨r, res⟩
  rw [hres] at h1
  simp only [Prod.mk.injEq] at h1
  obtain ⟨rfl, rfl⟩ := h1
  simp only [evalSparse, Prod.mk.injEq] at h2
  obtain ⟨h2, hJ⟩ := h2
  subst h2
  have hsp : computeSparse s.heap s.graph = ((computeSparse s.heap s.graph).1, .ok J) := Prod.ext rfl hJ
  have hk := computeSparse_kept s.heap s.graph
  dsimp only at h
  rw [SE.bind_ok_iff] at h
  obtain ⟨s3, ⟨b, dx⟩, h3, h⟩ := h
  generalize hs2 : OptWorld.mk s.heap (computeSparse s.heap s.graph).1 _ = s2 at h3
  have hpost := lmTrials_post A L env J (A.mul (A.lit (1 / 2)) (A.sqNorm r)) 5 [] s2
  rw [h3] at hpost
  have e1 : s2.opt.residual1 = r := by subst hs2; rfl
  have e2 : s2.heap = s.heap := by subst hs2; rfl
  have e3 : s2.graph = (computeSparse s.heap s.graph).1 := by subst hs2; rfl
  have e4 : s2.opt.settings = s.opt.settings := by subst hs2; rfl
  have e5 : s2.opt.stats = { s.opt.stats with damping := firstDamping s.opt.settings s.opt.stats } := by
    subst hs2
    simp only [firstDamping]
    split <;> rfl
  have e6 : s2.opt.initialStats = s.opt.initialStats := by subst hs2; rfl
  clear hs2
  obtain ⟨o, ht, ho⟩ := lmTrials_trials hgood 5 [] s2 s3 (by
      unfold GoodVars at *
      rw [e2, e3, hk.varsVec]; exact hgs) (by rw [e2, e3]; exact hl.kept hk (SameShape.refl _)) b dx (by rw [e1]; exact h3)
  rw [e1, e2, e3, e4, e5, hk.varsVec, hk.facs] at ht
  have hst3 : s3.opt.stats = { s.opt.stats with damping := s3.opt.stats.damping } := by
    rw [hpost.inTrial.stats, e5]
  have hr3 : s3.opt.residual1 = r := hpost.inTrial.residual1.trans e1
  have hg3 : s3.graph = (computeSparse s.heap s.graph).1 := hpost.inTrial.graph.trans e3
  have hi3 : s3.opt.initialStats = s.opt.initialStats := hpost.inTrial.run.init.trans e6
  have hse3 : s3.opt.settings = s.opt.settings := hpost.inTrial.run.settings.trans e4
  refine ⟨r, J, o, s3.opt.stats.damping, ⟨_, hres⟩, ?_, ht, ?_⟩
  · have : s'.graph = s3.graph := by
      cases b
      · simp only [Bool.false_eq_true, if_false, modOpt] at h
        rw [SE.bind_ok_iff] at h
        obtain ⟨s4, _, h4, h⟩ := h
        have h5 : s4.graph = s3.graph := by
          simp only [lmRejected, modStats, SE.bind_get] at h4
          split at h4 <;> (simp only [SE.modify, Prod.mk.injEq, and_true] at h4; rw [← h4])
        simp only [SE.bind_modify, SE.bind_get] at h
        rw [← h5]
        simp only [recordStats, modStats, SE.modify, Prod.mk.injEq, and_true] at h
        rw [← h]
      · simp only [if_true, SE.bind_get, recordStats, modStats, SE.modify, Prod.mk.injEq, and_true] at h
        rw [← h]
    rw [this, hg3]
    exact hsp
  · cases o with
    | some p =>
      obtain ⟨dx', h', r'⟩ := p
      obtain ⟨rfl, rfl, rfl, rfl⟩ := ho
      simp only [if_true, SE.bind_get, recordStats, modStats, SE.modify, Prod.mk.injEq, and_true] at h
      subst h
      refine ⟨rfl, ?_⟩
      dsimp only
      rw [hst3]
      rfl
    | none =>
      obtain ⟨rfl, hheap⟩ := ho
      simp only [Bool.false_eq_true, if_false, lmRejected] at h
      rw [SE.bind_ok_iff] at h
      obtain ⟨s4, _, h4, h⟩ := h
      simp only [SE.bind_get, hi3, hse3] at h4
      simp only [modOpt, SE.bind_modify, SE.bind_get, recordStats, modStats, SE.modify, Prod.mk.injEq, and_true] at h
      subst h
      split at h4
      · rename_i hlt
        simp only [modStats, SE.modify, Prod.mk.injEq, and_true] at h4
        subst h4
        refine ⟨hheap.trans e2, dx.length, ?_⟩
        dsimp only
        rw [hr3, hlt, if_pos rfl, hst3]
        rfl
      · rename_i hlt
        simp only [modStats, SE.modify, Prod.mk.injEq, and_true] at h4
        subst h4
        refine ⟨hheap.trans e2, dx.length, ?_⟩
        dsimp only
        rw [Bool.not_eq_true] at hlt
        simp only [hr3, hlt, Bool.false_eq_true, if_false]
        rw [hst3]
        rfl

/-! ### The Jacobian -/

/-- If the sparse Jacobian was computed, every factor delivered its blocks. -/
theorem computeSparse_factors {h : Heap V} {g : Graph F V} (hr : Ready (ownBuffers g.facs) h g)
    (hsafe : ∀ f ∈ g.facs, ReuseSafe f) {g' : Graph F V} {J : SpMat F} (he : computeSparse h g = (g', .ok J)) :
    ∀ f ∈ g.facs, ∃ js, f.computeJacobians h [] = .ok js := by
  have hs : ∀ i fp, g.facPl.lookup i = some fp → BufferSafe fp.factor (ownBuffers g.facs i) := by
    intro i fp hfp
    rw [lookup_facPl hr.laid, Option.map_eq_some_iff] at hfp
    obtain ⟨f, hf, rfl⟩ := hfp
    exact hr.safe i f hf
  have hloop : ∀ (is : List Nat) (s s' : SparseWork F V), (∀ i ∈ is, i < g.facs.length) →
      ScratchOnly (ownBuffers g.facs) g s.g → SE.forEach is (sparseOne h) s = (s', .ok ()) →
      ∀ i ∈ is, ∀ f, g.facs[i]? = some f → ∃ js, f.computeJacobians h [] = .ok js := by
    intro is
    induction is with
    | nil => simp
    | cons i is ih =>
      intro s s' his hso he
      rw [SE.forEach_cons, SE.bind_ok_iff] at he
      obtain ⟨s1, _, h1, he⟩ := he
      have hgs := hso.good hr.comps
      have hframe := sparseOne_frame (ownBuffers g.facs) h i s (fun fp hfp => hs i fp (by rw [hso.eq] at hfp; exact hfp)) hgs
      rw [h1] at hframe
      intro j hj f hf
      rcases List.mem_cons.1 hj with rfl | hj
      · unfold sparseOne at h1
        simp only [SE.bind_get] at h1
        have hfpl : s.g.facPl.lookup j = some ⟨f, rowStart g.facs j, f.residualSize,
            (colsOf h g.varPl f.variables).map (·.1), (colsOf h g.varPl f.variables).map (·.2)⟩ := by
          rw [hso.eq]
          dsimp only
          rw [lookup_facPl hr.laid, hf]
          rfl
        rw [hfpl] at h1
        cases hbuf : s.g.sparseComps[j]? with
        | none => rw [hbuf] at h1; simp [SE.undefined] at h1
        | some buf =>
          rw [hbuf] at h1
          dsimp only at h1
          rw [hsafe f (List.mem_of_getElem? hf) h buf (hgs j buf hbuf f hf)] at h1
          cases hj : f.computeJacobians h [] with
          | ok js => exact ⟨js, rfl⟩
          | threw => rw [hj] at h1; simp [SE.throw] at h1
          | ub => rw [hj] at h1; simp [SE.undefined] at h1
      · exact ih s1 s' (fun i h => his i (by simp [h])) (hso.trans hframe) he j hj f hf
  unfold computeSparse at he
  rw [if_neg (by simp [hr.laid.fin]), if_neg (by simp [hr.laid.sinit])] at he
  intro f hf
  obtain ⟨i, hi⟩ := List.mem_iff_getElem?.1 hf
  have hlt : i < g.facs.length := by
    have := List.getElem?_eq_some_iff.1 hi
    exact this.1
  split at he
  · simp at he
  · simp at he
  · rename_i s heq
    exact hloop _ _ s (by simp) (ScratchOnly.refl _ g) heq i (by simpa using hlt) f hi

theorem computeSparse_stacked {h : Heap V} {g : Graph F V} (hr : Ready (ownBuffers g.facs) h g)
    (hsafe : ∀ f ∈ g.facs, ReuseSafe f)
    (hproper : ∀ f ∈ g.facs, ∀ js, f.computeJacobians h [] = .ok js → ProperBlocks h f js) {g' : Graph F V} {J : SpMat F}
    (he : computeSparse h g = (g', .ok J)) :
    J = g'.sparse ∧ J.rows = rowTotal g.facs ∧ J.columns.length = freeTotal h g.varsVec ∧ ∃ blocks : Nat → List (Mat F),
      (∀ (k : Nat) f, g.facs[k]? = some f → f.computeJacobians h [] = .ok (blocks k) ∧ ProperBlocks h f (blocks k)) ∧
      IsStackedJacobian h g.varsVec g.facs blocks J.coeff := by
  have hfac := computeSparse_factors hr hsafe he
  let blocks : Nat → List (Mat F) := fun k => match g.facs[k]? with
    | none => []
    | some f => match f.computeJacobians h [] with
      | .ok js => js
      | _ => []
  have hblocks : ∀ (k : Nat) f, g.facs[k]? = some f → f.computeJacobians h [] = .ok (blocks k) ∧ ProperBlocks h f (blocks k) := by
    intro k f hf
    obtain ⟨js, hjs⟩ := hfac f (List.mem_of_getElem? hf)
    have : blocks k = js := by simp only [blocks, hf, hjs]
    rw [this]
    exact ⟨hjs, hproper f (List.mem_of_getElem? hf) js hjs⟩
  have hsame : ∀ (k : Nat) f, g.facs[k]? = some f → ∀ h buf, ownBuffers g.facs k buf →
      f.computeJacobians h buf = f.computeJacobians h [] :=
    fun k f hf h buf hb => hsafe f (List.mem_of_getElem? hf) h buf (hb f hf)
  have halloc : ¬ (g.sparseValid = true ∧ g.sparse.alloc = 0) := by
    rintro ⟨hv, h0⟩
    obtain ⟨s, e1, hso, _⟩ := sparseLoop_ok hr.laid hr.ids hr.ident _ hr.safe hsame hr.comps blocks hblocks
    have h1 : s.g.sparseValid = true := by rw [hso.eq]; exact hv
    have h2 : s.g.sparse = g.sparse := by rw [hso.eq]
    unfold computeSparse at he
    rw [if_neg (by simp [hr.laid.fin]), if_neg (by simp [hr.laid.sinit]), e1] at he
    simp only [h1, if_true, h2] at he
    simp [copySparse, SE.bind, SE.get, SE.throw, h0] at he
  obtain ⟨g2, m, e1, e2, e3, e4, e5⟩ := computeSparse_ok hr blocks hblocks hsame halloc
  rw [he] at e1
  simp only [Prod.mk.injEq, Res.ok.injEq] at e1
  obtain ⟨rfl, rfl⟩ := e1
  refine ⟨e2, by rw [e3, hr.laid.nr], by rw [e4, hr.laid.nv], blocks, hblocks, ?_⟩
  exact sparse_stacked hr.laid hr.ids hr.ident hr.norep blocks (fun k f hf => (hblocks k f hf).2) J e5

theorem computeSparse_linearised {env : Env F V} {h : Heap V} {g : Graph F V} (hr : Ready (ownBuffers g.facs) h g)
    (hl : Layout h g) (hsafe : ∀ f ∈ g.facs, ReuseSafe f)
    (hproper : ∀ f ∈ g.facs, ∀ js, f.computeJacobians h [] = .ok js → ProperBlocks h f js) {g' : Graph F V} {J : SpMat F}
    (he : computeSparse h g = (g', .ok J)) {r : List F} (hres : Evaluated env g h r) :
    Linearised h g.varsVec g.facs r J := by
  obtain ⟨_, h1, h2, h3⟩ := computeSparse_stacked hr hsafe hproper he
  exact ⟨evaluated_isResidual hl hres, h1, h2, h3⟩

/-! ### Along a run -/

/-- What is known about the graph at the head of the loop. -/
theorem iterations_ready {A : Arith F} {L : LinAlg F Fact} {env : Env F V} {s0 : OptWorld F V Fact}
    {h0 : Heap V} {pre post : List (Op F V × Res Unit)} (hw : FinalizedAfter h0 pre post ⟨s0.heap, s0.graph⟩)
    (hpre : NoJacobianYet pre) (hid : IdsIdentify s0.heap s0.graph.varsVec s0.graph.facs) (hnr : NoRepeats s0.graph.facs)
    {r0 : List F} {k : Nat} {s : OptWorld F V Fact} (hit : Iterations A L env k (loopStart A env s0 r0) s) :
    Ready (ownBuffers s0.graph.facs) s.heap s.graph ∧ Layout s.heap s.graph ∧ SameShape s0.heap s.heap ∧
      s.graph.varsVec = s0.graph.varsVec ∧ s.graph.facs = s0.graph.facs := by
  have hr := finalizedAfter_ready (good := ownBuffers s0.graph.facs) hw hpre hid hnr
    (fun _ _ _ => .nil) (fun k f hf h buf js hb hj f' hf' => by
      obtain rfl : f = f' := Option.some.inj (hf.symm.trans hf')
      exact .out (hb f hf) hj)
  have hr1 : Ready (ownBuffers s0.graph.facs) (loopStart A env s0 r0).heap (loopStart A env s0 r0).graph :=
    (computeResidual_frame (env := env) hr).1
  have hk1 : Kept s0.graph (loopStart A env s0 r0).graph := computeResidual_kept env s0.heap s0.graph
  obtain ⟨hk, hs⟩ := iterations_shape hit
  have hk' := hk1.trans hk
  refine ⟨?_, (finalizedAfter_layout hw).kept hk' hs, hs, hk'.varsVec, hk'.facs⟩
  generalize loopStart A env s0 r0 = s1 at hit hr1
  clear hk hs hk' hk1
  induction hit with
  | zero => exact hr1
  | @succ k s1 s s' _ ho _ ih =>
    have h := Traced.oneStep A L env s
    rw [ho] at h
    obtain ⟨evs, hv, hrun⟩ := h (by simp)
    exact (ready_runs hrun hv (ih hr1)).1

end Opt
end Factorama
