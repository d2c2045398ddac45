import Verif.Lemmas.OptSteps

/-! Helper lemmas: the main loop of the optimizer. -/

set_option linter.unusedSectionVars false

namespace Factorama
open Spec
namespace Opt
open Graph
variable {F V Fact : Type} [Zero F] [VarLike F V]

/-! ### The residual is determined by the variables -/

theorem residualLoop_factors {h : Heap V} (l : List (Nat × FacPlacement F V)) (buf buf' : List F)
    (he : SE.forEach l (residualOne h) buf = (buf', .ok ())) :
    ∀ it ∈ l, ∃ seg, it.2.factor.computeResidual h = .ok seg ∧ seg.length = it.2.residualDim := by
  induction l generalizing buf with
  | nil => simp
  | cons a l ih =>
    rw [SE.forEach_cons] at he
    rcases hs : residualOne h a buf with ⟨b, r⟩
    cases r with
    | threw => rw [SE.bind_threw hs] at he; simp at he
    | ub => rw [SE.bind_ub hs] at he; simp at he
    | ok u =>
      rw [SE.bind_ok hs] at he
      intro it hit
      rcases List.mem_cons.1 hit with rfl | hm
      · unfold residualOne at hs
        dsimp only at hs
        split at hs
        · simp at hs
        · split at hs
          · simp at hs
          · simp at hs
          · rename_i seg hseg
            split at hs
            · rename_i hlen; exact ⟨seg, hseg, hlen⟩
            · simp at hs
      · exact ih b he it hm

theorem evaluated_isResidual [LawfulVar F V] {env : Env F V} {g : Graph F V} {h : Heap V} {r : List F} (hl : Layout h g)
    (he : Evaluated env g h r) : IsResidual h g.facs r := by
  obtain ⟨buf, hb⟩ := he
  have hb0 := hb
  unfold computeResidualInto at hb
  rw [if_neg (by simp [hl.fin]), SE.bind_modify] at hb
  have hf := residualLoop_factors _ _ _ hb
  have hall : ∀ (k : Nat) f, g.facs[k]? = some f → ∃ seg, f.computeResidual h = .ok seg ∧ seg.length = f.residualSize := by
    intro k f hk
    have hm : (k, (⟨f, rowStart g.facs k, f.residualSize, (colsOf h (plOf h g.varsVec) f.variables).map (·.1),
        (colsOf h (plOf h g.varsVec) f.variables).map (·.2)⟩ : FacPlacement F V)) ∈ env.order g.facPl := by
      rw [(env.order_perm g.facPl).mem_iff, hl.fpl, List.mem_iff_getElem?]
      exact ⟨k, by simp [getElem?_placedList, hk]⟩
    exact hf _ hm
  let seg : Factor F V → List F := fun f => match f.computeResidual h with
    | .ok s => s
    | _ => []
  have hseg : ∀ (k : Nat) f, g.facs[k]? = some f → ∃ s, (g.facs.map seg)[k]? = some s ∧ f.computeResidual h = .ok s ∧
      s.length = f.residualSize := by
    intro k f hk
    obtain ⟨s, h1, h2⟩ := hall k f hk
    refine ⟨s, ?_, h1, h2⟩
    simp [hk, seg, h1]
  refine ⟨g.facs.map seg, by simp, hseg, ?_⟩
  have := residualInto_layout (env := env) hl (g.facs.map seg) (by simp) hseg buf
  rw [hb0] at this
  exact congrArg Prod.fst this

theorem isResidual_evaluates [LawfulVar F V] {env : Env F V} {g : Graph F V} {h : Heap V} {r : List F} (hl : Layout h g)
    (hr : IsResidual h g.facs r) (buf : List F) : computeResidualInto env g h buf = (r, .ok ()) := by
  obtain ⟨segs, h1, h2, rfl⟩ := hr
  exact residualInto_layout hl segs h1 h2 buf

theorem isResidual_unique {h : Heap V} {facs : List (Factor F V)} {r r' : List F} (h1 : IsResidual h facs r)
    (h2 : IsResidual h facs r') : r = r' := by
  obtain ⟨s, a1, a2, rfl⟩ := h1
  obtain ⟨s', b1, b2, rfl⟩ := h2
  congr 1
  apply List.ext_getElem?
  intro k
  by_cases hk : k < facs.length
  · obtain ⟨x, c1, c2, _⟩ := a2 k facs[k] (by simp [hk])
    obtain ⟨y, d1, d2, _⟩ := b2 k facs[k] (by simp [hk])
    rw [c2] at d2
    rw [c1, d1]
    simpa using d2
  · rw [List.getElem?_eq_none (by omega), List.getElem?_eq_none (by omega)]

/-! ### The loop -/

theorem afterStep_cont {A : Arith F} {settings : Settings F} {init prev st : Stats F}
    (h : (afterStep A settings init prev st).2 = false) :
    (afterStep A settings init prev st).1 = st ∧ ¬ Status.isSystemError st.status := by
  unfold afterStep at *
  dsimp only at *
  by_cases h1 : st.status = .singularHessian ∨ st.status = .illConditioned ∨ st.status = .failed
  · rw [if_pos h1] at h; simp at h
  · rw [if_neg h1] at h ⊢
    refine ⟨?_, h1⟩
    split at h
    · simp at h
    · rw [if_neg ‹_›]
      split at h
      · split at h <;> simp at h
      · rw [if_neg ‹_›]
        split at h
        · simp at h
        · rw [if_neg ‹_›]
          split at h
          · simp at h
          · rw [if_neg ‹_›]

/-- The statistics after the checks: everything but `status` and `valid` is unchanged. -/
theorem afterStep_fields (A : Arith F) (settings : Settings F) (init prev st : Stats F) :
    ∃ v status, (afterStep A settings init prev st).1 = { st with valid := v, status := status } ∧
      ((Status.isSystemError st.status ∧ v = st.valid ∧ status = st.status) ∨
       (¬ Status.isSystemError st.status ∧ v = st.valid ∧ (status = .success ∨ status = st.status ∨ status = .diverged)) ∨
       (¬ Status.isSystemError st.status ∧ v = false ∧ status = .diverged)) := by
  unfold afterStep
  dsimp only
  by_cases h1 : st.status = .singularHessian ∨ st.status = .illConditioned ∨ st.status = .failed
  · rw [if_pos h1]
    exact ⟨st.valid, st.status, rfl, .inl ⟨h1, rfl, rfl⟩⟩
  · rw [if_neg h1]
    split
    · exact ⟨st.valid, .success, rfl, .inr (.inl ⟨h1, rfl, .inl rfl⟩)⟩
    · split
      · split
        · exact ⟨st.valid, .diverged, rfl, .inr (.inl ⟨h1, rfl, .inr (.inr rfl)⟩)⟩
        · exact ⟨st.valid, .success, rfl, .inr (.inl ⟨h1, rfl, .inl rfl⟩)⟩
      · split
        · exact ⟨st.valid, .success, rfl, .inr (.inl ⟨h1, rfl, .inl rfl⟩)⟩
        · split
          · exact ⟨false, .diverged, rfl, .inr (.inr ⟨h1, rfl, rfl⟩)⟩
          · exact ⟨st.valid, st.status, rfl, .inr (.inl ⟨h1, rfl, .inr (.inl rfl)⟩)⟩

/-- How the loop can end. -/
inductive LoopEnd (A : Arith F) (L : LinAlg F Fact) (env : Env F V) (n : Nat) (s1 : OptWorld F V Fact) :
    OptWorld F V Fact × Res Unit → Prop where
  /-- the budget is used up -/
  | budget {s : OptWorld F V Fact} : Iterations A L env n s1 s → LoopEnd A L env n s1 (s, .ok ())
  /-- a step threw -/
  | threw {k : Nat} {s s' : OptWorld F V Fact} : k < n → Iterations A L env k s1 s → oneStep A L env s = (s', .threw) →
      LoopEnd A L env n s1 (giveUp .failed s')
  /-- undefined behaviour in a step -/
  | ub {k : Nat} {s s' : OptWorld F V Fact} : k < n → Iterations A L env k s1 s → oneStep A L env s = (s', .ub) →
      LoopEnd A L env n s1 (s', .ub)
  /-- a check after a step ended the loop -/
  | check {k : Nat} {s s' : OptWorld F V Fact} {st : Stats F} : k < n → Iterations A L env k s1 s →
      oneStep A L env s = (s', .ok ()) →
      afterStep A s'.opt.settings s'.opt.initialStats s.opt.stats s'.opt.stats = (st, true) →
      LoopEnd A L env n s1 ({ s' with opt := { s'.opt with stats := st } }, .ok ())

theorem iterate_ends (A : Arith F) (L : LinAlg F Fact) (env : Env F V) (s1 : OptWorld F V Fact) (n k : Nat)
    (s : OptWorld F V Fact) (hs : Iterations A L env k s1 s) : LoopEnd A L env (k + n) s1 (iterate A L env n s) := by
  induction n generalizing k s with
  | zero => exact .budget hs
  | succ n ih =>
    unfold iterate
    rcases ho : oneStep A L env s with ⟨s', r⟩
    cases r with
    | ub => exact .ub (by omega) hs ho
    | threw => exact .threw (by omega) hs ho
    | ok u =>
      dsimp only
      rcases ha : afterStep A s'.opt.settings s'.opt.initialStats s.opt.stats s'.opt.stats with ⟨st, b⟩
      cases b with
      | true => exact .check (by omega) hs ho ha
      | false =>
        have hst : st = s'.opt.stats := by
          have := (afterStep_cont (A := A) (settings := s'.opt.settings) (init := s'.opt.initialStats)
            (prev := s.opt.stats) (st := s'.opt.stats) (by rw [ha])).1
          rw [ha] at this; exact this
        subst hst
        have hn := ih (k + 1) s' (.succ hs ho (by rw [ha]))
        rw [show k + 1 + n = k + (n + 1) by omega] at hn
        exact hn

/-- The last actions of `optimize()`. -/
def finish (s : OptWorld F V Fact) : OptWorld F V Fact :=
  { s with opt := { s.opt with
      stats := if s.opt.stats.status = .running then { s.opt.stats with status := .success } else s.opt.stats
      complete := true } }

theorem optimize_noGraph (A : Arith F) (L : LinAlg F Fact) (env : Env F V) (s : OptWorld F V Fact)
    (hg : s.opt.hasGraph = false) : optimize A L env s = (s, .threw) := by
  unfold optimize
  simp only [SE.bind_get]
  rw [if_pos (by simp [hg])]
  rfl

theorem optimize_start (A : Arith F) (L : LinAlg F Fact) (env : Env F V) (s : OptWorld F V Fact)
    (hg : s.opt.hasGraph = true) {r : List F} (hr : (computeResidual env s.heap s.graph).2 = .ok r) :
    optimize A L env s = SE.bind (iterate A L env s.opt.settings.maxIterations)
      (fun _ => fun s => (finish s, .ok ())) (loopStart A env s r) := by
  unfold optimize
  simp only [SE.bind_get]
  rw [if_neg (by simp [hg])]
  simp only [modStats, SE.bind_modify]
  have e : evalInitial env ({ s with opt := { s.opt with stats := { Stats.default A with valid := true } } } : OptWorld F V Fact) =
      (({ s with opt := { s.opt with stats := { Stats.default A with valid := true } }, graph := (computeResidual env s.heap s.graph).1 } : OptWorld F V Fact), .ok r) := by
    simp only [evalInitial, hr]
  rw [SE.bind_ok e]
  rfl

theorem optimize_noResidual (A : Arith F) (L : LinAlg F Fact) (env : Env F V) (s : OptWorld F V Fact)
    (hg : s.opt.hasGraph = true) (hr : (computeResidual env s.heap s.graph).2 = .threw) :
    (optimize A L env s).2 = .threw ∧ (optimize A L env s).1.heap = s.heap := by
  unfold optimize
  simp only [SE.bind_get]
  rw [if_neg (by simp [hg])]
  simp only [modStats, SE.bind_modify]
  have e : evalInitial env ({ s with opt := { s.opt with stats := { Stats.default A with valid := true } } } : OptWorld F V Fact) =
      (({ s with opt := { s.opt with stats := { Stats.default A with valid := true } }, graph := (computeResidual env s.heap s.graph).1 } : OptWorld F V Fact), .threw) := by
    simp only [evalInitial, hr]
  rw [SE.bind_threw e]
  exact ⟨rfl, rfl⟩

theorem optimize_noResidual_opt (A : Arith F) (L : LinAlg F Fact) (env : Env F V) (s : OptWorld F V Fact)
    (hg : s.opt.hasGraph = true) (hr : (computeResidual env s.heap s.graph).2 = .threw) :
    (optimize A L env s).1.opt = { s.opt with stats := { Stats.default A with valid := true } } := by
  unfold optimize
  simp only [SE.bind_get]
  rw [if_neg (by simp [hg])]
  simp only [modStats, SE.bind_modify]
  have e : evalInitial env ({ s with opt := { s.opt with stats := { Stats.default A with valid := true } } } : OptWorld F V Fact) =
      (({ s with opt := { s.opt with stats := { Stats.default A with valid := true } }, graph := (computeResidual env s.heap s.graph).1 } : OptWorld F V Fact), .threw) := by
    simp only [evalInitial, hr]
  rw [SE.bind_threw e]

theorem optimize_ubResidual (A : Arith F) (L : LinAlg F Fact) (env : Env F V) (s : OptWorld F V Fact)
    (hg : s.opt.hasGraph = true) (hr : (computeResidual env s.heap s.graph).2 = .ub) :
    (optimize A L env s).2 = .ub ∧ (optimize A L env s).1.heap = s.heap := by
  unfold optimize
  simp only [SE.bind_get]
  rw [if_neg (by simp [hg])]
  simp only [modStats, SE.bind_modify]
  have e : evalInitial env ({ s with opt := { s.opt with stats := { Stats.default A with valid := true } } } : OptWorld F V Fact) =
      (({ s with opt := { s.opt with stats := { Stats.default A with valid := true } }, graph := (computeResidual env s.heap s.graph).1 } : OptWorld F V Fact), .ub) := by
    simp only [evalInitial, hr]
  rw [SE.bind_ub e]
  exact ⟨rfl, rfl⟩

theorem iterations_iterate {A : Arith F} {L : LinAlg F Fact} {env : Env F V} {k : Nat} {s1 s : OptWorld F V Fact}
    (hit : Iterations A L env k s1 s) (n : Nat) : iterate A L env (k + n) s1 = iterate A L env n s := by
  induction hit generalizing n with
  | zero => rw [Nat.zero_add]
  | @succ k s1 s s' _ ho ha ih =>
    rw [show k + 1 + n = k + (n + 1) by omega, ih (n + 1)]
    have hst := (afterStep_cont ha).1
    have : iterate A L env (n + 1) s = iterate A L env n s' := by
      rw [show iterate A L env (n + 1) = _ from rfl]
      rcases ha' : afterStep A s'.opt.settings s'.opt.initialStats s.opt.stats s'.opt.stats with ⟨st, b⟩
      rw [ha'] at ha hst
      dsimp only at ha hst
      subst ha hst
      dsimp only [iterate]
      simp only [ho, ha']
      rfl
    exact this

/-- A call of `optimize()` that gets as far as its loop. -/
theorem optimize_ends (A : Arith F) (L : LinAlg F Fact) (env : Env F V) (s : OptWorld F V Fact)
    (hg : s.opt.hasGraph = true) {r : List F} (hr : (computeResidual env s.heap s.graph).2 = .ok r) :
    ∃ o, LoopEnd A L env s.opt.settings.maxIterations (loopStart A env s r) o ∧
      ((o.2 = .ok () ∧ optimize A L env s = (finish o.1, .ok ())) ∨ (o.2 = .ub ∧ optimize A L env s = (o.1, .ub))) := by
  have h1 := iterate_ends A L env (loopStart A env s r) s.opt.settings.maxIterations 0 _ (.zero _)
  rw [Nat.zero_add] at h1
  refine ⟨_, h1, ?_⟩
  rw [optimize_start A L env s hg hr]
  have h2 : (iterate A L env s.opt.settings.maxIterations (loopStart A env s r)).2 ≠ .threw := by
    generalize hit : iterate A L env s.opt.settings.maxIterations (loopStart A env s r) = o at h1
    cases h1 <;> simp [giveUp, modStats, SE.modify]
  rcases hit : iterate A L env s.opt.settings.maxIterations (loopStart A env s r) with ⟨o, res⟩
  cases res with
  | ok u => exact .inl ⟨rfl, SE.bind_ok hit⟩
  | ub => exact .inr ⟨rfl, SE.bind_ub hit⟩
  | threw => rw [hit] at h2; exact absurd rfl h2

/-! ### Invariants at the head of the loop -/

/-- At the head of the loop after `k` iterations. -/
structure AtHead (s1 : OptWorld F V Fact) (k : Nat) (s : OptWorld F V Fact) : Prop where
  run : SameRun s1 s
  valid : s.opt.stats.valid = true
  status : s.opt.stats.status = .running ∨ s.opt.stats.status = .success
  iteration : s.opt.stats.iteration = k

theorem ended_counts {A : Arith F} {env : Env F V} {s s' : OptWorld F V Fact} (he : Ended A env s s')
    (hv : s.opt.stats.valid = true) (hst : s.opt.stats.status = .running ∨ s.opt.stats.status = .success) :
    (Status.isSystemError s'.opt.stats.status ∧ s'.opt.stats.valid = false ∧
        s'.opt.stats.iteration ≤ s.opt.stats.iteration + 1) ∨
      (s'.opt.stats.valid = true ∧ (s'.opt.stats.status = .running ∨ s'.opt.stats.status = .success) ∧
        s'.opt.stats.iteration = s.opt.stats.iteration + 1) := by
  cases he with
  | unsolved st _ hst' _ e => rw [e]; exact .inl ⟨hst', rfl, by dsimp only; omega⟩
  | moved dx r _ _ e => rw [e]; exact .inr ⟨hv, hst, rfl⟩
  | accepted dx r0 r l _ _ _ _ e => rw [e]; exact .inr ⟨hv, hst, rfl⟩
  | rejected m r0 l v st _ _ _ e hverdict =>
    rw [e]
    split at hverdict
    · exact .inr ⟨hverdict.1, .inr hverdict.2, rfl⟩
    · refine .inl ⟨?_, hverdict.1, Nat.le_refl _⟩
      rcases hverdict.2 with h | h
      · exact .inr (.inl h)
      · exact .inr (.inr h)

theorem iterations_head {A : Arith F} {L : LinAlg F Fact} {env : Env F V} {k : Nat} {s1 s : OptWorld F V Fact}
    (hit : Iterations A L env k s1 s) (hg : s1.opt.hasGraph = true) (hv : s1.opt.stats.valid = true)
    (hst : s1.opt.stats.status = .running) (hi : s1.opt.stats.iteration = 0) : AtHead s1 k s := by
  induction hit with
  | zero s1 => exact ⟨.refl _, hv, .inl hst, hi⟩
  | @succ k s1 s s' _ ho ha ih =>
    have hh := ih hg hv hst hi
    have hp := oneStep_post A L env s (hh.run.hasGraph.trans hg)
    rw [ho] at hp
    have hne := (afterStep_cont ha).2
    rcases ended_counts (hp.ended rfl) hh.valid hh.status with h | ⟨h1, h2, h3⟩
    · exact absurd h.1 hne
    · exact ⟨hh.run.trans hp.run, h1, h2, by rw [h3, hh.iteration]⟩

/-! ### Everything the loop preserves, for a finalized graph -/

variable [LawfulVar F V]

theorem computeResidual_evaluated {env : Env F V} {g : Graph F V} {h : Heap V} {r : List F}
    (hr : (computeResidual env h g).2 = .ok r) : Evaluated env g h r := by
  unfold computeResidual at hr
  split at hr
  · simp at hr
  · dsimp only at hr
    split at hr
    · rename_i buf hb
      simp only [Res.ok.injEq] at hr
      subst hr
      exact ⟨_, hb⟩
    · simp at hr
    · simp at hr

theorem oneStep_shape {A : Arith F} {L : LinAlg F Fact} {env : Env F V} {s s' : OptWorld F V Fact} {r : Res Unit}
    (ho : oneStep A L env s = (s', r)) (hne : r ≠ .ub) :
    Kept s.graph s'.graph ∧ SameShape s.heap s'.heap := by
  have h := Traced.oneStep A L env s
  rw [ho] at h
  obtain ⟨evs, hv, hrun⟩ := h hne
  exact kept_runs hrun hv

theorem iterations_shape {A : Arith F} {L : LinAlg F Fact} {env : Env F V} {k : Nat} {s1 s : OptWorld F V Fact}
    (hit : Iterations A L env k s1 s) : Kept s1.graph s.graph ∧ SameShape s1.heap s.heap := by
  induction hit with
  | zero s1 => exact ⟨.refl _, SameShape.refl _⟩
  | succ _ ho _ ih =>
    obtain ⟨h1, h2⟩ := oneStep_shape ho (by simp)
    exact ⟨ih.1.trans h1, ih.2.trans h2⟩

/-- The statistics describe the variables. -/
def Describes (A : Arith F) (s : OptWorld F V Fact) : Prop :=
  ∃ r, IsResidual s.heap s.graph.facs r ∧ s.opt.stats.chi2 = A.sqNorm r ∧ s.opt.stats.residualNorm = A.norm r

theorem ended_describes {A : Arith F} {env : Env F V} {s s' : OptWorld F V Fact} (he : Ended A env s s')
    (hk : Kept s.graph s'.graph) (hl : Layout s.heap s.graph) (hl' : Layout s'.heap s'.graph) (hd : Describes A s)
    (hgood : s.opt.settings.method = .levenbergMarquardt → ∃ good, RestoresExactly good ∧ GoodVars good s) :
    Describes A s' := by
  cases he with
  | unsolved st _ _ hh e =>
    obtain ⟨r, h1, h2, h3⟩ := hd
    exact ⟨r, by rw [hh, hk.facs]; exact h1, by rw [e]; exact h2, by rw [e]; exact h3⟩
  | moved dx r _ hev e =>
    exact ⟨r, evaluated_isResidual hl' hev, by rw [e]; rfl, by rw [e]; rfl⟩
  | accepted dx r0 r l _ _ hev _ e =>
    exact ⟨r, evaluated_isResidual hl' hev, by rw [e]; rfl, by rw [e]; rfl⟩
  | rejected m r0 l v st hm hev hrest e _ =>
    obtain ⟨good, hg, hgs⟩ := hgood hm
    have hh := hrest good hg hgs
    rw [hh] at hl'
    exact ⟨r0, by rw [hh]; exact evaluated_isResidual hl' hev, by rw [e]; rfl, by rw [e]; rfl⟩

theorem iterations_good {A : Arith F} {L : LinAlg F Fact} {env : Env F V} {k : Nat} {s1 s : OptWorld F V Fact}
    (hit : Iterations A L env k s1 s) (hg : s1.opt.hasGraph = true)
    (hm : s1.opt.settings.method = .levenbergMarquardt) {good : V → Prop} (hgood : RestoresExactly good)
    (hgs : GoodVars good s1) : s.opt.hasGraph = true ∧ s.opt.settings.method = .levenbergMarquardt ∧ GoodVars good s := by
  induction hit with
  | zero s1 => exact ⟨hg, hm, hgs⟩
  | @succ k s1 s s' _ ho _ ih =>
    obtain ⟨i1, i2, i3⟩ := ih hg hm hgs
    have hp := oneStep_post A L env s i1
    rw [ho] at hp
    exact ⟨hp.run.hasGraph.trans i1, by rw [hp.run.settings]; exact i2, hp.good i2 good hgood i3⟩

theorem iterations_describes {A : Arith F} {L : LinAlg F Fact} {env : Env F V} {k : Nat} {s1 s : OptWorld F V Fact}
    (hit : Iterations A L env k s1 s) (hg : s1.opt.hasGraph = true) (hl : Layout s1.heap s1.graph) (hd : Describes A s1)
    (hgood : s1.opt.settings.method = .levenbergMarquardt → ∃ good, RestoresExactly good ∧ GoodVars good s1) :
    s.opt.hasGraph = true ∧ s.opt.settings = s1.opt.settings ∧ Layout s.heap s.graph ∧ Describes A s ∧
      (s.opt.settings.method = .levenbergMarquardt → ∃ good, RestoresExactly good ∧ GoodVars good s) := by
  induction hit with
  | zero s1 => exact ⟨hg, rfl, hl, hd, hgood⟩
  | @succ k s1 s s' _ ho _ ih =>
    obtain ⟨i1, i2, i3, i4, i5⟩ := ih hg hl hd hgood
    have hp := oneStep_post A L env s i1
    rw [ho] at hp
    obtain ⟨hk, hs⟩ := oneStep_shape ho (by simp)
    have hl' := i3.kept hk hs
    refine ⟨hp.run.hasGraph.trans i1, hp.run.settings.trans i2, hl', ended_describes (hp.ended rfl) hk i3 hl' i4 i5, ?_⟩
    intro hm
    rw [hp.run.settings] at hm
    obtain ⟨good, hg, hgs⟩ := i5 hm
    exact ⟨good, hg, hp.good hm good hg hgs⟩

end Opt
end Factorama
