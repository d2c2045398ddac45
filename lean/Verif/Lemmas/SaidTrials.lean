import Verif.Lemmas.Stops
import Verif.Lemmas.Attempts
import Verif.Lemmas.OptSystem

/-!
# The messages of a single step
-/

set_option linter.unusedSectionVars false

namespace Factorama.Opt
open Spec Graph
variable {F V Fact : Type} [Zero F] [VarLike F V]

section
variable {β : Type}

theorem bind_act (a : Act F) (k : Unit → SE (Talk F V Fact) β) (s : OptWorld F V Fact) (acts : List (Act F)) :
    SE.bind (act a) k ⟨s, acts⟩ = k () ⟨s, acts ++ [a]⟩ := rfl

theorem bind_look (k : OptWorld F V Fact → SE (Talk F V Fact) β) (s : OptWorld F V Fact) (acts : List (Act F)) :
    SE.bind look k ⟨s, acts⟩ = k s ⟨s, acts⟩ := rfl

theorem bind_silent_modify (f : OptWorld F V Fact → OptWorld F V Fact) (k : Unit → SE (Talk F V Fact) β)
    (s : OptWorld F V Fact) (acts : List (Act F)) :
    SE.bind (silently (SE.modify f)) k ⟨s, acts⟩ = k () ⟨f s, acts⟩ := rfl

theorem bind_raise (A : Arith F) (k : Unit → SE (Talk F V Fact) β) (s : OptWorld F V Fact) (acts : List (Act F)) :
    SE.bind (silently (raiseLambda A)) k ⟨s, acts⟩ = k () ⟨{ s with opt := { s.opt with stats := { s.opt.stats with
      damping := A.mul s.opt.stats.damping s.opt.settings.lambdaUp } } }, acts⟩ := rfl

theorem bind_say (m : Message F) (k : Unit → SE (Talk F V Fact) β) (s : OptWorld F V Fact) (acts : List (Act F))
    (hv : s.opt.settings.verbose = true) : SE.bind (say m) k ⟨s, acts⟩ = k () ⟨s, acts ++ [.print m]⟩ := by
  have : say m (⟨s, acts⟩ : Talk F V Fact) = (⟨s, acts ++ [.print m]⟩, .ok ()) := by rw [Opt.say, if_pos hv]; rfl
  exact SE.bind_ok this

theorem say_verbose (m : Message F) (s : OptWorld F V Fact) (acts : List (Act F)) (hv : s.opt.settings.verbose = true) :
    say m (⟨s, acts⟩ : Talk F V Fact) = (⟨s, acts ++ [.print m]⟩, .ok ()) := by rw [Opt.say, if_pos hv]; rfl

theorem bind_silently_ok {α : Type} {m : SE (OptWorld F V Fact) α} {k : α → SE (Talk F V Fact) β}
    {s : OptWorld F V Fact} {acts : List (Act F)} {t' : Talk F V Fact} {b : β}
    (h : SE.bind (silently m) k ⟨s, acts⟩ = (t', .ok b)) :
    ∃ s1 a, m s = (s1, .ok a) ∧ k a ⟨s1, acts⟩ = (t', .ok b) := by
  obtain ⟨t1, a, h1, h2⟩ := SE.bind_ok_iff.1 h
  have e1 : t1 = ⟨(m s).1, acts⟩ := (congrArg Prod.fst h1).symm
  have e2 : (m s).2 = .ok a := congrArg Prod.snd h1
  exact ⟨(m s).1, a, by rw [← e2], by rw [← e1]; exact h2⟩
end

variable [LawfulVar F V]

/-- `t'.acts` continues `acts` with these messages. -/
def Continued (acts : List (Act F)) (t' : Talk F V Fact) (ms : List (Message F)) : Prop :=
  ∃ l, t'.acts = acts ++ l ∧ messages l = ms

theorem Continued.press {acts : List (Act F)} {t' : Talk F V Fact} {ms : List (Message F)} {w : Watch} {p : Stopwatch.Press}
    (h : Continued (acts ++ [.press w p]) t' ms) : Continued acts t' ms := by
  obtain ⟨l, h1, h2⟩ := h
  exact ⟨.press w p :: l, by rw [h1]; simp, by simpa [messages] using h2⟩

theorem Continued.print {acts : List (Act F)} {t' : Talk F V Fact} {ms : List (Message F)} {m : Message F}
    (h : Continued (acts ++ [.print m]) t' ms) : Continued acts t' (m :: ms) := by
  obtain ⟨l, h1, h2⟩ := h
  exact ⟨.print m :: l, by rw [h1]; simp, by simp [messages, h2]⟩

theorem Continued.nil (t' : Talk F V Fact) : Continued t'.acts t' [] := ⟨[], by simp, rfl⟩

theorem lmTrialsV_said {A : Arith F} {L : LinAlg F Fact} {env : Env F V} {J : SpMat F} {good : V → Prop}
    (hgood : RestoresExactly good) (n : Nat) (dx0 : List F) (s : OptWorld F V Fact) (acts : List (Act F)) (t' : Talk F V Fact)
    (hgs : GoodVars good s) (hl : Layout s.heap s.graph) (hv : s.opt.settings.verbose = true) (res : (Bool × List F) × Nat)
    (h : lmTrialsV A L env J (A.mul (A.lit (1 / 2)) (A.sqNorm s.opt.residual1)) n dx0 ⟨s, acts⟩ = (t', .ok res)) :
    ∃ ms o, Continued acts t' ms ∧ TrialsSaid A L s.opt.settings s.heap s.graph.varsVec s.graph.facs s.opt.residual1 J n
        s.opt.stats.damping ms o t'.world.opt.stats.damping ∧ t'.world.opt.settings.verbose = true ∧
      match o with
      | none => res.1.1 = false ∧ t'.world.heap = s.heap
      | some h' => res.1.1 = true ∧ t'.world.heap = h' := by
  induction n generalizing dx0 s acts with
  | zero =>
    simp only [lmTrialsV, SE.ret, Prod.mk.injEq, Res.ok.injEq] at h
    obtain ⟨rfl, rfl⟩ := h
    exact ⟨[], none, .nil _, .exhausted, hv, rfl, rfl⟩
  | succ n ih =>
    unfold lmTrialsV at h
    rw [bind_look] at h
    simp only [startWatch, stopWatch, bind_act] at h
    rw [damped_eq] at h
    have retry : ∀ (m : Message F) (l : List (Act F)) (sol : Option Fact) dx1,
        (∀ t' ms, Continued (acts ++ l) t' ms → Continued (Fact := Fact) (V := V) acts t' ms) →
        FailedSaid A L s.opt.settings s.heap s.graph.varsVec s.graph.facs s.opt.residual1 J s.opt.stats.damping m
          (A.mul s.opt.stats.damping s.opt.settings.lambdaUp) false →
        lmTrialsV A L env J (A.mul (A.lit (1 / 2)) (A.sqNorm s.opt.residual1)) n dx1
          ⟨{ s with opt := { s.opt with solver := sol, stats := { s.opt.stats with
            damping := A.mul s.opt.stats.damping s.opt.settings.lambdaUp } } }, acts ++ l ++ [.print m]⟩ = (t', .ok res) →
        ∃ ms o, Continued acts t' ms ∧ TrialsSaid A L s.opt.settings s.heap s.graph.varsVec s.graph.facs s.opt.residual1 J
            (n + 1) s.opt.stats.damping ms o t'.world.opt.stats.damping ∧ t'.world.opt.settings.verbose = true ∧
          match o with
          | none => res.1.1 = false ∧ t'.world.heap = s.heap
          | some h' => res.1.1 = true ∧ t'.world.heap = h' := by
      intro m l sol dx1 hl' hf h
      generalize hs1 : ({ s with opt := { s.opt with solver := sol, stats := { s.opt.stats with
        damping := A.mul s.opt.stats.damping s.opt.settings.lambdaUp } } } : OptWorld F V Fact) = s1 at h
      have := ih dx1 s1 _ (by subst hs1; exact hgs) (by subst hs1; exact hl) (by subst hs1; exact hv) (by subst hs1; exact h)
      subst hs1
      obtain ⟨ms, o, h1, h2, h3, h4⟩ := this
      exact ⟨m :: ms, o, hl' _ _ h1.print, .retry hf h2, h3, h4⟩
    have hpresses : ∀ t' ms, Continued (acts ++ [Act.press .hessian .start, .press .hessian .stop, .press .solve .start]) t' ms →
        Continued (Fact := Fact) (V := V) acts t' ms := by
      intro t' ms h
      refine Continued.press (w := .hessian) (p := .start) (Continued.press (w := .hessian) (p := .stop)
        (Continued.press (w := .solve) (p := .start) ?_))
      simpa using h
    cases hf : L.factorize (damped A (L.gram J) s.opt.stats.damping) with
    | none =>
      rw [hf] at h
      simp only [modOpt, bind_silent_modify, bind_raise, bind_look] at h
      rw [bind_say _ _ _ _ (by exact hv)] at h
      exact retry _ _ none dx0 hpresses (.factorisation hf) (by simpa using h)
    | some f =>
      rw [hf] at h
      simp only [modOpt, bind_silent_modify] at h
      split at h
      · simp [SE.undefined] at h
      split at h
      · rename_i hbad
        simp only [bind_raise, bind_look] at h
        rw [bind_say _ _ _ _ (by exact hv)] at h
        refine retry _ _ (some f) dx0 hpresses (.pivots hf ?_ ?_) (by simpa using h)
        · rintro ⟨h1, h2⟩
          unfold PivotsLarge at h1
          unfold PivotsBalanced at h2
          rw [h1, h2] at hbad
          simp at hbad
        · simp [PivotsLarge]
      rename_i hok
      simp only [Bool.or_eq_true, not_or, Bool.not_eq_true] at hok
      cases hsol : L.solve f (L.rhs J s.opt.residual1) with
      | none =>
        rw [hsol] at h
        simp only [bind_raise, bind_look] at h
        rw [bind_say _ _ _ _ (by exact hv)] at h
        exact retry _ _ (some f) _ hpresses (.solution hf hok.1 hok.2 hsol) (by simpa using h)
      | some d =>
        have hsolved : SystemSolved A L (damped A (L.gram J) s.opt.stats.damping) (L.rhs J s.opt.residual1) d :=
          ⟨f, hf, hok.1, hok.2, hsol⟩
        rw [hsol] at h
        dsimp only at h
        simp only [bind_act] at h
        obtain ⟨s3, _, h3, h⟩ := bind_silently_ok h
        simp only [bind_act] at h
        obtain ⟨s4, _, h4, h⟩ := bind_silently_ok h
        simp only [bind_act, bind_look] at h
        simp only [stepVariables, onHeap, Prod.mk.injEq] at h3
        obtain ⟨h3, h3'⟩ := h3
        subst h3
        rw [evalResidual2_eq] at h4
        simp only [Prod.mk.injEq] at h4
        obtain ⟨h4, h4'⟩ := h4
        subst h4
        dsimp only at h h4'
        have htook : Took env s.graph s.heap _ (A.scale s.opt.settings.learningRate d) _ :=
          ⟨Prod.ext rfl h3', _, Prod.ext rfl h4'⟩
        have hstep := htook.stepped hl
        have hl' := hl.kept (.refl s.graph) (stepped_shape hstep)
        have hres := evaluated_isResidual hl' htook.residual
        have hpresses' : ∀ t' ms, Continued (acts ++ [Act.press .hessian .start, .press .hessian .stop, .press .solve .start,
            .press .solve .stop, .press .updateVars .start, .press .updateVars .stop, .press .residual .start,
            .press .residual .stop]) t' ms → Continued (Fact := Fact) (V := V) acts t' ms := by
          intro t' ms h
          refine hpresses _ _ (Continued.press (w := .solve) (p := .stop) (Continued.press (w := .updateVars) (p := .start)
            (Continued.press (w := .updateVars) (p := .stop) (Continued.press (w := .residual) (p := .start)
            (Continued.press (w := .residual) (p := .stop) ?_)))))
          simpa using h
        split at h
        · rename_i hlt
          simp only [modStats, bind_silent_modify, bind_look] at h
          rw [bind_say _ _ _ _ (by exact hv)] at h
          simp only [SE.ret, Prod.mk.injEq, Res.ok.injEq] at h
          obtain ⟨rfl, rfl⟩ := h
          refine ⟨_, _, hpresses' _ _ (Continued.print ?_), .accepted hsolved hstep hres hlt rfl, hv, rfl, rfl⟩
          exact ⟨[], by simp, rfl⟩
        · rename_i hlt
          simp only [bind_act] at h
          obtain ⟨s5, _, h5, h⟩ := bind_silently_ok h
          have hrest := trial_restore hgood hgs.1 hgs.2 (rfl : (SE.forEach s.graph.varsVec
            (stepVariable s.graph (A.scale s.opt.settings.learningRate d)) s.heap).1 = _)
          simp only [restoreValues, onHeap, saveValues, hrest, Prod.mk.injEq] at h5
          obtain ⟨rfl, _⟩ := h5
          simp only [modStats, bind_silent_modify, bind_look] at h
          rw [bind_say _ _ _ _ (by exact hv)] at h
          have hfail := FailedSaid.worse (settings := s.opt.settings) hsolved hstep hres (by simpa using hlt) rfl
          have hpresses'' : ∀ t' ms, Continued (acts ++ [Act.press .hessian .start, .press .hessian .stop,
              .press .solve .start, .press .solve .stop, .press .updateVars .start, .press .updateVars .stop,
              .press .residual .start, .press .residual .stop, .press .updateVars .start]) t' ms →
              Continued (Fact := Fact) (V := V) acts t' ms := by
            intro t' ms h
            exact hpresses' _ _ (Continued.press (w := .updateVars) (p := .start) (by simpa using h))
          split at h
          · rename_i hstop
            rw [bind_say _ _ _ _ (by exact hv)] at h
            simp only [SE.ret, Prod.mk.injEq, Res.ok.injEq] at h
            obtain ⟨rfl, rfl⟩ := h
            rw [hstop] at hfail
            refine ⟨_, none, hpresses'' _ _ (Continued.print (Continued.print ?_)), .limit hfail, hv, rfl, rfl⟩
            exact ⟨[], by simp, rfl⟩
          · rename_i hgo
            rw [Bool.not_eq_true] at hgo
            rw [hgo] at hfail
            simp only [bind_act] at h
            generalize hs1 : OptWorld.mk s.heap s.graph _ = s1 at h
            have := ih _ s1 _ (by subst hs1; exact hgs) (by subst hs1; exact hl) (by subst hs1; exact hv)
              (by subst hs1; exact h)
            subst hs1
            obtain ⟨ms, o, h1, h2, h3, h4⟩ := this
            refine ⟨_, o, hpresses'' _ _ (Continued.print (Continued.press (w := .updateVars) (p := .stop) ?_)),
              .retry hfail h2, h3, h4⟩
            simpa using h1

theorem Continued.trans {acts : List (Act F)} {t t' : Talk F V Fact} {ms ms' : List (Message F)} (h : Continued acts t ms)
    (h' : Continued t.acts t' ms') : Continued acts t' (ms ++ ms') := by
  obtain ⟨l, h1, h2⟩ := h
  obtain ⟨l', h3, h4⟩ := h'
  exact ⟨l ++ l', by rw [h3, h1, List.append_assoc], by rw [messages_append, h2, h4]⟩

/-- The messages of a step of Levenberg-Marquardt. -/
theorem levenbergMarquardtStepV_said {A : Arith F} {L : LinAlg F Fact} {env : Env F V} {s : OptWorld F V Fact}
    {acts : List (Act F)} {t' : Talk F V Fact} {good : V → Prop} (hgood : RestoresExactly good) (hgs : GoodVars good s)
    (hl : Layout s.heap s.graph) (hv : s.opt.settings.verbose = true)
    (h : levenbergMarquardtStepV A L env ⟨s, acts⟩ = (t', .ok ())) :
    ∃ r J ms o q k, (∃ buf, computeResidualInto env s.graph s.heap buf = (r, .ok ())) ∧
      computeSparse s.heap s.graph = (t'.world.graph, .ok J) ∧
      TrialsSaid A L s.opt.settings s.heap s.graph.varsVec s.graph.facs r J 5 (firstDamping s.opt.settings s.opt.stats) ms o
        t'.world.opt.stats.damping ∧
      Continued acts t' (ms ++ (if o.isSome then [] else [.lmNoStep 5]) ++
        [.lmSummary q t'.world.opt.stats.damping k o.isSome]) ∧
      t'.world.heap = o.getD s.heap := by
  unfold levenbergMarquardtStepV at h
  rw [bind_look] at h
  split at h
  · simp [SE.throw] at h
  simp only [startWatch, stopWatch, bind_act] at h
  obtain ⟨s1, _, h1, h⟩ := bind_silently_ok h
  simp only [bind_act] at h
  obtain ⟨s2, J, h2, h⟩ := bind_silently_ok h
  simp only [bind_act, bind_look, modStats, bind_silent_modify] at h
  rw [evalResidual1_eq] at h1
  rcases hres : computeResidualInto env s.graph s.heap s.opt.residual1 with ⟨r, res⟩
  rw [hres] at h1
  simp only [Prod.mk.injEq] at h1
  obtain ⟨rfl, rfl⟩ := h1
  simp only [evalSparse, Prod.mk.injEq] at h2
  obtain ⟨h2, hJ⟩ := h2
  subst h2
  have hsp : computeSparse s.heap s.graph = ((computeSparse s.heap s.graph).1, .ok J) := Prod.ext rfl hJ
  have hk := computeSparse_kept s.heap s.graph
  dsimp only at h
  obtain ⟨t3, res, h3, h⟩ := SE.bind_ok_iff.1 h
  generalize hs2 : OptWorld.mk s.heap (computeSparse s.heap s.graph).1 _ = s2 at h3
  have e1 : s2.opt.residual1 = r := by subst hs2; rfl
  have e2 : s2.heap = s.heap := by subst hs2; rfl
  have e3 : s2.graph = (computeSparse s.heap s.graph).1 := by subst hs2; rfl
  have e4 : s2.opt.settings = s.opt.settings := by subst hs2; rfl
  have e5 : s2.opt.stats.damping = firstDamping s.opt.settings s.opt.stats := by
    subst hs2
    simp only [firstDamping]
    split <;> rfl
  clear hs2
  have hpost := lmTrials_post A L env J (A.mul (A.lit (1 / 2)) (A.sqNorm r)) 5 [] s2
  rw [show lmTrials A L env J (A.mul (A.lit (1 / 2)) (A.sqNorm r)) 5 [] s2 = (t3.world, .ok res.1) from
    lmTrialsV_world (t := ⟨s2, _⟩) (n := res.2) h3] at hpost
  obtain ⟨ms, o, hc, ht, hv3, ho⟩ := lmTrialsV_said hgood 5 [] s2 _ t3 (by
      unfold GoodVars at *
      rw [e2, e3, hk.varsVec]; exact hgs) (by rw [e2, e3]; exact hl.kept hk (SameShape.refl _)) (by rw [e4]; exact hv) res
      (by rw [e1]; exact h3)
  rw [e1, e2, e3, e4, e5, hk.varsVec, hk.facs] at ht
  have hg3 : t3.world.graph = (computeSparse s.heap s.graph).1 := hpost.inTrial.graph.trans e3
  obtain ⟨w3, a3⟩ := t3
  dsimp only at hv3 hg3 ht ho
  have hc' : Continued acts (⟨w3, a3⟩ : Talk F V Fact) ms := by
    refine Continued.press (w := .residual) (p := .start) (Continued.press (w := .residual) (p := .stop)
      (Continued.press (w := .jacobian) (p := .start) (Continued.press (w := .jacobian) (p := .stop) ?_)))
    simpa using hc
  have fin : ∀ (s4 : OptWorld F V Fact) a4 ms' b, s4.graph = w3.graph → s4.heap = w3.heap →
      s4.opt.stats.damping = w3.opt.stats.damping → s4.opt.settings.verbose = true → Continued a3 (⟨s4, a4⟩ : Talk F V Fact) ms' →
      SE.bind look (fun s' => say (.lmSummary (stepSummary A J s'.opt.stats s'.opt.residual1) s'.opt.stats.damping
        (res.2 + 1) b)) (⟨s4, a4⟩ : Talk F V Fact) = (t', .ok ()) →
      t'.world.graph = w3.graph ∧ t'.world.heap = w3.heap ∧ t'.world.opt.stats.damping = w3.opt.stats.damping ∧
        ∃ q, Continued acts t' (ms ++ ms' ++ [.lmSummary q w3.opt.stats.damping (res.2 + 1) b]) := by
    intro s4 a4 ms' b hg hh hd hv hc4 h
    rw [bind_look, say_verbose _ _ _ hv] at h
    have e : t' = ⟨s4, a4 ++ [.print _]⟩ := (congrArg Prod.fst h).symm
    refine ⟨by rw [e]; exact hg, by rw [e]; exact hh, by rw [e]; exact hd, stepSummary A J s4.opt.stats s4.opt.residual1, ?_⟩
    · refine Continued.trans (t := ⟨s4, a4⟩) (hc'.trans hc4) ?_
      rw [e, hd]
      exact ⟨_, rfl, rfl⟩
  cases o with
  | some h' =>
    obtain ⟨hb, hh⟩ := ho
    rw [hb] at h
    simp only [if_true] at h
    obtain ⟨s4, _, h4, h⟩ := bind_silently_ok h
    simp only [SE.bind_get, recordStats, modStats, SE.modify, Prod.mk.injEq, and_true] at h4
    obtain ⟨f1, f2, f3, q, f4⟩ := fin s4 a3 [] true (by rw [← h4]) (by rw [← h4]) (by rw [← h4]) (by rw [← h4]; exact hv3)
      (.nil ⟨s4, a3⟩) h
    refine ⟨r, J, ms, some h', q, res.2 + 1, ⟨_, hres⟩, ?_, ?_, ?_, ?_⟩
    · rw [f1, hg3]; exact hsp
    · rw [f3]; exact ht
    · rw [f3]; exact f4
    · rw [f2]; exact hh
  | none =>
    obtain ⟨hb, hh⟩ := ho
    rw [hb] at h
    simp only [Bool.false_eq_true, if_false] at h
    obtain ⟨⟨s7, a7⟩, _, h7, h⟩ := SE.bind_ok_iff.1 h
    obtain ⟨s4, _, h4, h7⟩ := bind_silently_ok h7
    have e4 : s4.graph = w3.graph ∧ s4.heap = w3.heap ∧ s4.opt.stats.damping = w3.opt.stats.damping ∧
        s4.opt.settings = w3.opt.settings := by
      simp only [lmRejected, modStats, SE.bind_get] at h4
      split at h4 <;> (simp only [SE.modify, Prod.mk.injEq, and_true] at h4; rw [← h4]; exact ⟨rfl, rfl, rfl, rfl⟩)
    rw [bind_say _ _ _ _ (by rw [e4.2.2.2]; exact hv3)] at h7
    simp only [modOpt, bind_silent_modify] at h7
    simp only [silently, SE.bind_get, recordStats, modStats, SE.modify, Prod.mk.injEq, and_true] at h7
    have e7 : s7 = _ := (congrArg Talk.world h7).symm
    have e7' : a7 = a3 ++ [.print (.lmNoStep 5)] := (congrArg Talk.acts h7).symm
    obtain ⟨f1, f2, f3, q, f4⟩ := fin s7 a7 [.lmNoStep 5] false (by rw [e7]; exact e4.1) (by rw [e7]; exact e4.2.1)
      (by rw [e7]; exact e4.2.2.1) (by rw [e7]; exact (congrArg Settings.verbose e4.2.2.2).trans hv3)
      (by rw [e7']; exact ⟨_, rfl, rfl⟩) h
    refine ⟨r, J, ms, none, q, res.2 + 1, ⟨_, hres⟩, ?_, ?_, ?_, ?_⟩
    · rw [f1, hg3]; exact hsp
    · rw [f3]; exact ht
    · rw [f3]; exact f4
    · rw [f2]; exact hh.trans e2

/-- The messages of a step of Gauss-Newton. -/
theorem gaussNewtonStepV_said {A : Arith F} {L : LinAlg F Fact} {env : Env F V} {s : OptWorld F V Fact}
    {acts : List (Act F)} {t' : Talk F V Fact} (hv : s.opt.settings.verbose = true)
    (h : gaussNewtonStepV A L env ⟨s, acts⟩ = (t', .ok ())) :
    ∃ r J, (∃ buf, computeResidualInto env s.graph s.heap buf = (r, .ok ())) ∧
      computeSparse s.heap s.graph = (t'.world.graph, .ok J) ∧
      ((∃ m, RefusalSaid A L (L.gram J) (L.rhs J r) t'.world.opt.stats.status m ∧ Continued acts t' [m]) ∨
        ((∃ d, SystemSolved A L (L.gram J) (L.rhs J r) d) ∧ ∃ q, Continued acts t' [.gaussNewtonSummary q])) := by
  unfold gaussNewtonStepV at h
  rw [bind_look] at h
  split at h
  · simp [SE.throw] at h
  simp only [startWatch, stopWatch, bind_act] at h
  obtain ⟨s1, _, h1, h⟩ := bind_silently_ok h
  simp only [bind_act] at h
  obtain ⟨s2, J, h2, h⟩ := bind_silently_ok h
  simp only [bind_act, bind_look, modOpt] at h
  rw [evalResidual1_eq] at h1
  rcases hres : computeResidualInto env s.graph s.heap s.opt.residual1 with ⟨r, res⟩
  rw [hres] at h1
  simp only [Prod.mk.injEq] at h1
  obtain ⟨rfl, rfl⟩ := h1
  simp only [evalSparse, Prod.mk.injEq] at h2
  obtain ⟨h2, hJ⟩ := h2
  subst h2
  have hsp : computeSparse s.heap s.graph = ((computeSparse s.heap s.graph).1, .ok J) := Prod.ext rfl hJ
  dsimp only at h
  have hpress : ∀ (t' : Talk F V Fact) l ms, (∃ ps : List (Watch × Stopwatch.Press), l = ps.map fun p => .press p.1 p.2) →
      t'.acts = acts ++ (l ++ ms.map .print) → Continued acts t' ms := by
    rintro t' l ms ⟨ps, rfl⟩ e
    refine ⟨_, e, ?_⟩
    rw [messages_append]
    have : ∀ ps : List (Watch × Stopwatch.Press), messages (ps.map fun p => (.press p.1 p.2 : Act F)) = [] := by
      intro ps
      induction ps with
      | nil => rfl
      | cons p ps ih => exact ih
    rw [this, List.nil_append]
    clear e
    induction ms with
    | nil => rfl
    | cons m ms ih => simp [messages, ih]
  refine ⟨r, J, ⟨_, hres⟩, ?_⟩
  cases hf : L.factorize (L.gram J) with
  | none =>
    rw [hf] at h
    simp only [bind_silent_modify, giveUp, modStats] at h
    rw [say_verbose _ _ _ (by exact hv)] at h
    have e : t' = _ := (congrArg Prod.fst h).symm
    rw [e]
    refine ⟨hsp, .inl ⟨_, .noFactorisation hf, hpress _ _ _ ⟨[(.residual, .start), (.residual, .stop), (.jacobian, .start),
      (.jacobian, .stop), (.hessian, .start), (.hessian, .stop), (.solve, .start)], rfl⟩ ?_⟩⟩
    simp
  | some f =>
    rw [hf] at h
    simp only [bind_silent_modify, bind_act] at h
    split at h
    · simp [SE.undefined] at h
    split at h
    · rename_i hb
      simp only [bind_silent_modify, giveUp, modStats] at h
      rw [say_verbose _ _ _ (by exact hv)] at h
      have e : t' = _ := (congrArg Prod.fst h).symm
      rw [e]
      refine ⟨hsp, .inl ⟨_, .singular hf (by simp [PivotsLarge, hb]), hpress _ _ _ ⟨[(.residual, .start), (.residual, .stop),
        (.jacobian, .start), (.jacobian, .stop), (.hessian, .start), (.hessian, .stop), (.solve, .start), (.solve, .stop)],
        rfl⟩ ?_⟩⟩
      simp
    rename_i h1
    split at h
    · rename_i hb
      simp only [bind_silent_modify, giveUp, modStats] at h
      rw [say_verbose _ _ _ (by exact hv)] at h
      have e : t' = _ := (congrArg Prod.fst h).symm
      rw [e]
      refine ⟨hsp, .inl ⟨_, .unbalanced hf (by simpa [PivotsLarge] using h1) (by simp [PivotsBalanced, hb]),
        hpress _ _ _ ⟨[(.residual, .start), (.residual, .stop),
        (.jacobian, .start), (.jacobian, .stop), (.hessian, .start), (.hessian, .stop), (.solve, .start), (.solve, .stop)],
        rfl⟩ ?_⟩⟩
      simp
    rename_i h2
    cases hsol : L.solve f (L.rhs J r) with
    | none =>
      rw [hsol] at h
      simp only [bind_silent_modify, giveUp, modStats] at h
      rw [say_verbose _ _ _ (by exact hv)] at h
      have e : t' = _ := (congrArg Prod.fst h).symm
      rw [e]
      refine ⟨hsp, .inl ⟨_, .noSolution hf (by simpa [PivotsLarge] using h1) (by simpa [PivotsBalanced] using h2) hsol,
        hpress _ _ _ ⟨[(.residual, .start), (.residual, .stop),
        (.jacobian, .start), (.jacobian, .stop), (.hessian, .start), (.hessian, .stop), (.solve, .start), (.solve, .stop)],
        rfl⟩ ?_⟩⟩
      simp
    | some d =>
      rw [hsol] at h
      dsimp only at h
      simp only [bind_act] at h
      obtain ⟨s3, _, h3, h⟩ := bind_silently_ok h
      simp only [bind_act] at h
      obtain ⟨s4, _, h4, h⟩ := bind_silently_ok h
      obtain ⟨s5, _, h5, h⟩ := bind_silently_ok h
      rw [bind_look] at h
      simp only [stepVariables, onHeap, Prod.mk.injEq] at h3
      obtain ⟨h3, -⟩ := h3
      rw [evalResidual2_eq] at h4
      simp only [Prod.mk.injEq] at h4
      obtain ⟨h4, -⟩ := h4
      simp only [SE.bind_get, recordStats, modStats, SE.modify, Prod.mk.injEq, and_true] at h5
      have hv5 : s5.opt.settings.verbose = true := by rw [← h5, ← h4, ← h3]; exact hv
      have hg5 : s5.graph = (computeSparse s.heap s.graph).1 := by rw [← h5, ← h4, ← h3]
      rw [say_verbose _ _ _ hv5] at h
      have e : t' = _ := (congrArg Prod.fst h).symm
      have eg : t'.world.graph = s5.graph := by rw [e]
      refine ⟨by rw [eg, hg5]; exact hsp, .inr ⟨⟨d, f, hf, by simpa [PivotsLarge] using h1,
        by simpa [PivotsBalanced] using h2, hsol⟩, stepSummary A J s5.opt.stats s5.opt.residual2,
        hpress _ _ _ ⟨[(.residual, .start), (.residual, .stop),
        (.jacobian, .start), (.jacobian, .stop), (.hessian, .start), (.hessian, .stop), (.solve, .start), (.solve, .stop),
        (.updateVars, .start), (.updateVars, .stop)], rfl⟩ ?_⟩⟩
      rw [e]
      simp

end Factorama.Opt
