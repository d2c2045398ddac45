import Verif.Lemmas.Told
import Verif.Lemmas.OptSystem
import Verif.Lemmas.Flags

/-!
# The whole run: its reports, its last message, its silence
-/

set_option linter.unusedSectionVars false

namespace Factorama.Opt
open Spec Graph
variable {F V Fact : Type} [Zero F] [VarLike F V]

/-! ### Reports -/

theorem optimizeV_reports (A : Arith F) (L : LinAlg F Fact) (env : Env F V) (t : Talk F V Fact)
    {r : List F} (hr : (computeResidual env t.world.heap t.world.graph).2 = .ok r) :
    ReportsAt (ReportsOf A L env (loopStart A env t.world r)) (optimizeV A L env) t := by
  have hlook : ∀ {β : Type} {P : Message F → Prop} {k : OptWorld F V Fact → SE (Talk F V Fact) β} {t : Talk F V Fact},
      ReportsAt P (k t.world) t → ReportsAt P (SE.bind look k) t := by
    intro β P k t h
    refine .bind ((Quiet.silently _).reports _) fun t' a e => ?_
    have e1 : t' = t := (congrArg Prod.fst e).symm
    have e2 : Res.ok t.world = .ok a := congrArg Prod.snd e
    rw [e1, ← Res.ok.inj e2]
    exact h
  have hpress : ∀ {β : Type} {P : Message F → Prop} {k : Unit → SE (Talk F V Fact) β} {t : Talk F V Fact} {w : Watch}
      {p : Stopwatch.Press}, (∀ acts, ReportsAt P (k ()) ⟨t.world, acts⟩) → ReportsAt P (SE.bind (act (.press w p)) k) t := by
    intro β P k t w p h
    refine .bind ((Quiet.press w p).reports _) fun t' a e => ?_
    have e1 : t' = ⟨t.world, t.acts ++ [.press w p]⟩ := (congrArg Prod.fst e).symm
    rw [e1]
    exact h _
  have hsil : ∀ {α β : Type} {P : Message F → Prop} {m : SE (OptWorld F V Fact) α} {k : α → SE (Talk F V Fact) β}
      {t : Talk F V Fact}, (∀ s' a, m t.world = (s', .ok a) → ReportsAt P (k a) ⟨s', t.acts⟩) →
      ReportsAt P (SE.bind (silently m) k) t := by
    intro α β P m k t h
    refine .bind ((Quiet.silently _).reports _) fun t' a e => ?_
    have e1 : t' = ⟨(m t.world).1, t.acts⟩ := (congrArg Prod.fst e).symm
    have e2 : (m t.world).2 = .ok a := congrArg Prod.snd e
    rw [e1]
    exact h _ a (by rw [← e2])
  refine hlook ?_
  split
  · exact Quiet.throw.reports _
  refine hsil fun s1 _ e1 => hpress fun _ => hpress fun _ => hpress fun _ => hpress fun _ => hpress fun _ =>
    hsil fun s2 r' e2 => hsil fun s3 _ e3 => hsil fun s4 _ e4 => hlook ?_
  have hs1 : s1 = _ := (congrArg Prod.fst e1).symm
  subst hs1
  have hs2 : s2 = _ := (congrArg Prod.fst e2).symm
  have hr2 : (computeResidual env t.world.heap t.world.graph).2 = .ok r' := congrArg Prod.snd e2
  rw [hr] at hr2
  cases hr2
  subst hs2
  have hs3 : s3 = _ := (congrArg Prod.fst e3).symm
  subst hs3
  have hs4 : s4 = _ := (congrArg Prod.fst e4).symm
  have h4 : s4 = loopStart A env t.world r := hs4
  clear hs4 e1 e2 e3 e4
  subst h4
  refine .bind ((Quiet.say id).reports _) fun t5 _ e5 => ?_
  have h5 : t5.world = loopStart A env t.world r := by
    obtain ⟨t6, e6, h6⟩ := say_ok (.starting _ _ _ _ _ _ _) (⟨loopStart A env t.world r, _⟩ : Talk F V Fact)
    exact (congrArg (fun p => p.1.world) (e5.symm.trans e6)).trans h6
  refine .bind (iterateV_reports A L env _ _ 0 t5 0 (h5 ▸ .zero _)) fun t6 _ _ => Quiet.reports ?_ _
  exact .bind (.silently _) fun _ => .bind (.silently _) fun _ => .bind (.say id) fun _ => .silently _

/-! ### The end of a run -/

/-- The last message of a run that returns. -/
theorem optimizeV_last {A : Arith F} {L : LinAlg F Fact} {env : Env F V} {t t' : Talk F V Fact}
    (h : optimizeV A L env t = (t', .ok ())) (hv : t'.world.opt.settings.verbose = true) :
    ∃ l, t'.acts = l ++ [.print (.summary (runSummary A t'.world.opt))] := by
  unfold optimizeV at h
  obtain ⟨t1, s0, h1, h⟩ := SE.bind_ok_iff.1 h
  split at h
  · simp [SE.throw] at h
  obtain ⟨_, _, _, h⟩ := SE.bind_ok_iff.1 h
  obtain ⟨_, _, _, h⟩ := SE.bind_ok_iff.1 h
  obtain ⟨_, _, _, h⟩ := SE.bind_ok_iff.1 h
  obtain ⟨_, _, _, h⟩ := SE.bind_ok_iff.1 h
  obtain ⟨_, _, _, h⟩ := SE.bind_ok_iff.1 h
  obtain ⟨_, _, _, h⟩ := SE.bind_ok_iff.1 h
  obtain ⟨_, _, _, h⟩ := SE.bind_ok_iff.1 h
  obtain ⟨_, _, _, h⟩ := SE.bind_ok_iff.1 h
  obtain ⟨_, _, _, h⟩ := SE.bind_ok_iff.1 h
  obtain ⟨_, _, _, h⟩ := SE.bind_ok_iff.1 h
  obtain ⟨_, _, _, h⟩ := SE.bind_ok_iff.1 h
  obtain ⟨_, _, _, h⟩ := SE.bind_ok_iff.1 h
  obtain ⟨t2, _, _, h⟩ := SE.bind_ok_iff.1 h
  obtain ⟨t3, s3, h3, h⟩ := SE.bind_ok_iff.1 h
  have e3 : t3 = t2 := (congrArg Prod.fst h3).symm
  have e3' : s3 = t2.world := (Res.ok.inj (congrArg Prod.snd h3)).symm
  subst e3 e3'
  obtain ⟨t4, _, h4, h⟩ := SE.bind_ok_iff.1 h
  have e5 : t' = ⟨{ t4.world with opt := { t4.world.opt with complete := true } }, t4.acts⟩ := (congrArg Prod.fst h).symm
  obtain ⟨t6, e6, h6⟩ := say_ok (.summary (runSummary A t3.world.opt)) t3
  have e7 : t4 = t6 := congrArg Prod.fst (h4.symm.trans e6)
  subst e7
  have hv3 : t3.world.opt.settings.verbose = true := by
    rw [e5] at hv
    rw [← h6]
    exact hv
  rw [Opt.say, if_pos hv3] at e6
  have e8 : t4 = ⟨t3.world, t3.acts ++ [.print (.summary (runSummary A t3.world.opt))]⟩ := (congrArg Prod.fst e6).symm
  subst e8
  subst e5
  exact ⟨_, rfl⟩

/-! ### What a computation adds to the actions -/

/-- `ok` holds for everything that can be added in states with `I`: stopwatch calls, the message about errors, and any
message when the run is verbose. -/
structure Allows (I : OptWorld F V Fact → Prop) (ok : Act F → Prop) : Prop where
  keeps : ∀ {α : Type} (m : SE (OptWorld F V Fact) α), FlagBlind m → ∀ s, I s → I (m s).1
  says : ∀ s, I s → s.opt.settings.verbose = true → ∀ m, ok (.print m)
  press : ∀ w p, ok (.press w p)
  error : ∀ i, ok (.print (.errorInIteration i))

theorem allows_everything : Allows (fun _ : OptWorld F V Fact => True) fun _ => True :=
  ⟨fun _ _ _ _ => trivial, fun _ _ _ _ => trivial, fun _ _ => trivial, fun _ => trivial⟩

theorem FlagBlind.verbose {α : Type} {m : SE (OptWorld F V Fact) α} (h : FlagBlind m) (s : OptWorld F V Fact) :
    (m s).1.opt.settings.verbose = s.opt.settings.verbose := by
  have h1 := h s.opt.settings.verbose s.opt.settings.checkRankDeficiency s
  have h2 := congrArg (fun p => p.1.opt.settings.verbose) h1
  exact h2

theorem allows_silence : Allows (fun s : OptWorld F V Fact => s.opt.settings.verbose = false)
    fun a => ∀ m, a = .print m → ∃ i, m = .errorInIteration i :=
  ⟨fun _ h s hs => (h.verbose s).trans hs, fun s h1 h2 => by rw [h1] at h2; simp at h2, fun _ _ _ e => by simp at e,
    fun i m e => by cases e; exact ⟨i, rfl⟩⟩

/-- Keeps `I` and adds only actions with `ok`. -/
def Adds {α : Type} (I : OptWorld F V Fact → Prop) (ok : Act F → Prop) (m : SE (Talk F V Fact) α) : Prop :=
  ∀ t, I t.world → I (m t).1.world ∧ ∃ l, (m t).1.acts = t.acts ++ l ∧ ∀ a ∈ l, ok a

section
variable {α β : Type} {I : OptWorld F V Fact → Prop} {ok : Act F → Prop}

theorem Adds.bind {m : SE (Talk F V Fact) α} {k : α → SE (Talk F V Fact) β} (hm : Adds I ok m) (hk : ∀ a, Adds I ok (k a)) :
    Adds I ok (SE.bind m k) := by
  intro t ht
  obtain ⟨h0, l, h1, h2⟩ := hm t ht
  rcases e : m t with ⟨t1, r⟩
  rw [e] at h0 h1
  cases r with
  | ok a =>
    rw [SE.bind_ok e]
    obtain ⟨h5, l', h3, h4⟩ := hk a t1 h0
    exact ⟨h5, l ++ l', by rw [h3, h1, List.append_assoc], fun x hx => (List.mem_append.1 hx).elim (h2 x) (h4 x)⟩
  | threw => rw [SE.bind_threw e]; exact ⟨h0, l, h1, h2⟩
  | ub => rw [SE.bind_ub e]; exact ⟨h0, l, h1, h2⟩

theorem Adds.silently (hA : Allows I ok) {m : SE (OptWorld F V Fact) α} (h : FlagBlind m) : Adds I ok (silently m) :=
  fun t ht => ⟨hA.keeps m h t.world ht, [], by simp [Opt.silently], by simp⟩

theorem Adds.look {k : OptWorld F V Fact → SE (Talk F V Fact) β} (hk : ∀ s, Adds I ok (k s)) :
    Adds I ok (SE.bind look k) := fun t ht => hk t.world t ht

theorem Adds.ret (a : α) : Adds I ok (SE.ret a : SE (Talk F V Fact) α) := fun t ht => ⟨ht, [], by simp [SE.ret], by simp⟩
theorem Adds.throw : Adds I ok (SE.throw : SE (Talk F V Fact) α) := fun t ht => ⟨ht, [], by simp [SE.throw], by simp⟩
theorem Adds.undefined : Adds I ok (SE.undefined : SE (Talk F V Fact) α) :=
  fun t ht => ⟨ht, [], by simp [SE.undefined], by simp⟩

theorem Adds.act {a : Act F} (h : ok a) : Adds I ok (act a : SE (Talk F V Fact) Unit) :=
  fun t ht => ⟨ht, [a], rfl, by simpa using h⟩

theorem Adds.press (hA : Allows I ok) (w : Watch) (p : Stopwatch.Press) :
    Adds I ok (Opt.act (.press w p) : SE (Talk F V Fact) Unit) := .act (hA.press w p)

theorem Adds.say (hA : Allows I ok) (m : Message F) : Adds I ok (say m : SE (Talk F V Fact) Unit) := by
  intro t ht
  simp only [Opt.say]
  split
  · exact Adds.act (hA.says _ ht (by assumption) m) t ht
  · exact ⟨ht, [], by simp, by simp⟩

theorem Adds.gaussNewtonStep (hA : Allows I ok) (A : Arith F) (L : LinAlg F Fact) (env : Env F V) :
    Adds I ok (gaussNewtonStepV A L env : SE (Talk F V Fact) Unit) := by
  refine .look fun s0 => ?_
  split
  · exact .throw
  refine .bind (.press hA _ _) fun _ => .bind (.silently hA (.evalResidual1 env)) fun _ => .bind (.press hA _ _) fun _ =>
    .bind (.press hA _ _) fun _ => .bind (.silently hA .evalSparse) fun J => .bind (.press hA _ _) fun _ =>
    .look fun s => .bind (.press hA _ _) fun _ => .bind (.press hA _ _) fun _ => .bind (.press hA _ _) fun _ => ?_
  dsimp only
  split
  · exact .bind (.silently hA (.setSolver _)) fun _ => .bind (.silently hA (.modStats _)) fun _ => .say hA _
  · refine .bind (.silently hA (.setSolver _)) fun _ => .bind (.press hA _ _) fun _ => ?_
    split
    · exact .undefined
    split
    · exact .bind (.silently hA (.modStats _)) fun _ => .say hA _
    split
    · exact .bind (.silently hA (.modStats _)) fun _ => .say hA _
    split
    · exact .bind (.silently hA (.modStats _)) fun _ => .say hA _
    · exact .bind (.press hA _ _) fun _ => .bind (.silently hA (.onHeap _)) fun _ => .bind (.press hA _ _) fun _ =>
        .bind (.silently hA (.evalResidual2 env)) fun _ =>
        .bind (.silently hA (.get (fun _ _ _ => rfl) fun _ => .modStats _)) fun _ => .look fun _ => .say hA _

theorem Adds.lmTrials (hA : Allows I ok) (A : Arith F) (L : LinAlg F Fact) (env : Env F V) (J : SpMat F) (cost : F) :
    ∀ (k : Nat) (dx : List F), Adds I ok (lmTrialsV A L env J cost k dx : SE (Talk F V Fact) _)
  | 0, dx => .ret _
  | k + 1, dx => by
    have ih := Adds.lmTrials hA A L env J cost k
    refine .look fun s => .bind (.press hA _ _) fun _ => .bind (.press hA _ _) fun _ => .bind (.press hA _ _) fun _ => ?_
    dsimp only
    split
    · exact .bind (.silently hA (.setSolver _)) fun _ => .bind (.silently hA (.raiseLambda A)) fun _ => .look fun _ =>
        .bind (.say hA _) fun _ => ih dx
    · refine .bind (.silently hA (.setSolver _)) fun _ => ?_
      split
      · exact .undefined
      split
      · exact .bind (.silently hA (.raiseLambda A)) fun _ => .look fun _ => .bind (.say hA _) fun _ => ih dx
      split
      · exact .bind (.silently hA (.raiseLambda A)) fun _ => .look fun _ => .bind (.say hA _) fun _ => ih _
      · refine .bind (.press hA _ _) fun _ => .bind (.press hA _ _) fun _ => .bind (.silently hA (.onHeap _)) fun _ =>
          .bind (.press hA _ _) fun _ => .bind (.press hA _ _) fun _ => .bind (.silently hA (.evalResidual2 env)) fun _ =>
          .bind (.press hA _ _) fun _ => .look fun s' => ?_
        split
        · exact .bind (.silently hA (.modStats _)) fun _ => .look fun _ => .bind (.say hA _) fun _ => .ret _
        · refine .bind (.press hA _ _) fun _ => .bind (.silently hA (.onHeap _)) fun _ =>
            .bind (.silently hA (.modStats _)) fun _ => .look fun s'' => .bind (.say hA _) fun _ => ?_
          split
          · exact .bind (.say hA _) fun _ => .ret _
          · exact .bind (.press hA _ _) fun _ => ih _

theorem Adds.levenbergMarquardtStep (hA : Allows I ok) (A : Arith F) (L : LinAlg F Fact) (env : Env F V) :
    Adds I ok (levenbergMarquardtStepV A L env : SE (Talk F V Fact) Unit) := by
  refine .look fun s0 => ?_
  split
  · exact .throw
  refine .bind (.press hA _ _) fun _ => .bind (.silently hA (.evalResidual1 env)) fun _ => .bind (.press hA _ _) fun _ =>
    .bind (.press hA _ _) fun _ => .bind (.silently hA .evalSparse) fun J => .bind (.press hA _ _) fun _ =>
    .look fun s => .bind (.silently hA (.modStats _)) fun _ => .bind (.lmTrials hA A L env J _ 5 []) fun res =>
    .bind ?_ fun _ => .look fun _ => .say hA _
  split
  · exact .silently hA (.get (fun _ _ _ => rfl) fun _ => .modStats _)
  · refine .bind (.silently hA ?_) fun _ => .bind (.say hA _) fun _ => .bind (.silently hA fun _ _ _ => rfl) fun _ =>
      .silently hA (.get (fun _ _ _ => rfl) fun _ => .modStats _)
    refine .get (fun _ _ _ => rfl) fun s => ?_
    split
    · exact .modStats _
    · exact .modStats _

theorem Adds.oneStep (hA : Allows I ok) (A : Arith F) (L : LinAlg F Fact) (env : Env F V) :
    Adds I ok (oneStepV A L env : SE (Talk F V Fact) Unit) := by
  refine .look fun s => ?_
  split
  · exact .gaussNewtonStep hA A L env
  · exact .levenbergMarquardtStep hA A L env

theorem Adds.sayIfAny (hA : Allows I ok) (m : Option (Message F)) : Adds I ok (sayIfAny m : SE (Talk F V Fact) Unit) := by
  cases m with
  | none => exact .ret _
  | some m => exact .say hA m

theorem Adds.iterate (hA : Allows I ok) (A : Arith F) (L : LinAlg F Fact) (env : Env F V) :
    ∀ n i, Adds I ok (iterateV A L env n i : SE (Talk F V Fact) Unit)
  | 0, _ => .ret _
  | n + 1, i => by
    have ih := Adds.iterate hA A L env n
    refine .look fun s => .bind ?_ fun _ => ?_
    · unfold sayHeader
      split
      · exact .say hA _
      · exact .ret _
    intro t ht
    have h := Adds.oneStep hA A L env t ht
    rcases e : oneStepV A L env t with ⟨t', r⟩
    rw [e] at h
    obtain ⟨h0, l, h1, h2⟩ := h
    have hgo : ∀ (m : SE (Talk F V Fact) Unit), Adds I ok m →
        I (m t').1.world ∧ ∃ l, (m t').1.acts = t.acts ++ l ∧ ∀ a ∈ l, ok a := by
      intro m hm
      obtain ⟨h5, l', h3, h4⟩ := hm t' h0
      exact ⟨h5, l ++ l', by rw [h3, h1, List.append_assoc], fun x hx => (List.mem_append.1 hx).elim (h2 x) (h4 x)⟩
    dsimp only
    rw [e]
    cases r with
    | ub => exact ⟨h0, l, h1, h2⟩
    | threw => exact hgo _ (.bind (.act (hA.error i)) fun _ => .silently hA (.modStats _))
    | ok u =>
      refine hgo _ (.bind (.sayIfAny hA _) fun _ => .bind (.silently hA (.modStats _)) fun _ => ?_)
      split
      · exact .ret _
      · exact ih _

/-- The resets at the start of `optimize()`. -/
def resets : List (Act F) :=
  [.press .residual .reset, .press .residual .reset, .press .hessian .reset, .press .solve .reset, .press .updateVars .reset]

theorem optimizeV_adds (hA : Allows I ok) (A : Arith F) (L : LinAlg F Fact) (env : Env F V) (t : Talk F V Fact)
    (ht : I t.world) (hg : t.world.opt.hasGraph = true) :
    ∃ l, (optimizeV A L env t).1.acts = t.acts ++ (resets ++ l) ∧ ∀ a ∈ l, ok a := by
  have key : ∀ n (s0 : OptWorld F V Fact), Adds I ok (SE.bind (silently (evalInitial env)) fun r =>
    SE.bind (silently (modStats fun st => { st with residualNorm := A.norm r, chi2 := A.sqNorm r })) fun _ =>
    SE.bind (silently (modOpt fun o => { o with initialStats := o.stats })) fun _ =>
    SE.bind look fun s1 =>
    SE.bind (say (.starting s1.opt.settings.method s1.opt.settings.maxIterations s1.opt.initialStats.residualNorm
      s1.opt.initialStats.chi2 s1.opt.settings.stepTolerance s1.opt.settings.residualTolerance
      s1.opt.settings.learningRate)) fun _ =>
    SE.bind (iterateV A L env n 0) fun _ =>
    SE.bind (silently (modStats fun st => if st.status = .running then { st with status := .success } else st)) fun _ =>
    SE.bind look fun s2 =>
    SE.bind (say (.summary (runSummary A s2.opt))) fun _ =>
    silently (modOpt fun o => { o with complete := true }) : SE (Talk F V Fact) Unit) := fun n s0 =>
    .bind (.silently hA (.evalInitial env)) fun _ => .bind (.silently hA (.modStats _)) fun _ =>
      .bind (.silently hA fun _ _ _ => rfl) fun _ => .look fun _ => .bind (.say hA _) fun _ =>
      .bind (.iterate hA A L env _ _) fun _ => .bind (.silently hA (.modStats _)) fun _ => .look fun _ =>
      .bind (.say hA _) fun _ => .silently hA fun _ _ _ => rfl
  obtain ⟨-, l, h1, h2⟩ := key t.world.opt.settings.maxIterations t.world
    ⟨(modStats (fun _ => { Stats.default A with valid := true }) t.world).1, t.acts ++ resets⟩
    (hA.keeps (modStats fun _ => { Stats.default A with valid := true }) (.modStats _) t.world ht)
  refine ⟨l, ?_, h2⟩
  rw [← List.append_assoc, ← h1]
  have hb : optimizeV A L env t = (if !t.world.opt.hasGraph then SE.throw else _ : SE (Talk F V Fact) Unit) t := rfl
  rw [hb, if_neg (by simp [hg])]
  simp only [SE.bind, Opt.silently, resetWatch, Opt.act, SE.modify, modStats, resets, List.append_assoc, List.cons_append,
    List.nil_append]

theorem optimizeV_refused (A : Arith F) (L : LinAlg F Fact) (env : Env F V) (t : Talk F V Fact)
    (hg : t.world.opt.hasGraph = false) : optimizeV A L env t = (t, .threw) := by
  have hb : optimizeV A L env t = (if !t.world.opt.hasGraph then SE.throw else _ : SE (Talk F V Fact) Unit) t := rfl
  rw [hb, if_pos (by simp [hg])]
  rfl
end

end Factorama.Opt
