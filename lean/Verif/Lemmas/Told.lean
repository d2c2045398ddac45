import Verif.Lemmas.Verbose
import Verif.Spec.Report

/-!
# What the steps of the optimizer print
-/

set_option linter.unusedSectionVars false

namespace Factorama.Opt
open Spec Graph
variable {F V Fact : Type} [Zero F] [VarLike F V]

/-- Not a report about a step. -/
def Minor (a : Act F) : Prop := ∀ m, a = .print m → ¬ Message.reportsStep m

/-- The computation adds only minor actions. -/
def Quiet {α : Type} (m : SE (Talk F V Fact) α) : Prop :=
  ∀ t, ∃ l, (m t).1.acts = t.acts ++ l ∧ ∀ a ∈ l, Minor a

/-- Started in `t` the computation adds minor actions, and possibly at the end one more message with property `P`. -/
def ToldAt {α : Type} (P : OptWorld F V Fact → Message F → Prop) (m : SE (Talk F V Fact) α) (t : Talk F V Fact) : Prop :=
  ∃ l tail, (m t).1.acts = t.acts ++ (l ++ tail) ∧ (∀ a ∈ l, Minor a) ∧
    (tail = [] ∨ ∃ msg a, tail = [.print msg] ∧ (m t).2 = .ok a ∧ P (m t).1.world msg)

section
variable {α β : Type}

theorem Quiet.bind {m : SE (Talk F V Fact) α} {k : α → SE (Talk F V Fact) β} (hm : Quiet m) (hk : ∀ a, Quiet (k a)) :
    Quiet (SE.bind m k) := by
  intro t
  obtain ⟨l, h1, h2⟩ := hm t
  rcases e : m t with ⟨t1, r⟩
  rw [e] at h1
  cases r with
  | ok a =>
    rw [SE.bind_ok e]
    obtain ⟨l', h3, h4⟩ := hk a t1
    exact ⟨l ++ l', by rw [h3, h1, List.append_assoc], fun x hx => (List.mem_append.1 hx).elim (h2 x) (h4 x)⟩
  | threw => rw [SE.bind_threw e]; exact ⟨l, h1, h2⟩
  | ub => rw [SE.bind_ub e]; exact ⟨l, h1, h2⟩

theorem Quiet.silently (m : SE (OptWorld F V Fact) α) : Quiet (silently m) := fun t => ⟨[], by simp [Opt.silently], by simp⟩
theorem Quiet.ret (a : α) : Quiet (SE.ret a : SE (Talk F V Fact) α) := fun t => ⟨[], by simp [SE.ret], by simp⟩
theorem Quiet.throw : Quiet (SE.throw : SE (Talk F V Fact) α) := fun t => ⟨[], by simp [SE.throw], by simp⟩
theorem Quiet.undefined : Quiet (SE.undefined : SE (Talk F V Fact) α) := fun t => ⟨[], by simp [SE.undefined], by simp⟩
theorem Quiet.press (w : Watch) (p : Stopwatch.Press) : Quiet (act (.press w p) : SE (Talk F V Fact) Unit) :=
  fun t => ⟨[.press w p], rfl, by simp [Minor]⟩

theorem Quiet.print {m : Message F} (h : ¬ Message.reportsStep m) : Quiet (act (.print m) : SE (Talk F V Fact) Unit) :=
  fun t => ⟨[.print m], rfl, by
    intro a ha m' e
    simp only [List.mem_singleton] at ha
    rw [ha] at e
    cases e
    exact h⟩

theorem Quiet.say {m : Message F} (h : ¬ Message.reportsStep m) : Quiet (say m : SE (Talk F V Fact) Unit) := by
  intro t
  simp only [Opt.say]
  split
  · exact Quiet.print h t
  · exact ⟨[], by simp, by simp⟩

theorem Quiet.told {P : OptWorld F V Fact → Message F → Prop} {m : SE (Talk F V Fact) α} (h : Quiet m) (t : Talk F V Fact) :
    ToldAt P m t := by
  obtain ⟨l, h1, h2⟩ := h t
  exact ⟨l, [], by simpa using h1, h2, .inl rfl⟩

theorem ToldAt.bind {P : OptWorld F V Fact → Message F → Prop} {m : SE (Talk F V Fact) α}
    {k : α → SE (Talk F V Fact) β} {t : Talk F V Fact} (hm : Quiet m)
    (hk : ∀ t' a, m t = (t', .ok a) → ToldAt P (k a) t') : ToldAt P (SE.bind m k) t := by
  obtain ⟨l, h1, h2⟩ := hm t
  rcases e : m t with ⟨t1, r⟩
  rw [e] at h1
  cases r with
  | ok a =>
    obtain ⟨l', tail, h3, h4, h5⟩ := hk t1 a e
    have hb := SE.bind_ok (f := k) e
    refine ⟨l ++ l', tail, ?_, fun x hx => (List.mem_append.1 hx).elim (h2 x) (h4 x), ?_⟩
    · rw [hb, h3, h1]; simp
    · rw [hb]; exact h5
  | threw =>
    have hb := SE.bind_threw (f := k) e
    exact ⟨l, [], by rw [hb]; simpa using h1, h2, .inl rfl⟩
  | ub =>
    have hb := SE.bind_ub (f := k) e
    exact ⟨l, [], by rw [hb]; simpa using h1, h2, .inl rfl⟩

theorem ToldAt.say {P : OptWorld F V Fact → Message F → Prop} {msg : Message F} {t : Talk F V Fact}
    (h : P t.world msg) : ToldAt P (say msg) t := by
  unfold ToldAt
  simp only [Opt.say]
  split
  · exact ⟨[], [.print msg], rfl, by simp, .inr ⟨msg, (), rfl, rfl, h⟩⟩
  · exact ⟨[], [], by simp, by simp, .inl rfl⟩
end

theorem Quiet.lmTrials (A : Arith F) (L : LinAlg F Fact) (env : Env F V) (J : SpMat F) (cost : F) :
    ∀ (k : Nat) (dx : List F), Quiet (lmTrialsV A L env J cost k dx : SE (Talk F V Fact) _)
  | 0, dx => .ret _
  | k + 1, dx => by
    have ih := Quiet.lmTrials A L env J cost k
    refine .bind (.silently _) fun s => .bind (.press _ _) fun _ => .bind (.press _ _) fun _ => .bind (.press _ _) fun _ => ?_
    dsimp only
    split
    · exact .bind (.silently _) fun _ => .bind (.silently _) fun _ => .bind (.silently _) fun _ => .bind (.say id) fun _ => ih dx
    · refine .bind (.silently _) fun _ => ?_
      split
      · exact .undefined
      split
      · exact .bind (.silently _) fun _ => .bind (.silently _) fun _ => .bind (.say id) fun _ => ih dx
      split
      · exact .bind (.silently _) fun _ => .bind (.silently _) fun _ => .bind (.say id) fun _ => ih _
      · refine .bind (.press _ _) fun _ => .bind (.press _ _) fun _ => .bind (.silently _) fun _ => .bind (.press _ _) fun _ =>
          .bind (.press _ _) fun _ => .bind (.silently _) fun _ => .bind (.press _ _) fun _ => .bind (.silently _) fun s' => ?_
        split
        · exact .bind (.silently _) fun _ => .bind (.silently _) fun _ => .bind (.say id) fun _ => .ret _
        · refine .bind (.press _ _) fun _ => .bind (.silently _) fun _ => .bind (.silently _) fun _ =>
            .bind (.silently _) fun s'' => .bind (.say id) fun _ => ?_
          split
          · exact .bind (.say id) fun _ => .ret _
          · exact .bind (.press _ _) fun _ => ih _

section
variable {α β : Type} {P : OptWorld F V Fact → Message F → Prop} {t : Talk F V Fact}

theorem ToldAt.press {w : Watch} {p : Stopwatch.Press} {k : Unit → SE (Talk F V Fact) β}
    (hk : ∀ acts, ToldAt P (k ()) ⟨t.world, acts⟩) : ToldAt P (SE.bind (act (.press w p)) k) t := by
  refine .bind (.press w p) fun t' a e => ?_
  have e1 : t' = ⟨t.world, t.acts ++ [.press w p]⟩ := (congrArg Prod.fst e).symm
  rw [e1]
  exact hk _

theorem ToldAt.look {k : OptWorld F V Fact → SE (Talk F V Fact) β} (hk : ToldAt P (k t.world) t) :
    ToldAt P (SE.bind Opt.look k) t := by
  refine .bind (.silently _) fun t' a e => ?_
  have e1 : t' = t := (congrArg Prod.fst e).symm
  have e2 : Res.ok t.world = .ok a := congrArg Prod.snd e
  rw [e1, ← Res.ok.inj e2]
  exact hk

theorem ToldAt.silently {m : SE (OptWorld F V Fact) α} {k : α → SE (Talk F V Fact) β}
    (hk : ∀ s' a, m t.world = (s', .ok a) → ToldAt P (k a) ⟨s', t.acts⟩) : ToldAt P (SE.bind (Opt.silently m) k) t := by
  refine .bind (.silently _) fun t' a e => ?_
  have e1 : t' = ⟨(m t.world).1, t.acts⟩ := (congrArg Prod.fst e).symm
  have e2 : (m t.world).2 = .ok a := congrArg Prod.snd e
  rw [e1]
  exact hk _ a (by rw [← e2])

theorem ToldAt.giveUp {st : Status} {msg : Message F} (h : ¬ Message.reportsStep msg) :
    ToldAt P (SE.bind (Opt.silently (giveUp st)) fun _ => Opt.say msg) t :=
  .silently fun _ _ _ => (Quiet.say h).told _
end

/-- What is known about the report of a Gauss-Newton step from `s` to `s'`. -/
def SaidGaussNewton (A : Arith F) (s s' : OptWorld F V Fact) (m : Message F) : Prop :=
  ∃ J, (computeSparse s.heap s.graph).2 = .ok J ∧
    m = .gaussNewtonSummary (stepSummary A J s'.opt.stats s'.opt.residual2) ∧
    s'.opt.stats.iteration = s.opt.stats.iteration + 1 ∧ s'.opt.stats.residualNorm = A.norm s'.opt.residual2

theorem gaussNewtonStepV_told (A : Arith F) (L : LinAlg F Fact) (env : Env F V) (t : Talk F V Fact) :
    ToldAt (SaidGaussNewton A t.world) (gaussNewtonStepV A L env) t := by
  refine .look ?_
  split
  · exact Quiet.throw.told _
  refine .press fun acts => .silently fun s1 u1 e1 => .press fun _ => .press fun _ => .silently fun s2 J e2 =>
    .press fun _ => .look <| .press fun _ => .press fun _ => .press fun _ => ?_
  have hJ : (computeSparse t.world.heap t.world.graph).2 = .ok J := by
    rw [evalResidual1_eq] at e1
    simp only [Prod.mk.injEq] at e1
    rw [← e1.1] at e2
    simp only [evalSparse, Prod.mk.injEq] at e2
    exact e2.2
  have hi2 : s2.opt.stats = t.world.opt.stats :=
    (congrArg (fun p => p.1.opt.stats) e2).symm.trans (congrArg (fun p => p.1.opt.stats) e1).symm
  clear e1 e2
  dsimp only
  generalize L.factorize (L.gram J) = o
  cases o with
  | none => exact .silently fun _ _ _ => .giveUp id
  | some f =>
    refine .silently fun s3 _ e3 => .press fun _ => ?_
    split
    · exact Quiet.undefined.told _
    split
    · exact .giveUp id
    split
    · exact .giveUp id
    generalize L.solve f _ = o
    cases o with
    | none => exact .giveUp id
    | some d =>
      refine .press fun _ => .silently fun s4 _ e4 => .press fun _ => .silently fun s5 _ e5 => .silently fun s6 _ e6 =>
        .look <| .say ⟨J, hJ, rfl, ?_⟩
      have h3 : s3.opt.stats = s2.opt.stats := (congrArg (fun p => p.1.opt.stats) e3).symm
      have h4 : s4.opt.stats = s3.opt.stats := (congrArg (fun p => p.1.opt.stats) e4).symm
      have h5 : s5.opt.stats = s4.opt.stats := (congrArg (fun p => p.1.opt.stats) e5).symm
      have h6 : s6 = _ := (congrArg Prod.fst e6).symm
      have h7 : t.world.opt.stats = s5.opt.stats := by rw [h5, h4, h3, hi2]
      rw [h6, h7]
      exact ⟨rfl, rfl⟩

/-- What is known about the report of a Levenberg-Marquardt step from `s` to `s'`. -/
def SaidLevenbergMarquardt (A : Arith F) (env : Env F V) (s s' : OptWorld F V Fact) (m : Message F) : Prop :=
  ∃ J n acc, (computeSparse s.heap s.graph).2 = .ok J ∧ Evaluated env s'.graph s.heap s'.opt.residual1 ∧
    m = .lmSummary (stepSummary A J s'.opt.stats s'.opt.residual1) s'.opt.stats.damping n acc ∧
    (acc = true → A.lt (A.mul (A.lit (1 / 2)) s'.opt.stats.chi2)
      (A.mul (A.lit (1 / 2)) (A.sqNorm s'.opt.residual1)) = true) ∧
    (acc = false → (∀ good, RestoresExactly good → GoodVars good s → s'.heap = s.heap) ∧
      ∃ k, s'.opt.stats.deltaNorm = A.norm (List.replicate k (A.lit 0)))

theorem Erases.apply {α : Type} {m' : SE (Talk F V Fact) α} {m : SE (OptWorld F V Fact) α} (h : Erases id m' m)
    {t t' : Talk F V Fact} {r : Res α} (e : m' t = (t', r)) : m t.world = (t'.world, r) := by
  rw [h t, e, mapRes_id]

theorem lmTrialsV_world {A : Arith F} {L : LinAlg F Fact} {env : Env F V} {J : SpMat F} {cost : F} {k n : Nat} {dx : List F}
    {t t' : Talk F V Fact} {p : Bool × List F} (e : lmTrialsV A L env J cost k dx t = (t', .ok (p, n))) :
    lmTrials A L env J cost k dx t.world = (t'.world, .ok p) := by
  rw [Erases.lmTrials A L env J cost k dx t, e]
  rfl

theorem levenbergMarquardtStepV_told (A : Arith F) (L : LinAlg F Fact) (env : Env F V) (t : Talk F V Fact) :
    ToldAt (SaidLevenbergMarquardt A env t.world) (levenbergMarquardtStepV A L env) t := by
  refine .look ?_
  split
  · exact Quiet.throw.told _
  refine .press fun acts => .silently fun s1 u1 e1 => .press fun _ => .press fun _ => .silently fun s2 J e2 =>
    .press fun _ => .look <| .silently fun s3 u3 e3 => .bind (Quiet.lmTrials A L env J _ 5 []) fun t4 res e4 => ?_
  have hJ : (computeSparse t.world.heap t.world.graph).2 = .ok J := by
    rw [evalResidual1_eq] at e1
    simp only [Prod.mk.injEq] at e1
    rw [← e1.1] at e2
    simp only [evalSparse, Prod.mk.injEq] at e2
    exact e2.2
  have hs2 : s2.heap = t.world.heap ∧ Kept t.world.graph s2.graph ∧ Evaluated env s2.graph s2.heap s2.opt.residual1 := by
    rw [evalResidual1_eq] at e1
    rcases hc : computeResidualInto env t.world.graph t.world.heap t.world.opt.residual1 with ⟨b, r⟩
    rw [hc] at e1
    simp only [Prod.mk.injEq] at e1
    obtain ⟨rfl, rfl⟩ := e1
    simp only [evalSparse, Prod.mk.injEq] at e2
    obtain ⟨rfl, -⟩ := e2
    have hk := computeSparse_kept t.world.heap t.world.graph
    exact ⟨rfl, hk, Evaluated.kept ⟨_, hc⟩ hk⟩
  have hs3 : s3.heap = s2.heap ∧ s3.graph = s2.graph ∧ s3.opt.residual1 = s2.opt.residual1 := by
    simp only [modStats, SE.modify, Prod.mk.injEq] at e3
    obtain ⟨rfl, -⟩ := e3
    exact ⟨rfl, rfl, rfl⟩
  obtain ⟨⟨acc, dx⟩, n⟩ := res
  have e5 := lmTrialsV_world e4
  have hp := lmTrials_post A L env J (A.mul (A.lit (1 / 2)) (A.sqNorm s2.opt.residual1)) 5 [] s3
  have e6 : lmTrials A L env J (A.mul (A.lit (1 / 2)) (A.sqNorm s2.opt.residual1)) 5 [] s3 = (t4.world, .ok (acc, dx)) := e5
  rw [e6] at hp
  clear e4 e5 e6 e1 e2 e3
  have hev : Evaluated env t4.world.graph t.world.heap t4.world.opt.residual1 := by
    rw [hp.inTrial.graph, hp.inTrial.residual1, hs3.2.1, hs3.2.2, ← hs2.1]
    exact hs2.2.2
  have hr : t4.world.opt.residual1 = s2.opt.residual1 := hp.inTrial.residual1.trans hs3.2.2
  have hgv : ∀ good, GoodVars good t.world → GoodVars good s3 := by
    intro good hgs
    unfold GoodVars at *
    rw [hs3.1, hs3.2.1, hs2.1, hs2.2.1.varsVec]
    exact hgs
  cases acc with
  | true =>
    refine .bind (.silently _) fun t5 _ e => .look <| .say ?_
    have e1 : t5.world = { t4.world with opt := { t4.world.opt with stats :=
      { t4.world.opt.stats with
        deltaNorm := A.norm dx
        chi2 := A.sqNorm t4.world.opt.residual2
        residualNorm := A.norm t4.world.opt.residual2
        iteration := t4.world.opt.stats.iteration + 1 } } } := (congrArg (fun p => p.1.world) e).symm
    refine ⟨J, _, true, hJ, by rw [e1]; exact hev, rfl, fun _ => ?_, nofun⟩
    rw [e1]
    show A.lt (A.mul (A.lit (1 / 2)) (A.sqNorm t4.world.opt.residual2))
      (A.mul (A.lit (1 / 2)) (A.sqNorm t4.world.opt.residual1)) = true
    rw [hr]
    exact (hp.accept dx rfl).2
  | false =>
    obtain ⟨v, st, erej, -⟩ := lmRejected_eq A (A.mul (A.lit (1 / 2)) (A.sqNorm s2.opt.residual1)) t4.world
    refine .bind (.bind (.silently _) fun _ => .bind (.say id) fun _ => .bind (.silently _) fun _ => .silently _)
      fun t5 u e => .look <| .say ?_
    have hE := Erases.apply (Erases.same (m := lmRejected A (A.mul (A.lit (1 / 2)) (A.sqNorm s2.opt.residual1)))
      (k' := fun _ => SE.bind (Opt.say (.lmNoStep 5)) fun _ =>
        SE.bind (Opt.silently (modOpt fun o => { o with residual2 := o.residual1 })) fun _ =>
        Opt.silently (SE.bind SE.get fun s' =>
          recordStats A (List.replicate dx.length (A.lit 0)) s'.opt.residual2))
      (k := fun _ => SE.bind (modOpt fun o => { o with residual2 := o.residual1 }) fun _ =>
        SE.bind SE.get fun s' => recordStats A (List.replicate dx.length (A.lit 0)) s'.opt.residual2)
      (g := id) (fun _ => .say <| .same fun _ => .silently _)) (t := t4) (t' := t5) (r := .ok u) e
    rw [SE.bind_ok erej] at hE
    have e1 := congrArg Prod.fst hE
    have e1' : t5.world = { t4.world with opt := { t4.world.opt with
      residual2 := t4.world.opt.residual1
      stats := { t4.world.opt.stats with
        valid := v
        status := st
        deltaNorm := A.norm (List.replicate dx.length (A.lit 0))
        chi2 := A.sqNorm t4.world.opt.residual1
        residualNorm := A.norm t4.world.opt.residual1
        iteration := t4.world.opt.stats.iteration + 1 } } } := e1.symm
    refine ⟨J, _, false, hJ, by rw [e1']; exact hev, rfl, nofun, fun _ => ⟨?_, dx.length, by rw [e1']⟩⟩
    intro good hg hgs
    rw [e1']
    exact (hp.reject good hg (hgv good hgs) dx rfl).trans (hs3.1.trans hs2.1)

/-- What is known about the report of a step from `s` to `s'`. -/
def Said (A : Arith F) (env : Env F V) (s s' : OptWorld F V Fact) (m : Message F) : Prop :=
  match s.opt.settings.method with
  | .gaussNewton => SaidGaussNewton A s s' m
  | .levenbergMarquardt => SaidLevenbergMarquardt A env s s' m

theorem oneStepV_told (A : Arith F) (L : LinAlg F Fact) (env : Env F V) (t : Talk F V Fact) :
    ToldAt (Said A env t.world) (oneStepV A L env) t := by
  refine .look ?_
  unfold Said
  cases t.world.opt.settings.method with
  | gaussNewton => exact gaussNewtonStepV_told A L env t
  | levenbergMarquardt => exact levenbergMarquardtStepV_told A L env t

/-- The reports about steps that the computation adds have property `P`. -/
def ReportsAt {α : Type} (P : Message F → Prop) (m : SE (Talk F V Fact) α) (t : Talk F V Fact) : Prop :=
  ∃ l, (m t).1.acts = t.acts ++ l ∧ ∀ msg, .print msg ∈ l → Message.reportsStep msg → P msg

section
variable {α β : Type} {P : Message F → Prop}

theorem Quiet.reports {m : SE (Talk F V Fact) α} (h : Quiet m) (t : Talk F V Fact) : ReportsAt P m t := by
  obtain ⟨l, h1, h2⟩ := h t
  exact ⟨l, h1, fun msg hm hr => absurd hr (h2 _ hm msg rfl)⟩

theorem ReportsAt.bind {m : SE (Talk F V Fact) α} {k : α → SE (Talk F V Fact) β} {t : Talk F V Fact} (hm : ReportsAt P m t)
    (hk : ∀ t' a, m t = (t', .ok a) → ReportsAt P (k a) t') : ReportsAt P (SE.bind m k) t := by
  obtain ⟨l, h1, h2⟩ := hm
  rcases e : m t with ⟨t1, r⟩
  rw [e] at h1
  cases r with
  | ok a =>
    obtain ⟨l', h3, h4⟩ := hk t1 a e
    have hb := SE.bind_ok (f := k) e
    refine ⟨l ++ l', by rw [hb, h3, h1]; simp, fun msg hx => (List.mem_append.1 hx).elim (h2 msg) (h4 msg)⟩
  | threw =>
    have hb := SE.bind_threw (f := k) e
    exact ⟨l, by rw [hb]; exact h1, h2⟩
  | ub =>
    have hb := SE.bind_ub (f := k) e
    exact ⟨l, by rw [hb]; exact h1, h2⟩

theorem ToldAt.reports {Q : OptWorld F V Fact → Message F → Prop} {m : SE (Talk F V Fact) α} {t : Talk F V Fact}
    (h : ToldAt Q m t) (hP : ∀ msg a, (m t).2 = .ok a → Q (m t).1.world msg → P msg) : ReportsAt P m t := by
  obtain ⟨l, tail, h1, h2, h3⟩ := h
  refine ⟨l ++ tail, h1, fun msg hm hr => ?_⟩
  rcases List.mem_append.1 hm with hm | hm
  · exact absurd hr (h2 _ hm msg rfl)
  · rcases h3 with rfl | ⟨msg', a, rfl, ho, hq⟩
    · simp at hm
    · simp only [List.mem_singleton, Act.print.injEq] at hm
      rw [hm]
      exact hP _ a ho hq
end

/-- `msg` reports a step of the run that starts in `s1`. -/
def ReportsOf (A : Arith F) (L : LinAlg F Fact) (env : Env F V) (s1 : OptWorld F V Fact) (msg : Message F) : Prop :=
  ∃ k s s', Iterations A L env k s1 s ∧ oneStep A L env s = (s', .ok ()) ∧ Said A env s s' msg

theorem iterateV_reports (A : Arith F) (L : LinAlg F Fact) (env : Env F V) (s1 : OptWorld F V Fact) :
    ∀ n i (t : Talk F V Fact) k, Iterations A L env k s1 t.world →
      ReportsAt (ReportsOf A L env s1) (iterateV A L env n i) t
  | 0, _, t, _, _ => (Quiet.ret ()).reports t
  | n + 1, i, t, k, hk => by
    have hh : ∃ t1, sayHeader (n == 0) i t = (t1, .ok ()) ∧ t1.world = t.world ∧
        ∃ l, t1.acts = t.acts ++ l ∧ ∀ a ∈ l, Minor a := by
      have hq : Quiet (sayHeader (n == 0) i : SE (Talk F V Fact) Unit) := by
        simp only [sayHeader]
        split
        · exact .say id
        · exact .ret _
      have he : ∃ t1, sayHeader (n == 0) i t = (t1, .ok ()) ∧ t1.world = t.world := by
        simp only [sayHeader]
        split
        · exact say_ok _ t
        · exact ⟨t, rfl, rfl⟩
      obtain ⟨t1, h1, h2⟩ := he
      have := hq t
      rw [h1] at this
      exact ⟨t1, h1, h2, this⟩
    obtain ⟨t1, h1, h2, l1, h3, h4⟩ := hh
    have hb : iterateV A L env (n + 1) i t = SE.bind (sayHeader (n == 0) i) _ t := rfl
    have hb' := hb.trans (SE.bind_ok h1)
    clear hb
    have hstep := Erases.oneStep A L env t1
    have htold := oneStepV_told A L env t1
    rcases e : oneStepV A L env t1 with ⟨t', r⟩
    have hrep : ReportsAt (ReportsOf A L env s1) (oneStepV A L env) t1 := by
      refine htold.reports fun msg u hu hs => ?_
      rw [e] at hu hs hstep
      refine ⟨k, t.world, t'.world, hk, ?_, h2 ▸ hs⟩
      rw [← h2, hstep]
      simp only at hu
      rw [hu]
      rfl
    obtain ⟨l2, h5, h6⟩ := hrep
    rw [e] at h5 hstep
    simp only [e] at hb'
    have hfinal : ∀ l3, (iterateV A L env (n + 1) i t).1.acts = t'.acts ++ l3 →
        (∀ msg, .print msg ∈ l3 → Message.reportsStep msg → ReportsOf A L env s1 msg) →
        ReportsAt (ReportsOf A L env s1) (iterateV A L env (n + 1) i) t := by
      intro l3 e3 h3'
      refine ⟨l1 ++ (l2 ++ l3), by rw [e3, h5, h3]; simp, fun msg hm hr => ?_⟩
      rcases List.mem_append.1 hm with hm | hm
      · exact absurd hr (h4 _ hm msg rfl)
      · rcases List.mem_append.1 hm with hm | hm
        · exact h6 msg hm hr
        · exact h3' msg hm hr
    cases r with
    | ub => exact hfinal [] (by rw [hb']; simp) (by simp)
    | threw =>
      refine hfinal [.print (.errorInIteration i)] (by rw [hb']; rfl) ?_
      intro msg hm hr
      simp only [List.mem_singleton, Act.print.injEq] at hm
      rw [hm] at hr
      exact hr.elim
    | ok u =>
      have hs : oneStep A L env t.world = (t'.world, .ok ()) := by rw [← h2, hstep]; rfl
      have hrest : ReportsAt (ReportsOf A L env s1) (SE.bind
          (sayIfAny (afterStepSays A t'.world.opt.settings t'.world.opt.initialStats t.world.opt.stats t'.world.opt.stats))
          fun _ => SE.bind (silently (modStats fun _ =>
            (afterStep A t'.world.opt.settings t'.world.opt.initialStats t.world.opt.stats t'.world.opt.stats).1)) fun _ =>
          if (afterStep A t'.world.opt.settings t'.world.opt.initialStats t.world.opt.stats t'.world.opt.stats).2 = true then
            SE.ret () else iterateV A L env n (i + 1)) t' := by
        refine .bind ?_ fun t2 _ e2 => .bind ((Quiet.silently _).reports _) fun t3 _ e3 => ?_
        · refine Quiet.reports ?_ _
          have hm : ∀ m, afterStepSays A t'.world.opt.settings t'.world.opt.initialStats t.world.opt.stats
              t'.world.opt.stats = some m → ¬ Message.reportsStep m := by
            intro m
            simp only [afterStepSays]
            repeat' split
            all_goals intro e; cases e
            all_goals exact id
          generalize afterStepSays A t'.world.opt.settings t'.world.opt.initialStats t.world.opt.stats
            t'.world.opt.stats = o at hm
          cases o with
          | none => exact .ret ()
          | some m => exact .say (hm m rfl)
        have hw2 : t2.world = t'.world := by
          revert e2
          cases afterStepSays A t'.world.opt.settings t'.world.opt.initialStats t.world.opt.stats t'.world.opt.stats with
          | none => intro e2; exact (congrArg (fun p => p.1.world) e2).symm
          | some m =>
            intro e2
            obtain ⟨t4, e4, e5⟩ := say_ok m t'
            have : (t4, Res.ok ()) = (t2, Res.ok _) := e4.symm.trans e2
            exact (congrArg (fun p => p.1.world) this).symm.trans e5
        cases hr : (afterStep A t'.world.opt.settings t'.world.opt.initialStats t.world.opt.stats t'.world.opt.stats).2 with
        | true => exact (Quiet.ret _).reports _
        | false =>
          have hw3 : t3.world = t'.world := by
            have e5 : t3.world = { t2.world with opt := { t2.world.opt with stats :=
              (afterStep A t'.world.opt.settings t'.world.opt.initialStats t.world.opt.stats t'.world.opt.stats).1 } } :=
              (congrArg (fun p => p.1.world) e3).symm
            rw [e5, (afterStep_cont hr).1, hw2]
          refine iterateV_reports A L env s1 n (i + 1) t3 (k + 1) ?_
          rw [hw3]
          exact .succ hk hs hr
      obtain ⟨l3, h7, h8⟩ := hrest
      exact hfinal l3 (by rw [hb']; exact h7) h8

end Factorama.Opt
