import Verif.Lemmas.Mute

/-!
# The messages of the main loop
-/

set_option linter.unusedSectionVars false

namespace Factorama.Opt
open Spec Graph
variable {F V Fact : Type} [Zero F] [VarLike F V]

/-- Started in `t` the computation adds only messages with `P`. -/
def SaysAt {α : Type} (P : Message F → Prop) (m : SE (Talk F V Fact) α) (t : Talk F V Fact) : Prop :=
  ∃ l, (m t).1.acts = t.acts ++ l ∧ ∀ msg, .print msg ∈ l → P msg

/-- The computation adds only messages with `P`. -/
def Says {α : Type} (P : Message F → Prop) (m : SE (Talk F V Fact) α) : Prop := ∀ t, SaysAt P m t

section
variable {α β : Type} {P : Message F → Prop}

theorem SaysAt.bind {m : SE (Talk F V Fact) α} {k : α → SE (Talk F V Fact) β} {t : Talk F V Fact} (hm : SaysAt P m t)
    (hk : ∀ t' a, m t = (t', .ok a) → SaysAt P (k a) t') : SaysAt P (SE.bind m k) t := by
  obtain ⟨l, h1, h2⟩ := hm
  rcases e : m t with ⟨t1, r⟩
  rw [e] at h1
  unfold SaysAt
  cases r with
  | ok a =>
    rw [SE.bind_ok e]
    obtain ⟨l', h3, h4⟩ := hk t1 a e
    exact ⟨l ++ l', by rw [h3, h1, List.append_assoc], fun x hx => (List.mem_append.1 hx).elim (h2 x) (h4 x)⟩
  | threw => rw [SE.bind_threw e]; exact ⟨l, h1, h2⟩
  | ub => rw [SE.bind_ub e]; exact ⟨l, h1, h2⟩

theorem Says.bind {m : SE (Talk F V Fact) α} {k : α → SE (Talk F V Fact) β} (hm : Says P m) (hk : ∀ a, Says P (k a)) :
    Says P (SE.bind m k) := fun t => .bind (hm t) fun t' a _ => hk a t'

theorem Says.silently (m : SE (OptWorld F V Fact) α) : Says P (silently m) :=
  fun t => ⟨[], by simp [Opt.silently], by simp⟩
theorem Says.ret (a : α) : Says P (SE.ret a : SE (Talk F V Fact) α) := fun t => ⟨[], by simp [SE.ret], by simp⟩
theorem Says.throw : Says P (SE.throw : SE (Talk F V Fact) α) := fun t => ⟨[], by simp [SE.throw], by simp⟩
theorem Says.undefined : Says P (SE.undefined : SE (Talk F V Fact) α) := fun t => ⟨[], by simp [SE.undefined], by simp⟩
theorem Says.press (w : Watch) (p : Stopwatch.Press) : Says P (act (.press w p) : SE (Talk F V Fact) Unit) :=
  fun t => ⟨[.press w p], rfl, by simp⟩

theorem Says.print {m : Message F} (h : P m) : Says P (act (.print m) : SE (Talk F V Fact) Unit) :=
  fun t => ⟨[.print m], rfl, by simpa using h⟩

theorem Says.say {m : Message F} (h : P m) : Says P (say m : SE (Talk F V Fact) Unit) := by
  intro t
  unfold SaysAt
  simp only [Opt.say]
  split
  · exact Says.print h t
  · exact ⟨[], by simp, by simp⟩
end

/-- Messages of single steps. -/
def ofStep : Message F → Prop
  | .starting .. | .iteration _ | .errorInIteration _ | .stopping | .convergedStep .. | .wentUp _ | .convergedResidual .. |
    .diverged .. | .summary _ => False
  | _ => True

theorem Says.gaussNewtonStep (A : Arith F) (L : LinAlg F Fact) (env : Env F V) :
    Says ofStep (gaussNewtonStepV A L env : SE (Talk F V Fact) Unit) := by
  refine .bind (.silently _) fun s0 => ?_
  split
  · exact .throw
  refine .bind (.press _ _) fun _ => .bind (.silently _) fun _ => .bind (.press _ _) fun _ =>
    .bind (.press _ _) fun _ => .bind (.silently _) fun J => .bind (.press _ _) fun _ =>
    .bind (.silently _) fun s => .bind (.press _ _) fun _ => .bind (.press _ _) fun _ => .bind (.press _ _) fun _ => ?_
  dsimp only
  split
  · exact .bind (.silently _) fun _ => .bind (.silently _) fun _ => .say trivial
  · refine .bind (.silently _) fun _ => .bind (.press _ _) fun _ => ?_
    split
    · exact .undefined
    split
    · exact .bind (.silently _) fun _ => .say trivial
    split
    · exact .bind (.silently _) fun _ => .say trivial
    split
    · exact .bind (.silently _) fun _ => .say trivial
    · exact .bind (.press _ _) fun _ => .bind (.silently _) fun _ => .bind (.press _ _) fun _ =>
        .bind (.silently _) fun _ => .bind (.silently _) fun _ => .bind (.silently _) fun _ => .say trivial

theorem Says.lmTrials (A : Arith F) (L : LinAlg F Fact) (env : Env F V) (J : SpMat F) (cost : F) :
    ∀ (k : Nat) (dx : List F), Says ofStep (lmTrialsV A L env J cost k dx : SE (Talk F V Fact) _)
  | 0, dx => .ret _
  | k + 1, dx => by
    have ih := Says.lmTrials A L env J cost k
    refine .bind (.silently _) fun s => .bind (.press _ _) fun _ => .bind (.press _ _) fun _ => .bind (.press _ _) fun _ => ?_
    dsimp only
    split
    · exact .bind (.silently _) fun _ => .bind (.silently _) fun _ => .bind (.silently _) fun _ =>
        .bind (.say trivial) fun _ => ih dx
    · refine .bind (.silently _) fun _ => ?_
      split
      · exact .undefined
      split
      · exact .bind (.silently _) fun _ => .bind (.silently _) fun _ => .bind (.say trivial) fun _ => ih dx
      split
      · exact .bind (.silently _) fun _ => .bind (.silently _) fun _ => .bind (.say trivial) fun _ => ih _
      · refine .bind (.press _ _) fun _ => .bind (.press _ _) fun _ => .bind (.silently _) fun _ => .bind (.press _ _) fun _ =>
          .bind (.press _ _) fun _ => .bind (.silently _) fun _ => .bind (.press _ _) fun _ => .bind (.silently _) fun s' => ?_
        split
        · exact .bind (.silently _) fun _ => .bind (.silently _) fun _ => .bind (.say trivial) fun _ => .ret _
        · refine .bind (.press _ _) fun _ => .bind (.silently _) fun _ => .bind (.silently _) fun _ =>
            .bind (.silently _) fun s'' => .bind (.say trivial) fun _ => ?_
          split
          · exact .bind (.say trivial) fun _ => .ret _
          · exact .bind (.press _ _) fun _ => ih _

theorem Says.levenbergMarquardtStep (A : Arith F) (L : LinAlg F Fact) (env : Env F V) :
    Says ofStep (levenbergMarquardtStepV A L env : SE (Talk F V Fact) Unit) := by
  refine .bind (.silently _) fun s0 => ?_
  split
  · exact .throw
  refine .bind (.press _ _) fun _ => .bind (.silently _) fun _ => .bind (.press _ _) fun _ =>
    .bind (.press _ _) fun _ => .bind (.silently _) fun J => .bind (.press _ _) fun _ =>
    .bind (.silently _) fun s => .bind (.silently _) fun _ => .bind (.lmTrials A L env J _ 5 []) fun res =>
    .bind ?_ fun _ => .bind (.silently _) fun _ => .say trivial
  split
  · exact .silently _
  · exact .bind (.silently _) fun _ => .bind (.say trivial) fun _ => .bind (.silently _) fun _ => .silently _

theorem Says.oneStep (A : Arith F) (L : LinAlg F Fact) (env : Env F V) :
    Says ofStep (oneStepV A L env : SE (Talk F V Fact) Unit) := by
  refine .bind (.silently _) fun s => ?_
  split
  · exact .gaussNewtonStep A L env
  · exact .levenbergMarquardtStep A L env

theorem oneStepV_says (A : Arith F) (L : LinAlg F Fact) (env : Env F V) (s1 : OptWorld F V Fact) (t : Talk F V Fact) :
    SaysAt (LoopMessageTrue A L env s1) (oneStepV A L env) t := by
  obtain ⟨l, h1, h2⟩ := Says.oneStep A L env t
  refine ⟨l, h1, fun msg hm => ?_⟩
  have := h2 msg hm
  cases msg <;> first | trivial | exact this.elim

/-- The message after a step is true. -/
theorem afterStepSays_true {A : Arith F} {L : LinAlg F Fact} {env : Env F V} {s1 s s' : OptWorld F V Fact} {k : Nat}
    (hit : Iterations A L env k s1 s) (hstep : oneStep A L env s = (s', .ok ())) (m : Message F)
    (hm : afterStepSays A s'.opt.settings s'.opt.initialStats s.opt.stats s'.opt.stats = some m) :
    LoopMessageTrue A L env s1 m := by
  unfold afterStepSays at hm
  split at hm
  · cases hm
    exact ⟨k, s, s', hit, hstep, by assumption⟩
  split at hm
  · cases hm
    exact ⟨k, s, s', hit, hstep, rfl, rfl, by assumption⟩
  dsimp only at hm
  split at hm
  · cases hm
    exact ⟨k, s, s', hit, hstep, rfl, by assumption⟩
  split at hm
  · cases hm
    exact ⟨k, s, s', hit, hstep, rfl, rfl, by assumption⟩
  split at hm
  · cases hm
    exact ⟨k, s, s', hit, hstep, rfl, rfl, by assumption⟩
  · simp at hm

/-- If the run goes on nothing is said. -/
theorem afterStepSays_none {A : Arith F} {st : Settings F} {i p q : Stats F} (h : (afterStep A st i p q).2 = false) :
    afterStepSays A st i p q = none := by
  unfold afterStep at h
  unfold afterStepSays
  grind

theorem afterStep_same {A : Arith F} {st : Settings F} {i p q : Stats F} (h : (afterStep A st i p q).2 = false) :
    (afterStep A st i p q).1 = q := by
  unfold afterStep at h ⊢
  grind

theorem iterateV_says (A : Arith F) (L : LinAlg F Fact) (env : Env F V) (s1 : OptWorld F V Fact) :
    ∀ n i (t : Talk F V Fact), Iterations A L env i s1 t.world →
      SaysAt (LoopMessageTrue A L env s1) (iterateV A L env n i) t
  | 0, _, t, _ => Says.ret () t
  | n + 1, i, t, hit => by
    have hhead : ∀ t1, sayHeader (n == 0) i t = (t1, .ok ()) → t1.world = t.world := by
      intro t1 h
      unfold sayHeader at h
      split at h
      · obtain ⟨t2, h2, h3⟩ := say_ok (.iteration i) t
        rw [h2] at h
        have := congrArg Prod.fst h
        dsimp only at this
        rw [← this]
        exact h3
      · exact (congrArg (fun p => p.1.world) h).symm
    refine SaysAt.bind (m := look) (k := _) (Says.silently _ t) fun t0 s e0 => ?_
    have e1 : t0 = t := (congrArg Prod.fst e0).symm
    have e2 : s = t.world := (Res.ok.inj (congrArg Prod.snd e0)).symm
    subst e1 e2
    refine .bind ?_ fun t1 _ e => ?_
    · unfold sayHeader
      split
      · exact Says.say ⟨_, hit⟩ _
      · exact Says.ret () _
    have hw := hhead t1 e
    obtain ⟨l, h1, h2⟩ := oneStepV_says A L env s1 t1
    have hE := Erases.oneStep A L env t1
    rw [mapRes_id, hw] at hE
    rcases e3 : oneStepV A L env t1 with ⟨t', r⟩
    rw [e3] at h1 hE
    have hgo : ∀ (m : SE (Talk F V Fact) Unit), SaysAt (LoopMessageTrue A L env s1) m t' →
        ∃ l, (m t').1.acts = t1.acts ++ l ∧ ∀ msg, .print msg ∈ l → LoopMessageTrue A L env s1 msg := by
      rintro m ⟨l', h3, h4⟩
      exact ⟨l ++ l', by rw [h3, h1, List.append_assoc], fun x hx => (List.mem_append.1 hx).elim (h2 x) (h4 x)⟩
    unfold SaysAt
    dsimp only
    rw [e3]
    dsimp only at hE
    cases r with
    | ub => exact ⟨l, h1, h2⟩
    | threw => exact hgo _ (Says.bind (.print ⟨_, hit, by rw [hE]⟩) (fun _ => .silently _) t')
    | ok u =>
      dsimp only
      refine hgo _ (.bind ?_ fun t2 _ e4 => ?_)
      · cases hm : afterStepSays A t'.world.opt.settings t'.world.opt.initialStats t0.world.opt.stats t'.world.opt.stats with
        | none => exact Says.ret () _
        | some m => exact Says.say (afterStepSays_true hit hE m hm) _
      · have hw2 : t2.world = t'.world := by
          cases hm : afterStepSays A t'.world.opt.settings t'.world.opt.initialStats t0.world.opt.stats
              t'.world.opt.stats with
          | none => rw [hm] at e4; exact (congrArg (fun p => p.1.world) e4).symm
          | some m =>
            rw [hm] at e4
            obtain ⟨t3, h5, h6⟩ := say_ok m t'
            have := congrArg Prod.fst (e4.symm.trans h5)
            dsimp only at this
            rw [this]
            exact h6
        refine .bind (Says.silently _ _) fun t3 _ e5 => ?_
        cases ha : (afterStep A t'.world.opt.settings t'.world.opt.initialStats t0.world.opt.stats
            t'.world.opt.stats).2 with
        | true => exact Says.ret () _
        | false =>
          refine iterateV_says A L env s1 n (i + 1) t3 ?_
          have h7 : t3.world = _ := (congrArg (fun p => p.1.world) e5).symm
          have h8 : t3.world = t'.world := by
            rw [h7]
            show ({ t2.world with opt := { t2.world.opt with stats := _ } } : OptWorld F V Fact) = _
            rw [afterStep_same ha, hw2]
          rw [h8]
          exact .succ hit hE ha

theorem afterStepSays_some {A : Arith F} {st : Settings F} {i p q : Stats F} (h : (afterStep A st i p q).2 = true) :
    ∃ m, afterStepSays A st i p q = some m ∧ Message.endsRun m := by
  unfold afterStep at h
  unfold afterStepSays
  split
  · exact ⟨_, rfl, trivial⟩
  split
  · exact ⟨_, rfl, trivial⟩
  dsimp only
  split
  · exact ⟨_, rfl, trivial⟩
  split
  · exact ⟨_, rfl, trivial⟩
  split
  · exact ⟨_, rfl, trivial⟩
  · exfalso; grind

theorem iterateV_reason (A : Arith F) (L : LinAlg F Fact) (env : Env F V) (s1 : OptWorld F V Fact) :
    ∀ n i (t t' : Talk F V Fact), Iterations A L env i s1 t.world → t.world.opt.settings.verbose = true →
      iterateV A L env n i t = (t', .ok ()) →
      ∃ l, t'.acts = t.acts ++ l ∧ ((∃ m, .print m ∈ l ∧ Message.endsRun m) ∨ ∃ s, Iterations A L env (i + n) s1 s)
  | 0, i, t, t', hit, _, h => by
    simp only [iterateV, SE.ret, Prod.mk.injEq, and_true] at h
    subst h
    exact ⟨[], by simp, .inr ⟨_, hit⟩⟩
  | n + 1, i, t, t', hit, hv, h => by
    unfold iterateV at h
    obtain ⟨t0, s, h0, h⟩ := SE.bind_ok_iff.1 h
    have e1 : t0 = t := (congrArg Prod.fst h0).symm
    have e2 : s = t.world := (Res.ok.inj (congrArg Prod.snd h0)).symm
    subst e1 e2
    obtain ⟨t1, _, h1, h⟩ := SE.bind_ok_iff.1 h
    have hw : t1.world = t0.world ∧ ∃ l, t1.acts = t0.acts ++ l := by
      unfold sayHeader at h1
      split at h1
      · rw [Opt.say, if_pos hv] at h1
        have : t1 = _ := (congrArg Prod.fst h1).symm
        rw [this]
        exact ⟨rfl, _, rfl⟩
      · have : t1 = t0 := (congrArg Prod.fst h1).symm
        rw [this]
        exact ⟨rfl, [], by simp⟩
    obtain ⟨hw, l1, hl1⟩ := hw
    obtain ⟨l, h3, -⟩ := oneStepV_says A L env s1 t1
    have hE := Erases.oneStep A L env t1
    rw [mapRes_id, hw] at hE
    dsimp only at h
    rcases e3 : oneStepV A L env t1 with ⟨t2, r⟩
    rw [e3] at h h3 hE
    dsimp only at hE h3
    cases r with
    | ub => simp at h
    | threw =>
      dsimp only at h
      have e : t' = ⟨_, t2.acts ++ [.print (.errorInIteration i)]⟩ := (congrArg Prod.fst h).symm
      refine ⟨l1 ++ (l ++ [.print (.errorInIteration i)]), by rw [e]; simp [h3, hl1], .inl ⟨.errorInIteration i, by simp, trivial⟩⟩
    | ok u =>
      dsimp only at h
      have hv2 : t2.world.opt.settings.verbose = true := by
        have := (FlagBlind.oneStep (V := V) (Fact := Fact) A L env).verbose t0.world
        rw [hE] at this
        exact this.trans hv
      obtain ⟨t4, _, h4, h⟩ := SE.bind_ok_iff.1 h
      obtain ⟨t5, _, h5, h⟩ := SE.bind_ok_iff.1 h
      have e5 : t5 = _ := (congrArg Prod.fst h5).symm
      cases ha : (afterStep A t2.world.opt.settings t2.world.opt.initialStats t0.world.opt.stats t2.world.opt.stats).2 with
      | true =>
        rw [ha] at h
        obtain ⟨m, hm, hend⟩ := afterStepSays_some ha
        rw [hm] at h4
        simp only [sayIfAny, Opt.say, if_pos hv2] at h4
        have e4 : t4 = ⟨t2.world, t2.acts ++ [.print m]⟩ := (congrArg Prod.fst h4).symm
        have e6 : t' = t5 := (congrArg Prod.fst h).symm
        refine ⟨l1 ++ (l ++ [.print m]), ?_, .inl ⟨m, by simp, hend⟩⟩
        rw [e6, e5, e4]
        show t2.acts ++ [.print m] = _
        rw [h3, hl1]
        simp
      | false =>
        rw [ha] at h
        rw [afterStepSays_none ha] at h4
        have e4 : t4 = t2 := (congrArg Prod.fst h4).symm
        have hw5 : t5.world = t2.world := by
          rw [e5, e4]
          show ({ t2.world with opt := { t2.world.opt with stats := _ } } : OptWorld F V Fact) = _
          rw [afterStep_same ha]
        have ha5 : t5.acts = t2.acts := by rw [e5, e4]; rfl
        obtain ⟨l', h6, h7⟩ := iterateV_reason A L env s1 n (i + 1) t5 t' (by rw [hw5]; exact .succ hit hE ha)
          (by rw [hw5]; exact hv2) h
        refine ⟨l1 ++ (l ++ l'), by rw [h6, ha5, h3, hl1]; simp, ?_⟩
        rcases h7 with ⟨m, hm, he⟩ | ⟨s, hs⟩
        · exact .inl ⟨m, by simp [hm], he⟩
        · exact .inr ⟨s, by rw [show i + (n + 1) = i + 1 + n by omega]; exact hs⟩

theorem optimizeV_says (A : Arith F) (L : LinAlg F Fact) (env : Env F V) (t : Talk F V Fact)
    {r : List F} (hr : (computeResidual env t.world.heap t.world.graph).2 = .ok r) :
    SaysAt (LoopMessageTrue A L env (loopStart A env t.world r)) (optimizeV A L env) t := by
  have hlook : ∀ {β : Type} {P : Message F → Prop} {k : OptWorld F V Fact → SE (Talk F V Fact) β} {t : Talk F V Fact},
      SaysAt P (k t.world) t → SaysAt P (SE.bind look k) t := by
    intro β P k t h
    refine .bind (Says.silently _ _) fun t' a e => ?_
    have e1 : t' = t := (congrArg Prod.fst e).symm
    have e2 : Res.ok t.world = .ok a := congrArg Prod.snd e
    rw [e1, ← Res.ok.inj e2]
    exact h
  have hpress : ∀ {β : Type} {P : Message F → Prop} {k : Unit → SE (Talk F V Fact) β} {t : Talk F V Fact} {w : Watch}
      {p : Stopwatch.Press}, (∀ acts, SaysAt P (k ()) ⟨t.world, acts⟩) → SaysAt P (SE.bind (act (.press w p)) k) t := by
    intro β P k t w p h
    refine .bind (Says.press w p _) fun t' a e => ?_
    have e1 : t' = ⟨t.world, t.acts ++ [.press w p]⟩ := (congrArg Prod.fst e).symm
    rw [e1]
    exact h _
  have hsil : ∀ {α β : Type} {P : Message F → Prop} {m : SE (OptWorld F V Fact) α} {k : α → SE (Talk F V Fact) β}
      {t : Talk F V Fact}, (∀ s' a, m t.world = (s', .ok a) → SaysAt P (k a) ⟨s', t.acts⟩) →
      SaysAt P (SE.bind (silently m) k) t := by
    intro α β P m k t h
    refine .bind (Says.silently _ _) fun t' a e => ?_
    have e1 : t' = ⟨(m t.world).1, t.acts⟩ := (congrArg Prod.fst e).symm
    have e2 : (m t.world).2 = .ok a := congrArg Prod.snd e
    rw [e1]
    exact h _ a (by rw [← e2])
  refine hlook ?_
  split
  · exact Says.throw _
  refine hsil fun s1 _ e1 => hpress fun _ => hpress fun _ => hpress fun _ => hpress fun _ => hpress fun _ =>
    hsil fun s2 r' e2 => hsil fun s3 _ e3 => hsil fun s4 _ e4 => hlook ?_
  have hs1 : s1 = _ := (congrArg Prod.fst e1).symm
  subst hs1
  have hs2 : s2 = _ := (congrArg Prod.fst e2).symm
  have hr2 : (computeResidual env t.world.heap t.world.graph).2 = .ok r' := congrArg Prod.snd e2
  rw [hr] at hr2
  cases hr2
  subst hs2
  have hs3 : s3 = _ := (congrArg Prod.fst e3).symm
  subst hs3
  have hs4 : s4 = _ := (congrArg Prod.fst e4).symm
  have h4 : s4 = loopStart A env t.world r := hs4
  clear hs4 e1 e2 e3 e4
  subst h4
  refine .bind (Says.say ⟨rfl, rfl, rfl, rfl, rfl, rfl, rfl⟩ _) fun t5 _ e5 => ?_
  have h5 : t5.world = loopStart A env t.world r := by
    obtain ⟨t6, e6, h6⟩ := say_ok (.starting _ _ _ _ _ _ _) (⟨loopStart A env t.world r, _⟩ : Talk F V Fact)
    exact (congrArg (fun p => p.1.world) (e5.symm.trans e6)).trans h6
  refine .bind (iterateV_says A L env _ _ 0 t5 (h5 ▸ .zero _)) fun t6 _ _ => ?_
  exact Says.bind (.silently _) (fun _ => .bind (.silently _) fun _ => .bind (.say trivial) fun _ => .silently _) _

theorem grows {α : Type} {m : SE (Talk F V Fact) α} {t t' : Talk F V Fact} {a : α} (hm : Says (fun _ => True) m)
    (h : m t = (t', .ok a)) : ∃ l, t'.acts = t.acts ++ l := by
  obtain ⟨l, h1, -⟩ := hm t
  rw [h] at h1
  exact ⟨l, h1⟩

/-- A verbose run says why it ends, or makes all its iterations. -/
theorem optimizeV_reason {A : Arith F} {L : LinAlg F Fact} {env : Env F V} {t t' : Talk F V Fact}
    {r : List F} (hr : (computeResidual env t.world.heap t.world.graph).2 = .ok r)
    (hv : t.world.opt.settings.verbose = true) (h : optimizeV A L env t = (t', .ok ())) :
    ∃ l, t'.acts = t.acts ++ l ∧ ((∃ m, .print m ∈ l ∧ Message.endsRun m) ∨
      ∃ s, Iterations A L env t.world.opt.settings.maxIterations (loopStart A env t.world r) s) := by
  obtain ⟨s, acts⟩ := t
  unfold optimizeV at h
  rw [show ∀ k : OptWorld F V Fact → SE (Talk F V Fact) Unit, SE.bind look k ⟨s, acts⟩ = k s ⟨s, acts⟩ from fun _ => rfl] at h
  split at h
  · simp [SE.throw] at h
  obtain ⟨t1, _, h1, h⟩ := SE.bind_ok_iff.1 h
  obtain ⟨t2, _, h2, h⟩ := SE.bind_ok_iff.1 h
  obtain ⟨t3, _, h3, h⟩ := SE.bind_ok_iff.1 h
  obtain ⟨t4, _, h4, h⟩ := SE.bind_ok_iff.1 h
  obtain ⟨t5, _, h5, h⟩ := SE.bind_ok_iff.1 h
  obtain ⟨t6, _, h6, h⟩ := SE.bind_ok_iff.1 h
  have e1 : t1 = _ := (congrArg Prod.fst h1).symm
  subst e1
  have e2 : t2 = _ := (congrArg Prod.fst h2).symm
  subst e2
  have e3 : t3 = _ := (congrArg Prod.fst h3).symm
  subst e3
  have e4 : t4 = _ := (congrArg Prod.fst h4).symm
  subst e4
  have e5 : t5 = _ := (congrArg Prod.fst h5).symm
  subst e5
  have e6 : t6 = _ := (congrArg Prod.fst h6).symm
  subst e6
  obtain ⟨t7, r', h7, h⟩ := SE.bind_ok_iff.1 h
  have hr7 : (computeResidual env s.heap s.graph).2 = .ok r' := congrArg Prod.snd h7
  rw [hr] at hr7
  cases hr7
  have e7 : t7 = _ := (congrArg Prod.fst h7).symm
  subst e7
  obtain ⟨t8, _, h8, h⟩ := SE.bind_ok_iff.1 h
  have e8 : t8 = _ := (congrArg Prod.fst h8).symm
  subst e8
  obtain ⟨t9, _, h9, h⟩ := SE.bind_ok_iff.1 h
  have e9 : t9 = ⟨loopStart A env s r, acts ++ [.press .residual .reset] ++ [.press .residual .reset] ++
    [.press .hessian .reset] ++ [.press .solve .reset] ++ [.press .updateVars .reset]⟩ := (congrArg Prod.fst h9).symm
  subst e9
  clear h1 h2 h3 h4 h5 h6 h7 h8 h9
  obtain ⟨t10, s10, h10, h⟩ := SE.bind_ok_iff.1 h
  have e10 : t10 = ⟨loopStart A env s r, acts ++ [.press .residual .reset] ++ [.press .residual .reset] ++
    [.press .hessian .reset] ++ [.press .solve .reset] ++ [.press .updateVars .reset]⟩ := (congrArg Prod.fst h10).symm
  have e10' : s10 = loopStart A env s r := (Res.ok.inj (congrArg Prod.snd h10)).symm
  subst e10 e10'
  clear h10
  obtain ⟨t11, _, h11, h⟩ := SE.bind_ok_iff.1 h
  have hv10 : (loopStart A env s r).opt.settings.verbose = true := hv
  rw [Opt.say, if_pos (by exact hv10)] at h11
  obtain ⟨m0, e11⟩ : ∃ m0 : Message F, t11 = ⟨loopStart A env s r, acts ++ [Act.press .residual .reset] ++
      [Act.press .residual .reset] ++ [Act.press .hessian .reset] ++ [Act.press .solve .reset] ++
      [Act.press .updateVars .reset] ++ [Act.print m0]⟩ := by
    have := (congrArg Prod.fst h11).symm
    exact ⟨_, this⟩
  obtain ⟨t12, _, h12, h⟩ := SE.bind_ok_iff.1 h
  obtain ⟨l, h13, h14⟩ := iterateV_reason A L env (loopStart A env s r) _ 0 t11 t12 (by rw [e11]; exact .zero _)
    (by rw [e11]; exact hv10) h12
  obtain ⟨l2, h15⟩ : ∃ l2, t'.acts = t12.acts ++ l2 := by
    exact grows (Says.bind (.silently _) fun _ => .bind (.silently _) fun s2 => .bind (.say trivial) fun _ => .silently _) h
  refine ⟨[.press .residual .reset, .press .residual .reset, .press .hessian .reset, .press .solve .reset,
    .press .updateVars .reset, .print m0] ++ (l ++ l2), by rw [h15, h13, e11]; simp, ?_⟩
  rcases h14 with ⟨m, hm, he⟩ | ⟨s', hs⟩
  · exact .inl ⟨m, by simp [hm], he⟩
  · rw [Nat.zero_add] at hs; exact .inr ⟨s', hs⟩

end Factorama.Opt
