import Verif.Model.Verbose
import Verif.Lemmas.OptLoop

/-!
# The optimizer with output computes what the optimizer without output computes
-/

set_option linter.unusedSectionVars false

namespace Factorama.Opt
open Spec Graph
variable {F V Fact : Type} [Zero F] [VarLike F V]

/-- Change a returned value. -/
def mapRes {α β : Type} (f : β → α) : Res β → Res α
  | .ok b => .ok (f b)
  | .threw => .threw
  | .ub => .ub

/-- Without its output, and with `f` applied to what it returns, `m'` is `m`. -/
def Erases {α β : Type} (f : β → α) (m' : SE (Talk F V Fact) β) (m : SE (OptWorld F V Fact) α) : Prop :=
  ∀ t, m t.world = ((m' t).1.world, mapRes f (m' t).2)

section
variable {α β γ δ : Type}

theorem mapRes_id (r : Res α) : mapRes id r = r := by cases r <;> rfl

theorem Erases.bind {f : β → α} {g : δ → γ} {m' : SE (Talk F V Fact) β} {m : SE (OptWorld F V Fact) α}
    {k' : β → SE (Talk F V Fact) δ} {k : α → SE (OptWorld F V Fact) γ} (hm : Erases f m' m)
    (hk : ∀ b, Erases g (k' b) (k (f b))) : Erases g (SE.bind m' k') (SE.bind m k) := by
  intro t
  have h := hm t
  rcases e : m' t with ⟨t1, r⟩
  rw [e] at h
  cases r with
  | ok b => rw [SE.bind_ok e, SE.bind_ok h]; exact hk b t1
  | threw => rw [SE.bind_threw e, SE.bind_threw h]; rfl
  | ub => rw [SE.bind_ub e, SE.bind_ub h]; rfl

theorem Erases.silently (m : SE (OptWorld F V Fact) α) : Erases id (silently m) m := by
  intro t; simp only [Opt.silently, mapRes_id]

/-- A statement that was there before. -/
theorem Erases.same {g : δ → γ} {m : SE (OptWorld F V Fact) α}
    {k' : α → SE (Talk F V Fact) δ} {k : α → SE (OptWorld F V Fact) γ} (hk : ∀ b, Erases g (k' b) (k b)) :
    Erases g (SE.bind (Opt.silently m) k') (SE.bind m k) := Erases.bind (.silently m) hk

theorem Erases.act {g : δ → γ} {a : Act F} {k' : Unit → SE (Talk F V Fact) δ} {m : SE (OptWorld F V Fact) γ}
    (hk : Erases g (k' ()) m) : Erases g (SE.bind (act a) k') m := fun t =>
  hk { t with acts := t.acts ++ [a] }

theorem Erases.say {g : δ → γ} {a : Message F} {k' : Unit → SE (Talk F V Fact) δ} {m : SE (OptWorld F V Fact) γ}
    (hk : Erases g (k' ()) m) : Erases g (SE.bind (say a) k') m := by
  intro t
  cases hv : t.world.opt.settings.verbose with
  | true => rw [SE.bind_ok (s' := { t with acts := t.acts ++ [.print a] }) (a := ()) (by simp [Opt.say, hv, Opt.act, SE.modify])]; exact hk { t with acts := t.acts ++ [.print a] }
  | false => rw [SE.bind_ok (s' := t) (a := ()) (by simp [Opt.say, hv])]; exact hk _

theorem Erases.sayLast {a : Message F} : Erases id (Opt.say a : SE (Talk F V Fact) Unit) (SE.ret ()) := by
  intro t
  simp only [Opt.say]
  split <;> rfl

theorem Erases.look {g : δ → γ} {k' : OptWorld F V Fact → SE (Talk F V Fact) δ} {m : SE (OptWorld F V Fact) γ}
    (hk : ∀ s, Erases g (k' s) m) : Erases g (SE.bind look k') m := fun t => hk t.world t

theorem Erases.get {g : δ → γ} {k' : OptWorld F V Fact → SE (Talk F V Fact) δ}
    {k : OptWorld F V Fact → SE (OptWorld F V Fact) γ}
    (hk : ∀ s, Erases g (k' s) (k s)) : Erases g (SE.bind Opt.look k') (SE.bind SE.get k) := Erases.same hk

theorem Erases.ret {g : δ → γ} (d : δ) : Erases g (SE.ret d : SE (Talk F V Fact) δ) (SE.ret (g d)) := fun _ => rfl
theorem Erases.throw {g : δ → γ} : Erases g (SE.throw : SE (Talk F V Fact) δ) SE.throw := fun _ => rfl
theorem Erases.undefined {g : δ → γ} : Erases g (SE.undefined : SE (Talk F V Fact) δ) SE.undefined := fun _ => rfl

theorem bind_ret (m : SE (OptWorld F V Fact) α) : SE.bind m SE.ret = m := by
  funext s
  rcases e : m s with ⟨s', r⟩
  cases r with
  | ok a => rw [SE.bind_ok e]; rfl
  | threw => rw [SE.bind_threw e]
  | ub => rw [SE.bind_ub e]

/-- A statement that was the last one before. -/
theorem Erases.last {g : δ → α} {m : SE (OptWorld F V Fact) α} {k' : α → SE (Talk F V Fact) δ}
    (hk : ∀ b, Erases g (k' b) (SE.ret b)) : Erases g (SE.bind (Opt.silently m) k') m := by
  have := Erases.same (m := m) hk
  rwa [bind_ret] at this
end

theorem Erases.gaussNewtonStep (A : Arith F) (L : LinAlg F Fact) (env : Env F V) :
    Erases id (gaussNewtonStepV A L env : SE (Talk F V Fact) Unit) (gaussNewtonStep A L env) := by
  refine .get fun s0 => ?_
  split
  · exact .throw
  refine .act <| .same fun _ => .act <| .act <| .same fun J => .act <| .get fun s => .act <| .act <| .act ?_
  cases L.factorize (L.gram J) with
  | none => exact .same fun _ => .last fun _ => .sayLast
  | some f =>
    refine .same fun _ => .act ?_
    dsimp only
    split
    · exact .undefined
    split
    · exact .last fun _ => .sayLast
    split
    · exact .last fun _ => .sayLast
    cases L.solve f (L.rhs J s.opt.residual1) with
    | none => exact .last fun _ => .sayLast
    | some d => exact .act <| .same fun _ => .act <| .same fun _ => .last fun _ => .look fun _ => .sayLast

theorem Erases.lmTrials (A : Arith F) (L : LinAlg F Fact) (env : Env F V) (J : SpMat F) (cost : F) :
    ∀ (k : Nat) (dx : List F), Erases Prod.fst (lmTrialsV A L env J cost k dx : SE (Talk F V Fact) _)
      (lmTrials A L env J cost k dx)
  | 0, dx => Erases.ret ((false, dx), 5)
  | k + 1, dx => by
    have ih := Erases.lmTrials A L env J cost k
    refine .get fun s => .act <| .act <| .act ?_
    dsimp only
    cases L.factorize (addDiagonal A (L.gram J) s.opt.stats.damping) with
    | none =>
      refine .same fun _ => .same fun _ => .look fun _ => .say ?_
      exact ih dx
    | some f =>
      refine .same fun _ => ?_
      split
      · exact .undefined
      split
      · refine .same fun _ => .look fun _ => .say ?_
        exact ih dx
      cases L.solve f (L.rhs J s.opt.residual1) with
      | none =>
        refine .same fun _ => .look fun _ => .say ?_
        exact ih _
      | some d =>
        refine .act <| .act <| .same fun _ => .act <| .act <| .same fun _ => .act <| .get fun s' => ?_
        split
        · refine .same fun _ => .look fun _ => .say ?_
          exact fun _ => rfl
        · refine .act <| .same fun _ => .same fun _ => .get fun s'' => .say ?_
          split
          · refine .say ?_
            exact fun _ => rfl
          · refine .act ?_
            exact ih _

theorem Erases.levenbergMarquardtStep (A : Arith F) (L : LinAlg F Fact) (env : Env F V) :
    Erases id (levenbergMarquardtStepV A L env : SE (Talk F V Fact) Unit) (levenbergMarquardtStep A L env) := by
  refine .get fun s0 => ?_
  split
  · exact .throw
  refine .act <| .same fun _ => .act <| .act <| .same fun J => .act <| .get fun s => .same fun _ =>
    .bind (.lmTrials A L env J _ 5 []) fun res => ?_
  rw [← bind_ret (if res.1.1 then _ else _)]
  refine .bind (f := id) ?_ fun _ => .look fun _ => .sayLast
  split
  · exact .silently _
  · exact .same fun _ => .say <| .same fun _ => .silently _

theorem Erases.oneStep (A : Arith F) (L : LinAlg F Fact) (env : Env F V) :
    Erases id (oneStepV A L env : SE (Talk F V Fact) Unit) (oneStep A L env) := by
  refine .get fun s => ?_
  cases s.opt.settings.method with
  | gaussNewton => exact .gaussNewtonStep A L env
  | levenbergMarquardt => exact .levenbergMarquardtStep A L env

theorem say_ok (a : Message F) (t : Talk F V Fact) : ∃ t1, Opt.say a t = (t1, .ok ()) ∧ t1.world = t.world := by
  simp only [Opt.say]
  split
  · exact ⟨_, rfl, rfl⟩
  · exact ⟨_, rfl, rfl⟩

theorem Erases.iterate (A : Arith F) (L : LinAlg F Fact) (env : Env F V) :
    ∀ n i, Erases id (iterateV A L env n i : SE (Talk F V Fact) Unit) (iterate A L env n)
  | 0, _ => Erases.ret ()
  | n + 1, i => by
    have ih := Erases.iterate A L env n (i + 1)
    intro t
    have hh : ∃ t1, sayHeader (n == 0) i t = (t1, .ok ()) ∧ t1.world = t.world := by
      simp only [sayHeader]
      split
      · exact say_ok _ t
      · exact ⟨t, rfl, rfl⟩
    obtain ⟨t1, h1, h2⟩ := hh
    have hb : iterateV A L env (n + 1) i t = SE.bind (sayHeader (n == 0) i) _ t := rfl
    rw [hb.trans (SE.bind_ok h1)]
    clear hb
    have h3 := Erases.oneStep A L env t1
    rw [h2] at h3
    rcases e : oneStepV A L env t1 with ⟨t', r⟩
    rw [e] at h3
    simp only [Opt.iterate, h3]
    cases r with
    | ub => rfl
    | threw => rfl
    | ok u =>
      simp only [mapRes, id]
      generalize hr : afterStep A t'.world.opt.settings t'.world.opt.initialStats t.world.opt.stats t'.world.opt.stats = r
      have hm : ∃ t2, sayIfAny (afterStepSays A t'.world.opt.settings t'.world.opt.initialStats t.world.opt.stats
          t'.world.opt.stats) t' = (t2, .ok ()) ∧ t2.world = t'.world := by
        cases afterStepSays A t'.world.opt.settings t'.world.opt.initialStats t.world.opt.stats t'.world.opt.stats with
        | some m => exact say_ok m t'
        | none => exact ⟨t', rfl, rfl⟩
      obtain ⟨t2, h4, h5⟩ := hm
      rw [SE.bind_ok h4]
      rw [SE.bind_ok (s' := (⟨{ t2.world with opt := { t2.world.opt with stats := r.1 } }, t2.acts⟩ : Talk F V Fact)) (a := ()) rfl]
      rw [← h5]
      cases r.2 with
      | true => rfl
      | false => exact ih (⟨{ t2.world with opt := { t2.world.opt with stats := r.1 } }, t2.acts⟩ : Talk F V Fact)

theorem Erases.optimize (A : Arith F) (L : LinAlg F Fact) (env : Env F V) :
    Erases id (optimizeV A L env : SE (Talk F V Fact) Unit) (optimize A L env) := by
  refine .get fun s0 => ?_
  split
  · exact .throw
  refine .same fun _ => .act <| .act <| .act <| .act <| .act <| .same fun r => .same fun _ => .same fun _ =>
    .look fun s1 => .say ?_
  refine .bind (Erases.iterate A L env _ 0) fun _ => .same fun _ => .look fun s2 => .say ?_
  exact .silently _

end Factorama.Opt
