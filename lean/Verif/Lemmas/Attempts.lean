import Verif.Lemmas.Mute

/-!
# Counting the attempts of Levenberg-Marquardt
-/

set_option linter.unusedSectionVars false

namespace Factorama.Opt
open Spec Graph
variable {F V Fact : Type} [Zero F] [VarLike F V]

theorem messages_append (l l' : List (Act F)) : messages (l ++ l') = messages l ++ messages l' := by
  induction l with
  | nil => rfl
  | cons a l ih => cases a <;> simp [messages, ih]

theorem attempts_append (l l' : List (Act F)) : attempts (l ++ l') = attempts l + attempts l' := by
  unfold attempts
  rw [messages_append, List.countP_append]

/-- Keeps the verbose flag and adds `n` attempts, when verbose. -/
def Tries {α : Type} (m : SE (Talk F V Fact) α) (t : Talk F V Fact) (P : α → Nat → Prop) : Prop :=
  ∀ t' a, m t = (t', .ok a) → t'.world.opt.settings.verbose = true ∧ ∃ l, t'.acts = t.acts ++ l ∧ P a (attempts l)

section
variable {α β : Type} {t : Talk F V Fact}

theorem Tries.bind {m : SE (Talk F V Fact) α} {k : α → SE (Talk F V Fact) β} {P : α → Nat → Prop} {Q : β → Nat → Prop}
    (hm : Tries m t P)
    (hk : ∀ t1 a n, t1.world.opt.settings.verbose = true → P a n → Tries (k a) t1 fun b n' => Q b (n + n')) :
    Tries (SE.bind m k) t Q := by
  intro t' b e
  obtain ⟨t1, a, e1, e2⟩ := SE.bind_ok_iff.1 e
  obtain ⟨h1, l, h2, h3⟩ := hm t1 a e1
  obtain ⟨h4, l', h5, h6⟩ := hk t1 a _ h1 h3 t' b e2
  exact ⟨h4, l ++ l', by rw [h5, h2, List.append_assoc], by rw [attempts_append]; exact h6⟩

theorem Tries.silently {m : SE (OptWorld F V Fact) α} (h : FlagBlind m) (hv : t.world.opt.settings.verbose = true) :
    Tries (silently m) t fun _ n => n = 0 := by
  intro t' a e
  have e1 : t' = ⟨(m t.world).1, t.acts⟩ := (congrArg Prod.fst e).symm
  rw [e1]
  exact ⟨(h.verbose _).trans hv, [], by simp, rfl⟩

theorem Tries.press {w : Watch} {p : Stopwatch.Press} (hv : t.world.opt.settings.verbose = true) :
    Tries (act (.press w p)) t fun _ n => n = 0 := by
  intro t' a e
  have e1 : t' = ⟨t.world, t.acts ++ [.press w p]⟩ := (congrArg Prod.fst e).symm
  rw [e1]
  exact ⟨hv, _, rfl, rfl⟩

theorem Tries.say {m : Message F} (hv : t.world.opt.settings.verbose = true) :
    Tries (say m) t fun _ n => n = if Message.reportsAttempt m then 1 else 0 := by
  intro t' a e
  rw [Opt.say, if_pos hv] at e
  have e1 : t' = ⟨t.world, t.acts ++ [.print m]⟩ := (congrArg Prod.fst e).symm
  rw [e1]
  refine ⟨hv, _, rfl, ?_⟩
  simp only [attempts, messages, List.countP_cons, List.countP_nil]
  split <;> simp_all

theorem Tries.ret {a : α} {P : α → Nat → Prop} (hv : t.world.opt.settings.verbose = true) (h : P a 0) :
    Tries (SE.ret a) t P := by
  intro t' b e
  have e1 : t' = t := (congrArg Prod.fst e).symm
  have e2 : Res.ok a = .ok b := congrArg Prod.snd e
  cases e2
  rw [e1]
  exact ⟨hv, [], by simp, h⟩

theorem Tries.undefined {P : α → Nat → Prop} : Tries (SE.undefined : SE (Talk F V Fact) α) t P := by
  intro t' b e
  simp [SE.undefined] at e

theorem Tries.throw {P : α → Nat → Prop} : Tries (SE.throw : SE (Talk F V Fact) α) t P := by
  intro t' b e
  simp [SE.throw] at e

theorem Tries.look {k : OptWorld F V Fact → SE (Talk F V Fact) β} {Q : β → Nat → Prop} (hk : Tries (k t.world) t Q) :
    Tries (SE.bind look k) t Q := hk

/-- Next comes something without attempts. -/
theorem Tries.then {m : SE (Talk F V Fact) α} {k : α → SE (Talk F V Fact) β} {Q : β → Nat → Prop}
    (hm : Tries m t fun _ n => n = 0) (hk : ∀ t1 a, t1.world.opt.settings.verbose = true → Tries (k a) t1 Q) :
    Tries (SE.bind m k) t Q :=
  .bind hm fun t1 a n hv hn => by subst hn; simpa using hk t1 a hv

/-- Next comes the message about an attempt. -/
theorem Tries.attempt {m : Message F} {k : Unit → SE (Talk F V Fact) β} {Q : β → Nat → Prop}
    (hm : Message.reportsAttempt m = true) (hv : t.world.opt.settings.verbose = true)
    (hk : ∀ t1 a, t1.world.opt.settings.verbose = true → Tries (k a) t1 fun b n => Q b (n + 1)) :
    Tries (SE.bind (Opt.say m) k) t Q :=
  .bind (.say hv) fun t1 a n hv hn => by
    rw [if_pos hm] at hn; subst hn
    intro t' b e
    obtain ⟨h1, l, h2, h3⟩ := hk t1 a hv t' b e
    exact ⟨h1, l, h2, by show Q b (1 + attempts l); rwa [Nat.add_comm]⟩

theorem Tries.mono {m : SE (Talk F V Fact) α} {P Q : α → Nat → Prop} (hm : Tries m t P) (h : ∀ a n, P a n → Q a n) :
    Tries m t Q := by
  intro t' a e
  obtain ⟨h1, l, h2, h3⟩ := hm t' a e
  exact ⟨h1, l, h2, h _ _ h3⟩
end

/-- The count of attempts after the trial loop. -/
def Count (k : Nat) (res : (Bool × List F) × Nat) (n : Nat) : Prop :=
  if res.1.1 then res.2 + 1 = 5 - k + n else res.2 = 5 - k + n

theorem Tries.lmTrials (A : Arith F) (L : LinAlg F Fact) (env : Env F V) (J : SpMat F) (cost : F) :
    ∀ (k : Nat) (dx : List F) (t : Talk F V Fact), k ≤ 5 → t.world.opt.settings.verbose = true →
      Tries (lmTrialsV A L env J cost k dx) t (Count k)
  | 0, dx, t, _, hv => .ret hv (by simp [Count])
  | k + 1, dx, t, hk, hv => by
    have ih : ∀ dx (t1 : Talk F V Fact), t1.world.opt.settings.verbose = true →
        Tries (lmTrialsV A L env J cost k dx) t1 fun b n => Count (k + 1) b (n + 1) := fun dx t1 hv1 =>
      (Tries.lmTrials A L env J cost k dx t1 (by omega) hv1).mono fun a n h => by
        unfold Count at *
        split at h
        · rw [if_pos (by assumption)]; omega
        · rw [if_neg (by assumption)]; omega
    refine .look <| .then (.press hv) fun t1 _ hv => .then (.press hv) fun t2 _ hv => .then (.press hv) fun t3 _ hv => ?_
    dsimp only
    split
    · exact .then (.silently (.setSolver _) hv) fun _ _ hv => .then (.silently (.raiseLambda A) hv) fun _ _ hv => .look <|
        .attempt rfl hv fun t4 _ hv => ih dx t4 hv
    · refine .then (.silently (.setSolver _) hv) fun _ _ hv => ?_
      split
      · exact .undefined
      split
      · exact .then (.silently (.raiseLambda A) hv) fun _ _ hv => .look <| .attempt rfl hv fun t4 _ hv => ih dx t4 hv
      split
      · exact .then (.silently (.raiseLambda A) hv) fun _ _ hv => .look <| .attempt rfl hv fun t4 _ hv => ih _ t4 hv
      · refine .then (.press hv) fun _ _ hv => .then (.press hv) fun _ _ hv => .then (.silently (.onHeap _) hv) fun _ _ hv =>
          .then (.press hv) fun _ _ hv => .then (.press hv) fun _ _ hv => .then (.silently (.evalResidual2 env) hv) fun _ _ hv =>
          .then (.press hv) fun _ _ hv => .look ?_
        split
        · refine .then (.silently (.modStats _) hv) fun _ _ hv => .look <| .attempt rfl hv fun t4 _ hv => .ret hv ?_
          simp only [Count, if_true]
        · refine .then (.press hv) fun _ _ hv => .then (.silently (.onHeap _) hv) fun _ _ hv =>
            .then (.silently (.modStats _) hv) fun _ _ hv => .look <| .attempt rfl hv fun t4 _ hv => ?_
          split
          · refine .then (.say hv) fun _ _ hv => .ret hv ?_
            simp only [Count, Bool.false_eq_true, if_false]
            omega
          · exact .then (.press hv) fun _ _ hv => ih _ _ hv

/-- A report of Levenberg-Marquardt among the new actions counts the attempts, those before included, and one more when no
step was accepted. -/
def CountsAt {α : Type} (n : Nat) (m : SE (Talk F V Fact) α) (t : Talk F V Fact) : Prop :=
  ∀ t' a, m t = (t', .ok a) → ∃ l, t'.acts = t.acts ++ l ∧ ∀ q d j acc, .print (.lmSummary q d j acc) ∈ l →
    j = n + attempts l + (if acc then 0 else 1)

theorem CountsAt.bind {α β : Type} {n : Nat} {m : SE (Talk F V Fact) α} {k : α → SE (Talk F V Fact) β} {t : Talk F V Fact}
    {P : α → Nat → Prop} (hq : Quiet m) (hm : Tries m t P)
    (hk : ∀ t1 a j, t1.world.opt.settings.verbose = true → P a j → CountsAt (n + j) (k a) t1) :
    CountsAt n (SE.bind m k) t := by
  intro t' b e
  obtain ⟨t1, a, e1, e2⟩ := SE.bind_ok_iff.1 e
  obtain ⟨h1, l, h2, h3⟩ := hm t1 a e1
  obtain ⟨l0, h4, h5⟩ := hq t
  rw [e1, h2] at h4
  have h6 := List.append_cancel_left h4
  subst h6
  obtain ⟨l', h7, h8⟩ := hk t1 a _ h1 h3 t' b e2
  refine ⟨l ++ l', by rw [h7, h2, List.append_assoc], fun q d j acc hj => ?_⟩
  rw [attempts_append]
  rcases List.mem_append.1 hj with hj | hj
  · exact absurd trivial (h5 _ hj _ rfl)
  · rw [h8 q d j acc hj]; omega

theorem CountsAt.then {α β : Type} {n : Nat} {m : SE (Talk F V Fact) α} {k : α → SE (Talk F V Fact) β} {t : Talk F V Fact}
    (hq : Quiet m) (hm : Tries m t fun _ j => j = 0)
    (hk : ∀ t1 a, t1.world.opt.settings.verbose = true → CountsAt n (k a) t1) : CountsAt n (SE.bind m k) t :=
  .bind hq hm fun t1 a j hv hj => by subst hj; exact hk t1 a hv

theorem CountsAt.look {β : Type} {n : Nat} {k : OptWorld F V Fact → SE (Talk F V Fact) β} {t : Talk F V Fact}
    (hk : CountsAt n (k t.world) t) : CountsAt n (SE.bind look k) t := hk

theorem CountsAt.step (A : Arith F) (L : LinAlg F Fact) (env : Env F V) (t : Talk F V Fact)
    (hv : t.world.opt.settings.verbose = true) (hm : t.world.opt.settings.method = .levenbergMarquardt) :
    CountsAt 0 (oneStepV A L env) t := by
  refine .look ?_
  rw [hm]
  refine .look ?_
  split
  · exact fun _ _ e => by simp [SE.throw] at e
  refine .then (.press _ _) (.press hv) fun _ _ hv => .then (.silently _) (.silently (.evalResidual1 env) hv) fun _ _ hv =>
    .then (.press _ _) (.press hv) fun _ _ hv => .then (.press _ _) (.press hv) fun _ _ hv =>
    .then (.silently _) (.silently .evalSparse hv) fun _ J hv => .then (.press _ _) (.press hv) fun _ _ hv => .look <|
    .then (.silently _) (.silently (.modStats _) hv) fun t1 _ hv =>
    .bind (Quiet.lmTrials A L env J _ 5 []) (Tries.lmTrials A L env J _ 5 [] t1 (Nat.le_refl 5) hv) fun t2 res j hv hj => ?_
  have hfin : ∀ t3 : Talk F V Fact, t3.world.opt.settings.verbose = true → CountsAt (0 + j) (SE.bind Opt.look fun s' =>
      Opt.say (.lmSummary (stepSummary A J s'.opt.stats s'.opt.residual1) s'.opt.stats.damping (res.2 + 1) res.1.1)) t3 := by
    intro t3 hv
    refine .look ?_
    intro t' a e
    rw [Opt.say, if_pos hv] at e
    have e1 : t' = ⟨t3.world, t3.acts ++ [.print _]⟩ := (congrArg Prod.fst e).symm
    rw [e1]
    refine ⟨_, rfl, fun q d i acc hi => ?_⟩
    simp only [List.mem_singleton, Act.print.injEq, Message.lmSummary.injEq] at hi
    obtain ⟨-, -, rfl, rfl⟩ := hi
    have h0 : attempts [Act.print (.lmSummary (stepSummary A J t3.world.opt.stats t3.world.opt.residual1)
        t3.world.opt.stats.damping (res.2 + 1) res.1.1)] = 0 := rfl
    rw [h0]
    unfold Count at hj
    split at hj
    · rw [if_pos (by assumption)]; omega
    · rw [if_neg (by assumption)]; omega
  split
  · exact .then (.silently _) (.silently (.get (fun _ _ _ => rfl) fun _ => .modStats _) hv) fun _ _ hv => hfin _ hv
  · refine .then (.bind (.silently _) fun _ => .bind (.say id) fun _ => .bind (.silently _) fun _ => .silently _)
      (.then (.silently ?_ hv) fun _ _ hv => .then (.say hv) fun _ _ hv => .then (.silently (fun _ _ _ => rfl) hv)
        fun _ _ hv => .silently (.get (fun _ _ _ => rfl) fun _ => .modStats _) hv) fun _ _ hv => hfin _ hv
    refine .get (fun _ _ _ => rfl) fun s => ?_
    split
    · exact .modStats _
    · exact .modStats _

end Factorama.Opt
