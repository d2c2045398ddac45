import Verif.Lemmas.OptLoop

/-!
# The flags `verbose` and `check_rank_deficiency` and the statistic `rank` take no part in the computations
-/

namespace Factorama.Opt
open Spec Graph
variable {F V Fact : Type} [Zero F] [VarLike F V]

/-- The state with other flags. -/
def withFlags (v c : Bool) (s : OptWorld F V Fact) : OptWorld F V Fact :=
  { s with opt := { s.opt with settings := { s.opt.settings with verbose := v, checkRankDeficiency := c } } }

/-- A computation that runs in the same way whatever the flags are. -/
def FlagBlind {α : Type} (m : SE (OptWorld F V Fact) α) : Prop :=
  ∀ v c s, m (withFlags v c s) = (withFlags v c (m s).1, (m s).2)

section
variable {α β : Type}

theorem FlagBlind.bind {m : SE (OptWorld F V Fact) α} {k : α → SE (OptWorld F V Fact) β} (hm : FlagBlind m)
    (hk : ∀ a, FlagBlind (k a)) : FlagBlind (SE.bind m k) := by
  intro v c s
  have h := hm v c s
  rcases e : m s with ⟨s1, r⟩
  rw [e] at h
  cases r with
  | ok a => rw [SE.bind_ok e, SE.bind_ok h]; exact hk a v c s1
  | threw => rw [SE.bind_threw e, SE.bind_threw h]
  | ub => rw [SE.bind_ub e, SE.bind_ub h]

theorem FlagBlind.get {k : OptWorld F V Fact → SE (OptWorld F V Fact) β} (h1 : ∀ v c s, k (withFlags v c s) = k s)
    (h2 : ∀ s, FlagBlind (k s)) : FlagBlind (SE.bind SE.get k) := by
  intro v c s
  show k (withFlags v c s) (withFlags v c s) = _
  rw [h1]
  exact h2 s v c s

theorem FlagBlind.ret (a : α) : FlagBlind (SE.ret a : SE (OptWorld F V Fact) α) := fun _ _ _ => rfl
theorem FlagBlind.throw : FlagBlind (SE.throw : SE (OptWorld F V Fact) α) := fun _ _ _ => rfl
theorem FlagBlind.undefined : FlagBlind (SE.undefined : SE (OptWorld F V Fact) α) := fun _ _ _ => rfl
theorem FlagBlind.lift (r : Res α) : FlagBlind (SE.lift r : SE (OptWorld F V Fact) α) := fun _ _ _ => rfl
end

theorem FlagBlind.modStats (f : Stats F → Stats F) : FlagBlind (modStats f : SE (OptWorld F V Fact) Unit) :=
  fun _ _ _ => rfl
theorem FlagBlind.setSolver (f : Option Fact) :
    FlagBlind (modOpt fun o => { o with solver := f } : SE (OptWorld F V Fact) Unit) := fun _ _ _ => rfl
theorem FlagBlind.onHeap {α : Type} (m : Graph F V → SE (Heap V) α) :
    FlagBlind (onHeap m : SE (OptWorld F V Fact) α) := fun _ _ _ => rfl
theorem FlagBlind.evalResidual1 (env : Env F V) : FlagBlind (evalResidual1 env : SE (OptWorld F V Fact) Unit) :=
  fun _ _ _ => rfl
theorem FlagBlind.evalResidual2 (env : Env F V) : FlagBlind (evalResidual2 env : SE (OptWorld F V Fact) Unit) :=
  fun _ _ _ => rfl
theorem FlagBlind.evalSparse : FlagBlind (evalSparse : SE (OptWorld F V Fact) (SpMat F)) := fun _ _ _ => rfl
theorem FlagBlind.evalInitial (env : Env F V) : FlagBlind (evalInitial env : SE (OptWorld F V Fact) (List F)) :=
  fun _ _ _ => rfl
theorem FlagBlind.raiseLambda (A : Arith F) : FlagBlind (raiseLambda A : SE (OptWorld F V Fact) Unit) :=
  fun _ _ _ => rfl

theorem FlagBlind.gaussNewtonStep (A : Arith F) (L : LinAlg F Fact) (env : Env F V) :
    FlagBlind (gaussNewtonStep A L env : SE (OptWorld F V Fact) Unit) := by
  refine .get (fun _ _ _ => rfl) fun s0 => ?_
  split
  · exact .throw
  refine .bind (.evalResidual1 env) fun _ => .bind .evalSparse fun J => .get (fun _ _ _ => rfl) fun s => ?_
  dsimp only
  split
  · exact .bind (.setSolver _) fun _ => .modStats _
  · refine .bind (.setSolver _) fun _ => ?_
    split
    · exact .undefined
    split
    · exact .modStats _
    split
    · exact .modStats _
    split
    · exact .modStats _
    · exact .bind (.onHeap _) fun _ => .bind (.evalResidual2 env) fun _ => .get (fun _ _ _ => rfl) fun _ => .modStats _

theorem FlagBlind.lmTrials (A : Arith F) (L : LinAlg F Fact) (env : Env F V) (J : SpMat F) (cost : F) :
    ∀ (k : Nat) (dx : List F), FlagBlind (lmTrials A L env J cost k dx : SE (OptWorld F V Fact) (Bool × List F))
  | 0, _ => .ret _
  | k + 1, dx => by
    have ih := FlagBlind.lmTrials A L env J cost k
    refine .get (fun _ _ _ => rfl) fun s => ?_
    dsimp only
    split
    · exact .bind (.setSolver _) fun _ => .bind (.raiseLambda A) fun _ => ih _
    · refine .bind (.setSolver _) fun _ => ?_
      split
      · exact .undefined
      split
      · exact .bind (.raiseLambda A) fun _ => ih _
      split
      · exact .bind (.raiseLambda A) fun _ => ih _
      · refine .bind (.onHeap _) fun _ => .bind (.evalResidual2 env) fun _ => .get (fun _ _ _ => rfl) fun s' => ?_
        split
        · exact .bind (.modStats _) fun _ => .ret _
        · refine .bind (.onHeap _) fun _ => .bind (.modStats _) fun _ => .get (fun _ _ _ => rfl) fun s'' => ?_
          split
          · exact .ret _
          · exact ih _

theorem FlagBlind.levenbergMarquardtStep (A : Arith F) (L : LinAlg F Fact) (env : Env F V) :
    FlagBlind (levenbergMarquardtStep A L env : SE (OptWorld F V Fact) Unit) := by
  refine .get (fun _ _ _ => rfl) fun s0 => ?_
  split
  · exact .throw
  refine .bind (.evalResidual1 env) fun _ => .bind .evalSparse fun J => .get (fun _ _ _ => rfl) fun s => ?_
  dsimp only
  refine .bind (.modStats _) fun _ => .bind (.lmTrials A L env J _ 5 []) fun res => ?_
  split
  · exact .get (fun _ _ _ => rfl) fun _ => .modStats _
  · refine .bind (.get (fun _ _ _ => rfl) fun s => ?_) fun _ => .bind (fun _ _ _ => rfl) fun _ =>
      .get (fun _ _ _ => rfl) fun _ => .modStats _
    split
    · exact .modStats _
    · exact .modStats _

theorem FlagBlind.oneStep (A : Arith F) (L : LinAlg F Fact) (env : Env F V) :
    FlagBlind (oneStep A L env : SE (OptWorld F V Fact) Unit) := by
  refine .get (fun _ _ _ => rfl) fun s => ?_
  split
  · exact .gaussNewtonStep A L env
  · exact .levenbergMarquardtStep A L env

theorem FlagBlind.iterate (A : Arith F) (L : LinAlg F Fact) (env : Env F V) :
    ∀ n, FlagBlind (iterate A L env n : SE (OptWorld F V Fact) Unit)
  | 0 => .ret _
  | n + 1 => by
    intro v c s
    have h := FlagBlind.oneStep A L env v c s
    rcases e : Opt.oneStep A L env s with ⟨s', r⟩
    rw [e] at h
    simp only [Opt.iterate, e, h]
    cases r with
    | ub => rfl
    | threw => rfl
    | ok u =>
      dsimp only
      have ha : afterStep A (withFlags v c s').opt.settings (withFlags v c s').opt.initialStats (withFlags v c s).opt.stats
          (withFlags v c s').opt.stats =
          afterStep A s'.opt.settings s'.opt.initialStats s.opt.stats s'.opt.stats := rfl
      rw [ha]
      generalize afterStep A s'.opt.settings s'.opt.initialStats s.opt.stats s'.opt.stats = p
      cases p.2 with
      | true => rfl
      | false => exact FlagBlind.iterate A L env n v c { s' with opt := { s'.opt with stats := p.1 } }

theorem FlagBlind.optimize (A : Arith F) (L : LinAlg F Fact) (env : Env F V) :
    FlagBlind (optimize A L env : SE (OptWorld F V Fact) Unit) := by
  refine .get (fun _ _ _ => rfl) fun s0 => ?_
  split
  · exact .throw
  · exact .bind (.modStats _) fun _ => .bind (.evalInitial env) fun _ => .bind (.modStats _) fun _ =>
      .bind (fun _ _ _ => rfl) fun _ => .bind (.iterate A L env _) fun _ => .bind (.modStats _) fun _ => fun _ _ _ => rfl

theorem FlagBlind.prepare (A : Arith F) (L : LinAlg F Fact) : FlagBlind (prepare A L : SE (OptWorld F V Fact) Unit) := by
  refine .get (fun _ _ _ => rfl) fun s => ?_
  split
  · exact .ret _
  split
  · exact .ret _
  refine .bind (.lift _) fun J => ?_
  dsimp only
  split
  · exact fun _ _ _ => rfl
  · split
    · exact .bind (fun _ _ _ => rfl) fun _ => .undefined
    · exact fun _ _ _ => rfl


/-! ### The statistic `rank` -/

/-- Neither the current nor the initial statistics hold a rank. -/
def NoRank (s : OptWorld F V Fact) : Prop := s.opt.stats.rank = -1 ∧ s.opt.initialStats.rank = -1

/-- A computation that computes no rank. -/
def Rankless {α : Type} (m : SE (OptWorld F V Fact) α) : Prop := ∀ s, NoRank s → NoRank (m s).1

section
variable {α β : Type}

theorem Rankless.bind {m : SE (OptWorld F V Fact) α} {k : α → SE (OptWorld F V Fact) β} (hm : Rankless m)
    (hk : ∀ a, Rankless (k a)) : Rankless (SE.bind m k) := by
  intro s hs
  have h := hm s hs
  rcases e : m s with ⟨s1, r⟩
  rw [e] at h
  cases r with
  | ok a => rw [SE.bind_ok e]; exact hk a s1 h
  | threw => rw [SE.bind_threw e]; exact h
  | ub => rw [SE.bind_ub e]; exact h

theorem Rankless.get {k : OptWorld F V Fact → SE (OptWorld F V Fact) β} (h : ∀ s, Rankless (k s)) :
    Rankless (SE.bind SE.get k) := fun s hs => h s s hs

theorem Rankless.ret (a : α) : Rankless (SE.ret a : SE (OptWorld F V Fact) α) := fun _ h => h
theorem Rankless.throw : Rankless (SE.throw : SE (OptWorld F V Fact) α) := fun _ h => h
theorem Rankless.undefined : Rankless (SE.undefined : SE (OptWorld F V Fact) α) := fun _ h => h
theorem Rankless.lift (r : Res α) : Rankless (SE.lift r : SE (OptWorld F V Fact) α) := fun _ h => h
end

theorem Rankless.modStats {f : Stats F → Stats F} (h : ∀ st, st.rank = -1 → (f st).rank = -1) :
    Rankless (modStats f : SE (OptWorld F V Fact) Unit) := fun _ hs => ⟨h _ hs.1, hs.2⟩
theorem Rankless.setSolver (f : Option Fact) :
    Rankless (modOpt fun o => { o with solver := f } : SE (OptWorld F V Fact) Unit) := fun _ h => h
theorem Rankless.onHeap {α : Type} (m : Graph F V → SE (Heap V) α) :
    Rankless (onHeap m : SE (OptWorld F V Fact) α) := fun _ h => h
theorem Rankless.evalResidual1 (env : Env F V) : Rankless (evalResidual1 env : SE (OptWorld F V Fact) Unit) :=
  fun _ h => h
theorem Rankless.evalResidual2 (env : Env F V) : Rankless (evalResidual2 env : SE (OptWorld F V Fact) Unit) :=
  fun _ h => h
theorem Rankless.evalSparse : Rankless (evalSparse : SE (OptWorld F V Fact) (SpMat F)) := fun _ h => h
theorem Rankless.evalInitial (env : Env F V) : Rankless (evalInitial env : SE (OptWorld F V Fact) (List F)) :=
  fun _ h => h
theorem Rankless.raiseLambda (A : Arith F) : Rankless (raiseLambda A : SE (OptWorld F V Fact) Unit) :=
  fun _ h => h

theorem Rankless.gaussNewtonStep (A : Arith F) (L : LinAlg F Fact) (env : Env F V) :
    Rankless (gaussNewtonStep A L env : SE (OptWorld F V Fact) Unit) := by
  refine .get fun s0 => ?_
  split
  · exact .throw
  refine .bind (.evalResidual1 env) fun _ => .bind .evalSparse fun J => .get fun s => ?_
  dsimp only
  split
  · exact .bind (.setSolver _) fun _ => .modStats fun _ h => h
  · refine .bind (.setSolver _) fun _ => ?_
    split
    · exact .undefined
    split
    · exact .modStats fun _ h => h
    split
    · exact .modStats fun _ h => h
    split
    · exact .modStats fun _ h => h
    · exact .bind (.onHeap _) fun _ => .bind (.evalResidual2 env) fun _ => .get fun _ => .modStats fun _ h => h

theorem Rankless.lmTrials (A : Arith F) (L : LinAlg F Fact) (env : Env F V) (J : SpMat F) (cost : F) :
    ∀ (k : Nat) (dx : List F), Rankless (lmTrials A L env J cost k dx : SE (OptWorld F V Fact) (Bool × List F))
  | 0, _ => .ret _
  | k + 1, dx => by
    have ih := Rankless.lmTrials A L env J cost k
    refine .get fun s => ?_
    dsimp only
    split
    · exact .bind (.setSolver _) fun _ => .bind (.raiseLambda A) fun _ => ih _
    · refine .bind (.setSolver _) fun _ => ?_
      split
      · exact .undefined
      split
      · exact .bind (.raiseLambda A) fun _ => ih _
      split
      · exact .bind (.raiseLambda A) fun _ => ih _
      · refine .bind (.onHeap _) fun _ => .bind (.evalResidual2 env) fun _ => .get fun s' => ?_
        split
        · exact .bind (.modStats fun _ h => h) fun _ => .ret _
        · refine .bind (.onHeap _) fun _ => .bind (.modStats fun _ h => h) fun _ => .get fun s'' => ?_
          split
          · exact .ret _
          · exact ih _

theorem Rankless.levenbergMarquardtStep (A : Arith F) (L : LinAlg F Fact) (env : Env F V) :
    Rankless (levenbergMarquardtStep A L env : SE (OptWorld F V Fact) Unit) := by
  refine .get fun s0 => ?_
  split
  · exact .throw
  refine .bind (.evalResidual1 env) fun _ => .bind .evalSparse fun J => .get fun s => ?_
  dsimp only
  refine .bind (.modStats fun _ h => by split <;> exact h) fun _ => .bind (.lmTrials A L env J _ 5 []) fun res => ?_
  split
  · exact .get fun _ => .modStats fun _ h => h
  · refine .bind (.get fun s => ?_) fun _ => .bind (fun _ h => h) fun _ =>
      .get fun _ => .modStats fun _ h => h
    split
    · exact .modStats fun _ h => h
    · exact .modStats fun _ h => h

theorem Rankless.oneStep (A : Arith F) (L : LinAlg F Fact) (env : Env F V) :
    Rankless (oneStep A L env : SE (OptWorld F V Fact) Unit) := by
  refine .get fun s => ?_
  split
  · exact .gaussNewtonStep A L env
  · exact .levenbergMarquardtStep A L env

theorem afterStep_rank (A : Arith F) (settings : Settings F) (init prev st : Stats F) :
    (afterStep A settings init prev st).1.rank = st.rank := by
  simp only [afterStep]
  repeat' split
  all_goals rfl

theorem Rankless.iterate (A : Arith F) (L : LinAlg F Fact) (env : Env F V) :
    ∀ n, Rankless (iterate A L env n : SE (OptWorld F V Fact) Unit)
  | 0 => .ret _
  | n + 1 => by
    intro s hs
    have h := Rankless.oneStep A L env s hs
    rcases e : Opt.oneStep A L env s with ⟨s', r⟩
    rw [e] at h
    simp only [Opt.iterate, e]
    cases r with
    | ub => exact h
    | threw => exact h
    | ok u =>
      dsimp only
      have ha := afterStep_rank A s'.opt.settings s'.opt.initialStats s.opt.stats s'.opt.stats
      generalize afterStep A s'.opt.settings s'.opt.initialStats s.opt.stats s'.opt.stats = p at ha ⊢
      have hp : NoRank { s' with opt := { s'.opt with stats := p.1 } } := ⟨ha.trans h.1, h.2⟩
      cases p.2 with
      | true => exact hp
      | false => exact Rankless.iterate A L env n _ hp

theorem Rankless.optimize (A : Arith F) (L : LinAlg F Fact) (env : Env F V) :
    Rankless (optimize A L env : SE (OptWorld F V Fact) Unit) := by
  refine .get fun s0 => ?_
  split
  · exact .throw
  · exact .bind (.modStats fun _ _ => rfl) fun _ => .bind (.evalInitial env) fun _ => .bind (.modStats fun _ h => h) fun _ =>
      .bind (fun _ h => ⟨h.1, h.1⟩) fun _ => .bind (.iterate A L env _) fun _ =>
      .bind (.modStats fun _ h => by split <;> exact h) fun _ => fun _ h => h

theorem Rankless.prepare (A : Arith F) (L : LinAlg F Fact) : Rankless (prepare A L : SE (OptWorld F V Fact) Unit) := by
  refine .get fun s => ?_
  split
  · exact .ret _
  split
  · exact .ret _
  refine .bind (.lift _) fun J => ?_
  dsimp only
  split
  · exact fun _ h => h
  · split
    · exact .bind (fun _ h => h) fun _ => .undefined
    · exact fun _ h => h

end Factorama.Opt
