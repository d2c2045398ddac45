import Verif.Lemmas.Blind
import Verif.Lemmas.OptLoop
import Verif.Spec.Limit

/-!
# A single iteration does not look at the iteration limit
-/

namespace Factorama.Opt
open Spec Graph Life
variable {F V Fact : Type} [Zero F] [VarLike F V]

/-- Code that does not look at the iteration limit. -/
abbrev LBlind {α : Type} (m : Nat) (c : SE (OptWorld F V Fact) α) : Prop := Blind (withLimit m) (fun _ => True) c

variable {m : Nat}

theorem LBlind.stats (f : Stats F → Stats F) : LBlind m (modStats f : SE (OptWorld F V Fact) Unit) :=
  .modify (fun _ _ => rfl) fun _ h => h

theorem LBlind.solver (f : Option Fact) : LBlind m (modOpt fun o => { o with solver := f } : SE (OptWorld F V Fact) Unit) :=
  .modify (fun _ _ => rfl) fun _ h => h

theorem LBlind.raise (A : Arith F) : LBlind m (raiseLambda A : SE (OptWorld F V Fact) Unit) :=
  .get (fun _ _ => rfl) fun _ _ => LBlind.stats _

theorem LBlind.eval1 (env : Env F V) : LBlind m (evalResidual1 env : SE (OptWorld F V Fact) Unit) := fun _ _ => ⟨rfl, trivial⟩
theorem LBlind.eval2 (env : Env F V) : LBlind m (evalResidual2 env : SE (OptWorld F V Fact) Unit) := fun _ _ => ⟨rfl, trivial⟩
theorem LBlind.sparse : LBlind m (evalSparse : SE (OptWorld F V Fact) (SpMat F)) := fun _ _ => ⟨rfl, trivial⟩
theorem LBlind.heap {α : Type} (c : Graph F V → SE (Heap V) α) : LBlind m (onHeap c : SE (OptWorld F V Fact) α) := fun _ _ => ⟨rfl, trivial⟩

theorem LBlind.gaussNewton (A : Arith F) (L : LinAlg F Fact) (env : Env F V) :
    LBlind m (gaussNewtonStep A L env : SE (OptWorld F V Fact) Unit) := by
  refine .get (fun _ _ => rfl) fun s0 _ => ?_
  split
  · exact .throw
  · refine (LBlind.eval1 env).bind fun _ => LBlind.sparse.bind fun J => .get (fun _ _ => rfl) fun s _ => ?_
    dsimp only
    split
    · exact (LBlind.solver _).bind fun _ => LBlind.stats _
    · refine (LBlind.solver _).bind fun _ => ?_
      split
      · exact .undefined
      split
      · exact LBlind.stats _
      split
      · exact LBlind.stats _
      split
      · exact LBlind.stats _
      · exact (LBlind.heap _).bind fun _ => (LBlind.eval2 env).bind fun _ =>
          .get (fun _ _ => rfl) fun _ _ => LBlind.stats _

theorem LBlind.trials (A : Arith F) (L : LinAlg F Fact) (env : Env F V) (J : SpMat F) (cost : F) : ∀ k dx,
    LBlind m (lmTrials A L env J cost k dx : SE (OptWorld F V Fact) (Bool × List F)) := by
  intro k
  induction k with
  | zero => intro _; exact .ret _
  | succ k ih =>
    intro dx
    refine .get (fun s hs => rfl) fun s hs => ?_
    dsimp only
    split
    · exact (LBlind.solver _).bind fun _ => (LBlind.raise A).bind fun _ => ih _
    · refine (LBlind.solver _).bind fun _ => ?_
      split
      · exact .undefined
      split
      · exact (LBlind.raise A).bind fun _ => ih _
      split
      · exact (LBlind.raise A).bind fun _ => ih _
      · refine (LBlind.heap _).bind fun _ => (LBlind.eval2 env).bind fun _ => .get (fun _ _ => rfl) fun s' _ => ?_
        split
        · exact (LBlind.stats _).bind fun _ => .ret _
        · refine (LBlind.heap _).bind fun _ => (LBlind.stats _).bind fun _ => .get (fun _ _ => rfl) fun s'' _ => ?_
          split
          · exact .ret _
          · exact ih _

theorem LBlind.levenbergMarquardt (A : Arith F) (L : LinAlg F Fact) (env : Env F V) :
    LBlind m (levenbergMarquardtStep A L env : SE (OptWorld F V Fact) Unit) := by
  refine .get (fun _ _ => rfl) fun s0 _ => ?_
  split
  · exact .throw
  · refine (LBlind.eval1 env).bind fun _ => LBlind.sparse.bind fun J => .get (fun _ _ => rfl) fun s _ => ?_
    refine (LBlind.stats _).bind fun _ => (LBlind.trials A L env J _ 5 []).bind fun res => ?_
    split
    · exact .get (fun _ _ => rfl) fun _ _ => LBlind.stats _
    · refine Blind.bind (.get (fun _ _ => rfl) fun s' _ => ?_) fun _ => Blind.bind (.modify (fun _ _ => rfl) fun _ h => h) fun _ =>
        .get (fun _ _ => rfl) fun _ _ => LBlind.stats _
      split
      · exact LBlind.stats _
      · exact LBlind.stats _

theorem LBlind.oneStep (A : Arith F) (L : LinAlg F Fact) (env : Env F V) :
    LBlind m (oneStep A L env : SE (OptWorld F V Fact) Unit) := by
  refine .get (fun _ _ => rfl) fun s _ => ?_
  split
  · exact LBlind.gaussNewton A L env
  · exact LBlind.levenbergMarquardt A L env

theorem afterStep_limit (A : Arith F) (settings : Settings F) (init prev st : Stats F) (m : Nat) :
    afterStep A { settings with maxIterations := m } init prev st = afterStep A settings init prev st := rfl

theorem LBlind.iterate (A : Arith F) (L : LinAlg F Fact) (env : Env F V) : ∀ n,
    LBlind m (iterate A L env n : SE (OptWorld F V Fact) Unit) := by
  intro n
  induction n with
  | zero => exact .ret ()
  | succ n ih =>
    intro s hs
    obtain ⟨e, h1⟩ := LBlind.oneStep (m := m) A L env s hs
    unfold Opt.iterate
    rw [e]
    rcases e' : Opt.oneStep A L env s with ⟨s', r⟩
    cases r with
    | ub => exact ⟨rfl, trivial⟩
    | threw => exact LBlind.stats _ s' trivial
    | ok _ =>
      dsimp only
      have hst : afterStep A (withLimit m s').opt.settings (withLimit m s').opt.initialStats (withLimit m s).opt.stats
        (withLimit m s').opt.stats = afterStep A s'.opt.settings s'.opt.initialStats s.opt.stats s'.opt.stats := rfl
      rw [hst]
      generalize afterStep A s'.opt.settings s'.opt.initialStats s.opt.stats s'.opt.stats = q
      split
      · exact ⟨rfl, trivial⟩
      · exact ih { s' with opt := { s'.opt with stats := q.1 } } trivial

/-- The iterations of the runs with two limits. -/
theorem iterations_limit {A : Arith F} {L : LinAlg F Fact} {env : Env F V} {k : Nat} {s0 s1 : OptWorld F V Fact} (m : Nat)
    (hit : Iterations A L env k s0 s1) : Iterations A L env k (withLimit m s0) (withLimit m s1) := by
  induction hit with
  | zero => exact .zero _
  | @succ k s0 s s' _ ho ha ih =>
    refine .succ ih ?_ ha
    rw [(LBlind.oneStep (m := m) A L env s trivial).1, ho]

theorem iterations_append {A : Arith F} {L : LinAlg F Fact} {env : Env F V} {n k : Nat} {s0 s1 s2 : OptWorld F V Fact}
    (h1 : Iterations A L env n s0 s1) (h2 : Iterations A L env k s1 s2) : Iterations A L env (n + k) s0 s2 := by
  induction h2 with
  | zero => exact h1
  | succ _ ho ha ih => exact .succ (ih h1) ho ha

/-- Either the loop is left before the limit is reached, and does the same with any larger limit, or it goes on. -/
theorem iterate_more (A : Arith F) (L : LinAlg F Fact) (env : Env F V) (n d : Nat) (s : OptWorld F V Fact) :
    iterate A L env (n + d) s = iterate A L env n s ∨
    ∃ s1, Iterations A L env n s s1 ∧ iterate A L env n s = (s1, .ok ()) ∧ iterate A L env (n + d) s = iterate A L env d s1 := by
  have h := iterate_ends A L env s n 0 s (.zero _)
  rw [Nat.zero_add] at h
  generalize he : iterate A L env n s = o at h
  cases h with
  | budget hit => exact .inr ⟨_, hit, rfl, iterations_iterate hit d⟩
  | @ub k s1 s2 hk hit ho =>
    left
    obtain ⟨e, rfl⟩ : ∃ e, n = k + (e + 1) := ⟨n - k - 1, by omega⟩
    rw [show k + (e + 1) + d = k + (e + d + 1) by omega, iterations_iterate hit]
    simp only [iterate, ho]
  | @threw k s1 s2 hk hit ho =>
    left
    obtain ⟨e, rfl⟩ : ∃ e, n = k + (e + 1) := ⟨n - k - 1, by omega⟩
    rw [show k + (e + 1) + d = k + (e + d + 1) by omega, iterations_iterate hit]
    simp only [iterate, ho]
  | @check k s1 s2 st hk hit ho ha =>
    left
    obtain ⟨e, rfl⟩ : ∃ e, n = k + (e + 1) := ⟨n - k - 1, by omega⟩
    rw [show k + (e + 1) + d = k + (e + d + 1) by omega, iterations_iterate hit]
    simp only [iterate, ho, ha, if_true]

end Factorama.Opt
