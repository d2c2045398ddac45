import Verif.Lemmas.Blind
import Verif.Lemmas.OptLoop
import Verif.Spec.LiveSettings

/-!
# A run does not look at the flags that guard the covariances
-/

namespace Factorama.Opt
open Spec Graph Life
variable {F V Fact : Type} [Zero F] [VarLike F V]

/-- Code that does not look at these flags, and keeps the graph. -/
abbrev FBlind {α : Type} (m : Bool × Bool) (g : Bool) (c : SE (OptWorld F V Fact) α) : Prop := Blind (reflag m) (fun s => s.opt.hasGraph = g) c

variable {m : Bool × Bool} {g : Bool}

theorem FBlind.stats (f : Stats F → Stats F) : FBlind m g (modStats f : SE (OptWorld F V Fact) Unit) :=
  .modify (fun _ _ => rfl) fun _ h => h

theorem FBlind.solver (f : Option Fact) : FBlind m g (modOpt fun o => { o with solver := f } : SE (OptWorld F V Fact) Unit) :=
  .modify (fun _ _ => rfl) fun _ h => h

theorem FBlind.raise (A : Arith F) : FBlind m g (raiseLambda A : SE (OptWorld F V Fact) Unit) :=
  .get (fun _ _ => rfl) fun _ _ => FBlind.stats _

theorem FBlind.eval1 (env : Env F V) : FBlind m g (evalResidual1 env : SE (OptWorld F V Fact) Unit) := fun _ h => ⟨rfl, h⟩
theorem FBlind.eval2 (env : Env F V) : FBlind m g (evalResidual2 env : SE (OptWorld F V Fact) Unit) := fun _ h => ⟨rfl, h⟩
theorem FBlind.sparse : FBlind m g (evalSparse : SE (OptWorld F V Fact) (SpMat F)) := fun _ h => ⟨rfl, h⟩
theorem FBlind.heap {α : Type} (c : Graph F V → SE (Heap V) α) : FBlind m g (onHeap c : SE (OptWorld F V Fact) α) := fun _ h => ⟨rfl, h⟩

theorem FBlind.gaussNewton (A : Arith F) (L : LinAlg F Fact) (env : Env F V) :
    FBlind m g (gaussNewtonStep A L env : SE (OptWorld F V Fact) Unit) := by
  refine .get (fun _ _ => rfl) fun s0 _ => ?_
  split
  · exact .throw
  · refine (FBlind.eval1 env).bind fun _ => FBlind.sparse.bind fun J => .get (fun _ _ => rfl) fun s _ => ?_
    dsimp only
    split
    · exact (FBlind.solver _).bind fun _ => FBlind.stats _
    · refine (FBlind.solver _).bind fun _ => ?_
      split
      · exact .undefined
      split
      · exact FBlind.stats _
      split
      · exact FBlind.stats _
      split
      · exact FBlind.stats _
      · exact (FBlind.heap _).bind fun _ => (FBlind.eval2 env).bind fun _ =>
          .get (fun _ _ => rfl) fun _ _ => FBlind.stats _

theorem FBlind.trials (A : Arith F) (L : LinAlg F Fact) (env : Env F V) (J : SpMat F) (cost : F) : ∀ k dx,
    FBlind m g (lmTrials A L env J cost k dx : SE (OptWorld F V Fact) (Bool × List F)) := by
  intro k
  induction k with
  | zero => intro _; exact .ret _
  | succ k ih =>
    intro dx
    refine .get (fun s hs => rfl) fun s hs => ?_
    dsimp only
    split
    · exact (FBlind.solver _).bind fun _ => (FBlind.raise A).bind fun _ => ih _
    · refine (FBlind.solver _).bind fun _ => ?_
      split
      · exact .undefined
      split
      · exact (FBlind.raise A).bind fun _ => ih _
      split
      · exact (FBlind.raise A).bind fun _ => ih _
      · refine (FBlind.heap _).bind fun _ => (FBlind.eval2 env).bind fun _ => .get (fun _ _ => rfl) fun s' _ => ?_
        split
        · exact (FBlind.stats _).bind fun _ => .ret _
        · refine (FBlind.heap _).bind fun _ => (FBlind.stats _).bind fun _ => .get (fun _ _ => rfl) fun s'' _ => ?_
          split
          · exact .ret _
          · exact ih _

theorem FBlind.levenbergMarquardt (A : Arith F) (L : LinAlg F Fact) (env : Env F V) :
    FBlind m g (levenbergMarquardtStep A L env : SE (OptWorld F V Fact) Unit) := by
  refine .get (fun _ _ => rfl) fun s0 _ => ?_
  split
  · exact .throw
  · refine (FBlind.eval1 env).bind fun _ => FBlind.sparse.bind fun J => .get (fun _ _ => rfl) fun s _ => ?_
    refine (FBlind.stats _).bind fun _ => (FBlind.trials A L env J _ 5 []).bind fun res => ?_
    split
    · exact .get (fun _ _ => rfl) fun _ _ => FBlind.stats _
    · refine Blind.bind (.get (fun _ _ => rfl) fun s' _ => ?_) fun _ => Blind.bind (.modify (fun _ _ => rfl) fun _ h => h) fun _ =>
        .get (fun _ _ => rfl) fun _ _ => FBlind.stats _
      split
      · exact FBlind.stats _
      · exact FBlind.stats _

theorem FBlind.oneStep (A : Arith F) (L : LinAlg F Fact) (env : Env F V) :
    FBlind m g (oneStep A L env : SE (OptWorld F V Fact) Unit) := by
  refine .get (fun _ _ => rfl) fun s _ => ?_
  split
  · exact FBlind.gaussNewton A L env
  · exact FBlind.levenbergMarquardt A L env

theorem FBlind.iterate (A : Arith F) (L : LinAlg F Fact) (env : Env F V) : ∀ n,
    FBlind m g (iterate A L env n : SE (OptWorld F V Fact) Unit) := by
  intro n
  induction n with
  | zero => exact .ret ()
  | succ n ih =>
    intro s hs
    obtain ⟨e, h1⟩ := FBlind.oneStep (m := m) (g := g) A L env s hs
    unfold Opt.iterate
    rw [e]
    rcases e' : Opt.oneStep A L env s with ⟨s', r⟩
    cases r with
    | ub => exact ⟨rfl, by rw [e'] at h1; exact h1⟩
    | threw => exact FBlind.stats _ s' (by rw [e'] at h1; exact h1)
    | ok _ =>
      dsimp only
      have hst : afterStep A (reflag m s').opt.settings (reflag m s').opt.initialStats (reflag m s).opt.stats
        (reflag m s').opt.stats = afterStep A s'.opt.settings s'.opt.initialStats s.opt.stats s'.opt.stats := rfl
      rw [hst]
      generalize afterStep A s'.opt.settings s'.opt.initialStats s.opt.stats s'.opt.stats = q
      split
      · exact ⟨rfl, by rw [e'] at h1; exact h1⟩
      · exact ih { s' with opt := { s'.opt with stats := q.1 } } (by rw [e'] at h1; exact h1)

theorem FBlind.initial (env : Env F V) : FBlind m g (evalInitial env : SE (OptWorld F V Fact) (List F)) := fun _ h => ⟨rfl, h⟩

/-- Two outcomes that differ in the flags at most, with the graph kept. -/
def FlagsApart {α : Type} (g : Bool) (x y : OptWorld F V Fact × Res α) : Prop :=
  y.2 = x.2 ∧ x.1.opt.hasGraph = g ∧ ∃ m, y.1 = reflag m x.1

omit [Zero F] [VarLike F V] in
theorem FBlind.then {α β : Type} {c : SE (OptWorld F V Fact) α} {k : α → SE (OptWorld F V Fact) β} (hc : FBlind m g c)
    (hk : ∀ a s m, s.opt.hasGraph = g → FlagsApart g (k a s) (k a (reflag m s))) (s : OptWorld F V Fact) (hs : s.opt.hasGraph = g) :
    FlagsApart g (SE.bind c k s) (SE.bind c k (reflag m s)) := by
  obtain ⟨e, h1⟩ := hc s hs
  unfold SE.bind
  rw [e]
  rcases h : c s with ⟨t, r⟩
  rw [h] at h1
  cases r with
  | ok a => exact hk a t m h1
  | threw => exact ⟨rfl, h1, m, rfl⟩
  | ub => exact ⟨rfl, h1, m, rfl⟩

/-- `optimize()` does the same whatever the flags are. -/
theorem optimize_reflag (A : Arith F) (L : LinAlg F Fact) (env : Env F V) (s : OptWorld F V Fact) (m : Bool × Bool) :
    FlagsApart s.opt.hasGraph (optimize A L env s) (optimize A L env (reflag m s)) := by
  unfold optimize
  simp only [SE.bind_get]
  rw [show (reflag m s).opt.hasGraph = s.opt.hasGraph from rfl, show (reflag m s).opt.settings = s.opt.settings from rfl]
  split
  · exact ⟨rfl, rfl, m, rfl⟩
  · refine FBlind.then (.stats _) (fun _ s m hs => ?_) s rfl
    refine FBlind.then (.initial env) (fun _ s m hs => ?_) s hs
    refine FBlind.then (.stats _) (fun _ s m hs => ?_) s hs
    refine FBlind.then (c := modOpt fun o => { o with initialStats := o.stats }) (.modify (fun _ _ => rfl) fun _ h => h) (fun _ s m hs => ?_) s hs
    refine FBlind.then (.iterate A L env _) (fun _ s m hs => ?_) s hs
    refine FBlind.then (.stats _) (fun _ s m hs => ?_) s hs
    exact ⟨rfl, hs, (true, m.2), rfl⟩

end Factorama.Opt
