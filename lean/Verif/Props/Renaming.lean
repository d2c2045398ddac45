import Verif.Lemmas.RenamingRun
import Verif.Examples.ToyOpt

/-!
# C132: identifiers are only names
-/

namespace Factorama.Props
open Spec Graph Opt
variable {F V Fact : Type} [Zero F] [VarLike F V] [LawfulVar F V]

namespace C132
/-- Generic variables that are the same up to their ids. -/
def Same {F : Type} (v v' : GenVar F) : Prop := v'.isConst = v.isConst ∧ v'.value = v.value

theorem same_differ {F : Type} [Add F] : DifferInId (F := F) (Same (F := F)) where
  isConst _ _ h := h.1
  size _ _ h := congrArg List.length h.2
  value _ _ h := h.2
  setConst _ _ _ h := ⟨rfl, h.2⟩
  setValue v v' x h := by
    simp only [VarLike.setValue, GenVar.setValue, h.2]
    split
    · trivial
    · exact ⟨h.1, rfl⟩
  applyIncr v v' x h := by
    simp only [VarLike.applyIncr, GenVar.applyIncr, h.2]
    split
    · trivial
    · exact ⟨h.1, rfl⟩

theorem prior_ignores {F : Type} [Zero F] [Add F] [Sub F] [Mul F] [Neg F] (id : Int) (r : VRef) (p : List F) (w : F) :
    IgnoresIds Same (genericPrior id r p w : Factor F (GenVar F)) := by
  intro h h' hh
  have e1 : VarLike.value (h' r) = VarLike.value (h r) := (hh r).2
  have e2 : VarLike.isConst (h' r) = VarLike.isConst (h r) := (hh r).1
  simp only [genericPrior, e1, e2, implies_true, and_self]

theorem between_ignores {F : Type} [Zero F] [Add F] [Sub F] [Mul F] [Neg F] (id : Int) (a b m : VRef) (n : Nat) (w : F) :
    IgnoresIds Same (genericBetween id a b m n w : Factor F (GenVar F)) := by
  intro h h' hh
  have e1 := fun r => show VarLike.value (h' r) = VarLike.value (h r) from (hh r).2
  have e2 := fun r => show VarLike.isConst (h' r) = VarLike.isConst (h r) from (hh r).1
  simp only [genericBetween, betweenBlock, e1, e2, implies_true, and_self]

/-- Three variables with the ids 3, 1, 8 in place of 1, 2, 3. -/
def heap' : Heap (GenVar Rat)
  | 0 => ⟨3, false, [5, 7]⟩
  | 1 => ⟨1, false, [1, 1]⟩
  | _ => ⟨8, true, [0, 1]⟩

theorem other : OtherIds (F := Rat) Same ToyOpt.heap heap' := by
  constructor
  · intro r
    match r with
    | 0 => exact ⟨rfl, rfl⟩
    | 1 => exact ⟨rfl, rfl⟩
    | _ + 2 => exact ⟨rfl, rfl⟩
  · intro r r'
    have key : ∀ r, (VarLike.id (F := Rat) (ToyOpt.heap r) = 1 ∧ VarLike.id (F := Rat) (heap' r) = 3) ∨
        (VarLike.id (F := Rat) (ToyOpt.heap r) = 2 ∧ VarLike.id (F := Rat) (heap' r) = 1) ∨
        (VarLike.id (F := Rat) (ToyOpt.heap r) = 3 ∧ VarLike.id (F := Rat) (heap' r) = 8) := by
      intro r
      match r with
      | 0 => exact .inl ⟨rfl, rfl⟩
      | 1 => exact .inr (.inl ⟨rfl, rfl⟩)
      | _ + 2 => exact .inr (.inr ⟨rfl, rfl⟩)
    have h1 := key r
    have h2 := key r'
    omega

/-- The factors get the ids 0 and 1 in place of 10 and 11. -/
def τ (i : Int) : Int := i - 10

theorem distinct : Distinct τ := fun i j h => by simp only [τ] at h; omega

/-- Build a graph, offering one variable twice, finalize, optimize, prepare covariances. -/
def calls : List (Call Rat (GenVar Rat)) :=
  (ToyOpt.build ++ [Op.addVariable (some 1), Op.finalize]).map Call.user ++ [.setup true ToyOpt.lm, .optimize, .prepare]

/-- All calls return, except that the second offer of the same variable is refused. -/
def results : List (Res Unit) := List.replicate 5 (.ok ()) ++ .threw :: List.replicate 4 (.ok ())

theorem outcomes : ToyOpt.callOutcomes calls (Opt.init ToyOpt.rat ToyOpt.heap) = results := by decide +kernel

theorem run : Runs ToyOpt.rat Ldlt.linAlg (Opt.init ToyOpt.rat ToyOpt.heap) (calls.zip results)
    (ToyOpt.execCalls calls (Opt.init ToyOpt.rat ToyOpt.heap)) := by
  have := ToyOpt.execCalls_runs calls (Opt.init ToyOpt.rat ToyOpt.heap) (by rw [outcomes]; decide)
  rwa [outcomes] at this

theorem ignoring : OffersIgnoring Same (calls.zip results) := by
  intro f r hf
  simp [calls, results, ToyOpt.build, ToyOpt.facs, List.replicate] at hf
  rcases hf with ⟨rfl, _⟩ | ⟨rfl, _⟩
  · exact prior_ignores _ _ _ _
  · exact between_ignores _ _ _ _ _ _
end C132

/-! ### Where it holds -/

/-- **C132, the part that holds**: write the same program with other ids for the variables and factors, such that two
variables share an id exactly if they did before, and different factor ids stay different. Whatever the first program can do
the second can do: all its calls have the same outcomes, and at the end nothing but ids differs. In particular the estimates,
statistics and covariances are the same. This holds in every arithmetic, also with rounding. Missing: `factor_placement(id)`
(`C132_false`). -/
theorem C132_partial {E : V → V → Prop} (hE : DifferInId (F := F) E) (A : Arith F) (L : LinAlg F Fact) {h h' : Heap V}
    (hh : OtherIds (F := F) E h h') {τ : Int → Int} (hτ : Distinct τ) {evs : List (Call F V × Res Unit)} (ho : OffersIgnoring E evs)
    {s : OptWorld F V Fact} (hrun : Runs A L (Opt.init A h) evs s) :
    ∃ s', Runs A L (Opt.init A h') (renamedCalls τ evs) s' ∧ SameExceptIds A L E τ s s' := by
  obtain ⟨s', h1, h2⟩ := Ids.runs_forward hE A L (Ids.names_of hh) hτ hrun _ (Ids.init_rel A hh) ho
  exact ⟨s', h1, Ids.same_of_rel hE A L h2⟩

/-- The run with the ids 3, 1, 8 gives the same estimates and covariances as the one with the ids 1, 2, 3. -/
example : ∃ s', Runs ToyOpt.rat Ldlt.linAlg (Opt.init ToyOpt.rat C132.heap') (renamedCalls C132.τ (C132.calls.zip C132.results)) s' ∧
    SameExceptIds ToyOpt.rat Ldlt.linAlg C132.Same C132.τ (ToyOpt.execCalls C132.calls (Opt.init ToyOpt.rat ToyOpt.heap)) s' :=
  C132_partial C132.same_differ _ _ C132.other C132.distinct C132.ignoring C132.run

/-- The run does something: a variable moves and has a covariance. -/
example : ((ToyOpt.execCalls C132.calls (Opt.init ToyOpt.rat ToyOpt.heap)).heap 0).value ≠ (ToyOpt.heap 0).value := by
  decide +kernel
example : (match estimateCovariance ToyOpt.rat Ldlt.linAlg (ToyOpt.execCalls C132.calls (Opt.init ToyOpt.rat ToyOpt.heap)) (some 0) with
    | .ok (some _) => true | _ => false) = true := by
  decide +kernel

/-- **C132, the other direction**: everything the renamed program can do, the original can do. -/
theorem C132_converse_partial {E : V → V → Prop} (hE : DifferInId (F := F) E) (A : Arith F) (L : LinAlg F Fact) {h h' : Heap V}
    (hh : OtherIds (F := F) E h h') {τ : Int → Int} (hτ : Distinct τ) {evs : List (Call F V × Res Unit)} (ho : OffersIgnoring E evs)
    {s' : OptWorld F V Fact} (hrun : Runs A L (Opt.init A h') (renamedCalls τ evs) s') :
    ∃ s, Runs A L (Opt.init A h) evs s ∧ SameExceptIds A L E τ s s' := by
  obtain ⟨s, h1, h2⟩ := Ids.runs_backward hE A L (Ids.names_of hh) hτ evs hrun (Ids.init_rel A hh) ho
  exact ⟨s, h1, Ids.same_of_rel hE A L h2⟩

/-- There is a run of the renamed program to start from. -/
example : ∃ s' s : OptWorld Rat (GenVar Rat) (Ldlt.Fact Rat),
    Runs ToyOpt.rat Ldlt.linAlg (Opt.init ToyOpt.rat ToyOpt.heap) (C132.calls.zip C132.results) s ∧
    SameExceptIds ToyOpt.rat Ldlt.linAlg C132.Same C132.τ s s' := by
  obtain ⟨s', h1, _⟩ := C132_partial C132.same_differ ToyOpt.rat Ldlt.linAlg C132.other C132.distinct C132.ignoring C132.run
  obtain ⟨s, h2⟩ := C132_converse_partial C132.same_differ ToyOpt.rat Ldlt.linAlg C132.other C132.distinct C132.ignoring h1
  exact ⟨s', s, h2⟩

/-- **C132, undefined behaviour**: if after some history a further call can run into undefined behaviour, throw or return, it
can do the same in the renamed program. -/
theorem C132_next_partial {E : V → V → Prop} (hE : DifferInId (F := F) E) (A : Arith F) (L : LinAlg F Fact) {h h' : Heap V}
    (hh : OtherIds (F := F) E h h') {τ : Int → Int} (hτ : Distinct τ) {evs : List (Call F V × Res Unit)} (ho : OffersIgnoring E evs)
    {s : OptWorld F V Fact} (hrun : Runs A L (Opt.init A h) evs s) (env : Env F V) (c : Call F V)
    (hc : ∀ f, c = .user (.addFactor (some f)) → IgnoresIds E f) :
    ∃ s' env', Runs A L (Opt.init A h') (renamedCalls τ evs) s' ∧
      (Opt.step A L env' (renamedCall τ c) s').2 = (Opt.step A L env c s).2 := by
  obtain ⟨s', h1, h2⟩ := Ids.runs_forward hE A L (Ids.names_of hh) hτ hrun _ (Ids.init_rel A hh) ho
  obtain ⟨env', he⟩ := Ids.env_forward hτ env
  exact ⟨s', env', h1, (Ids.step_keeps hE A L he (Ids.names_of hh) hτ hc s s' h2).1⟩

/-- Offering a null pointer is undefined, with whatever ids. -/
example : ∃ s' env', Runs ToyOpt.rat Ldlt.linAlg (Opt.init ToyOpt.rat C132.heap') (renamedCalls C132.τ (C132.calls.zip C132.results)) s' ∧
    (Opt.step ToyOpt.rat Ldlt.linAlg env' (.user (.addVariable none)) s').2 = .ub :=
  C132_next_partial C132.same_differ _ _ C132.other C132.distinct C132.ignoring C132.run ToyOpt.env (.user (.addVariable none))
    (by intro f h; simp at h)

/-! ### Where it fails -/

/-- **C132 is false of `factor_placement`**: it takes the id of a factor but looks for the position at which the factor was
added, so whether it finds a factor that is in the finalized graph depends on the choice of the ids. -/
theorem C132_false : ¬ ∀ (h h' : Heap (GenVar Rat)) (τ : Int → Int) (evs : List (Call Rat (GenVar Rat) × Res Unit))
    (s s' : OptWorld Rat (GenVar Rat) (Ldlt.Fact Rat)), OtherIds (F := Rat) C132.Same h h' → Distinct τ → OffersIgnoring C132.Same evs →
    Runs ToyOpt.rat Ldlt.linAlg (Opt.init ToyOpt.rat h) evs s →
    Runs ToyOpt.rat Ldlt.linAlg (Opt.init ToyOpt.rat h') (renamedCalls τ evs) s' → s.graph.finalized = true →
    ∀ f ∈ s.graph.getAllFactors, (s'.graph.factorPlacement (τ f.id)).isSome = (s.graph.factorPlacement f.id).isSome := by
  intro H
  obtain ⟨s', h1, h2⟩ := C132_partial C132.same_differ ToyOpt.rat Ldlt.linAlg C132.other C132.distinct C132.ignoring C132.run
  have ids : (ToyOpt.execCalls C132.calls (Opt.init ToyOpt.rat ToyOpt.heap)).graph.getAllFactors.map (·.id) = [10, 11] := by
    decide +kernel
  obtain ⟨f, hf, hid⟩ : ∃ f ∈ (ToyOpt.execCalls C132.calls (Opt.init ToyOpt.rat ToyOpt.heap)).graph.getAllFactors, f.id = 10 :=
    List.mem_map.1 (by rw [ids]; exact List.mem_cons_self ..)
  have := H _ _ _ _ _ _ C132.other C132.distinct C132.ignoring C132.run h1 (by decide +kernel) f hf
  rw [hid, h2.factorPlacement, Option.isSome_map] at this
  exact absurd this (by decide +kernel)

end Factorama.Props
