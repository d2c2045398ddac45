import Verif.Lemmas.Blind
import Verif.Examples.ToyOpt

/-!
# C86: giving up handles to variables
-/

namespace Factorama.Props
open Spec Graph Opt Life
variable {F V Fact : Type} [Zero F] [VarLike F V]

/-! ### Where it fails -/

namespace C86
theorem looksAtOwn_prior [Sub F] [Mul F] [Neg F] (id : Int) (r : VRef) (p : List F) (w : F) : LooksAtOwn (genericPrior id r p w : Factor F V) := by
  intro h h' hr
  have e1 := hr r (by simp [genericPrior])
  simp only [genericPrior, e1, implies_true, and_self]

theorem looksAtOwn_between [Sub F] [Mul F] [Neg F] (id : Int) (a b m : VRef) (n : Nat) (w : F) : LooksAtOwn (genericBetween id a b m n w : Factor F V) := by
  intro h h' hr
  have e1 := hr a (by simp [genericBetween])
  have e2 := hr b (by simp [genericBetween])
  have e3 := hr m (by simp [genericBetween])
  simp only [genericBetween, e1, e2, e3, implies_true, and_self]

/-- The measurement of the between factor (variable 2) is a constant that is not added to the graph. -/
def calls : List (Call Rat (GenVar Rat)) :=
  [.user (.addVariable (some 0)), .user (.addVariable (some 1)), .user (.addFactor ToyOpt.facs[0]?),
   .user (.addFactor ToyOpt.facs[1]?), .user .finalize, .setup true ToyOpt.gn]

/-- The function that builds the graph returns, and its handle to the measurement with it; then the graph is optimized. -/
def prog : List (Action Rat (GenVar Rat)) :=
  calls.map (.call ToyOpt.env) ++ [.drop 2, .call ToyOpt.env .optimize]

/-- The memory is used for another object. -/
def junk : VRef → GenVar Rat := fun _ => ⟨7, true, [8, 9]⟩

theorem ownOnly : ∀ env f, .call env (.user (.addFactor (some f))) ∈ prog → LooksAtOwn f := by
  intro env f hf
  simp [prog, calls, ToyOpt.facs] at hf
  rcases hf with ⟨_, rfl⟩ | ⟨_, rfl⟩
  · exact looksAtOwn_prior _ _ _ _
  · exact looksAtOwn_between _ _ _ _ _ _

theorem notNamed : NotNamedLater prog := by
  intro pre r post env c hp hc
  obtain ⟨pre', rfl, e⟩ := split_calls _ _ hp
  match pre', e with
  | [], e =>
    obtain ⟨rfl, rfl⟩ := List.cons.inj e.symm |>.imp Action.drop.inj id
    simp at hc
    rw [hc.2]
    exact id
  | _ :: [], e => simp at e
  | _ :: _ :: _, e => simp at e
end C86

/-- **C86 is false**: a program builds a graph with a between factor whose constant measurement is not in the graph, gives
up its handle to the measurement and optimizes. Everything returns, but the estimate is not the one obtained when the
handle is kept. -/
theorem C86_false : ¬ ∀ (h0 : Heap (GenVar Rat)) junk (prog : List (Action Rat (GenVar Rat))),
    NotNamedLater prog →
    (∀ env f, .call env (.user (.addFactor (some f))) ∈ prog → LooksAtOwn f) →
    let s := (run ToyOpt.rat Ldlt.linAlg junk (withoutDrops prog) (init ToyOpt.rat h0)).1
    let t := (run ToyOpt.rat Ldlt.linAlg junk prog (init ToyOpt.rat h0)).1
    ∀ r ∈ t.graph.getAllVariables, (t.heap r).value = (s.heap r).value := by
  intro H
  have := H ToyOpt.heap C86.junk C86.prog C86.notNamed C86.ownOnly 1 (by decide +kernel)
  exact absurd this (by decide +kernel)

/-! ### Where it holds -/

/-- **C86, the part that holds**: let a program give up a handle only to variables that are in the graph at that moment,
or that it does not use any more, neither itself nor through a factor. Then every call has the same outcome as in the
program that keeps its handles; the graph and the optimizer, with all their results, end up the same; and so does every
variable that is in the graph or still held. Destroyed variables may be overwritten with anything. -/
theorem C86_partial (A : Arith F) (L : LinAlg F Fact) (junk : VRef → V) (h0 : Heap V) (prog : List (Action F V))
    (hown : ∀ env f, .call env (.user (.addFactor (some f))) ∈ prog → LooksAtOwn f)
    (hsafe : SafeDrops A L junk (init A h0) prog) :
    let s := run A L junk (withoutDrops prog) (init A h0)
    let t := run A L junk prog (init A h0)
    t.2 = s.2 ∧ t.1.graph = s.1.graph ∧ t.1.opt = s.1.opt ∧
    ∀ r, r ∈ t.1.graph.getAllVariables ∨ .drop r ∉ prog → t.1.heap r = s.1.heap r := by
  let P : Factor F V → Prop := fun f => ∃ env, .call env (.user (.addFactor (some f))) ∈ prog
  have e0 : maskW (fun _ => false) junk (init A h0 : OptWorld F V Fact) = init A h0 := rfl
  obtain ⟨D, hD, hc, hrun⟩ := run_blind (P := P) A L junk prog (fun _ => false) (init A h0)
    ⟨fun _ _ => rfl, by simp [Opt.init, Graph.init], by simp [Opt.init, Graph.init]⟩
    (fun env c h => ⟨fun _ _ => rfl, fun f e => ⟨fun _ _ => rfl, hown env f (e ▸ h), env, e ▸ h⟩⟩)
    (by
      intro pre r post hp
      rw [e0]
      exact (hsafe pre r post hp).imp id fun h => ⟨fun f ⟨env, hf⟩ hr => h.1 ⟨env, f, hf, hr⟩, h.2⟩)
  rw [e0] at hrun
  dsimp only
  rw [hrun]
  refine ⟨rfl, rfl, rfl, fun r hr => ?_⟩
  show mask D junk _ r = _
  apply mask_eq
  rcases hr with hr | hr
  · exact hc.vars r hr
  · cases h : D r with
    | false => rfl
    | true => exact absurd ((hD r h).resolve_left (by simp)) hr

namespace C86
/-- All variables are added; then the handles to two of them, and to one that was never used, are given up. -/
def first : List (Call Rat (GenVar Rat)) := ToyOpt.build.map .user
def rest : List (Action Rat (GenVar Rat)) :=
  [.drop 2, .call ToyOpt.env (.user .finalize), .drop 7, .drop 1, .call ToyOpt.env (.setup true ToyOpt.gn),
   .call ToyOpt.env .optimize]
def tidy : List (Action Rat (GenVar Rat)) := first.map (.call ToyOpt.env) ++ rest

theorem tidy_own : ∀ env f, .call env (.user (.addFactor (some f))) ∈ tidy → LooksAtOwn f := by
  intro env f hf
  simp [tidy, first, rest, ToyOpt.build, ToyOpt.facs] at hf
  rcases hf with ⟨_, rfl⟩ | ⟨_, rfl⟩
  · exact looksAtOwn_prior _ _ _ _
  · exact looksAtOwn_between _ _ _ _ _ _

theorem tidy_unused : ¬ FactorUses tidy 7 := by
  rintro ⟨env, f, hf, h7⟩
  simp [tidy, first, rest, ToyOpt.build, ToyOpt.facs] at hf
  rcases hf with ⟨_, rfl⟩ | ⟨_, rfl⟩
  · simp [genericPrior] at h7
  · simp [genericBetween] at h7

theorem tidy_safe : SafeDrops ToyOpt.rat Ldlt.linAlg junk (Opt.init ToyOpt.rat ToyOpt.heap) tidy := by
  intro pre r post hp
  obtain ⟨pre', rfl, e⟩ := split_calls _ _ hp
  match pre', e with
  | [], e =>
    obtain ⟨rfl, _⟩ := List.cons.inj e.symm |>.imp Action.drop.inj id
    exact .inl (by decide +kernel)
  | [_], e => simp [rest] at e
  | [a, b], e =>
    simp [rest] at e
    obtain ⟨rfl, rfl, rfl, rfl⟩ := e
    refine .inr ⟨tidy_unused, fun env c hc => ?_⟩
    simp at hc
    rcases hc with ⟨_, rfl⟩ | ⟨_, rfl⟩ <;> exact id
  | [a, b, c], e =>
    simp [rest] at e
    obtain ⟨rfl, rfl, rfl, rfl, rfl⟩ := e
    exact .inl (by decide +kernel)
  | [_, _, _, _], e => simp [rest] at e
  | [_, _, _, _, _], e => simp [rest] at e
  | _ :: _ :: _ :: _ :: _ :: _ :: _, e => simp [rest] at e

theorem tidy_values : ((run ToyOpt.rat Ldlt.linAlg junk tidy (Opt.init ToyOpt.rat ToyOpt.heap)).1.heap 1).value = [4, 5] ∧
    ((run ToyOpt.rat Ldlt.linAlg junk tidy (Opt.init ToyOpt.rat ToyOpt.heap)).1.heap 7).value = [8, 9] := by
  decide +kernel
end C86

/-- The theorem applies to a program that gives up its handles to variables in the graph, and to one it does not use. -/
example := C86_partial ToyOpt.rat Ldlt.linAlg C86.junk ToyOpt.heap C86.tidy C86.tidy_own C86.tidy_safe

end Factorama.Props
