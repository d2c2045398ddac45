import Verif.Lemmas.Python
import Verif.Examples.ToyOpt

/-!
# C100: asking for variables from Python
-/

namespace Factorama.Props
open Spec Graph Opt
variable {F V Fact : Type} [Zero F] [VarLike F V] [LawfulVar F V]

/-! ### Where it fails -/

namespace C100
/-- A function builds a graph from variables of its own and returns. -/
def built : List (Py.Action Rat (GenVar Rat)) :=
  ((ToyOpt.build ++ [Op.finalize]).map fun op => .call ToyOpt.env (.user op)) ++
  [.call ToyOpt.env (.setup true ToyOpt.gn), .letGo 0, .letGo 1, .letGo 2]

/-- The caller looks at the variable with id 3, the constant, and optimizes. -/
def prog : List (Py.Action Rat (GenVar Rat)) := built ++ [.getVariable 3, .letGo 2, .call ToyOpt.env .optimize]

/-- The memory is used for another object. -/
def junk : VRef → GenVar Rat := fun _ => ⟨7, true, [8, 9]⟩
end C100

/-- **C100 is false**: a Python function builds a graph and returns, so that only the graph holds the variables. The caller
writes `graph.get_variable(3).value()`, and then optimizes. The estimate, of another variable, is not the one obtained without
this look, although no call of the program without it fails. -/
theorem C100_false : ¬ ∀ (h0 : Heap (GenVar Rat)) junk (prog : List (Py.Action Rat (GenVar Rat))),
    let s := Py.run ToyOpt.rat Ldlt.linAlg junk (withoutLooks prog) (Py.start ToyOpt.rat h0)
    let t := Py.run ToyOpt.rat Ldlt.linAlg junk prog (Py.start ToyOpt.rat h0)
    (∀ o ∈ s.2, o = .ok ()) →
    ∀ r ∈ s.1.world.graph.getAllVariables, (t.1.world.heap r).value = (s.1.world.heap r).value := by
  intro H
  have := H ToyOpt.heap C100.junk C100.prog (by decide +kernel) 1 (by decide +kernel)
  exact absurd this (by decide +kernel)

/-! ### Where it holds -/

/-- **C100, the part that holds**: let a Python program never let go of a variable whose Python object was made by
`get_variable` or `Factor.variables` (with no other Python object of that variable alive at the time). Then asking for
variables changes nothing: every call has the outcome it has in the program that does not ask, and the variables, the graph
and the optimizer with its results end up the same. (Calls that run into undefined behaviour excluded.) -/
theorem C100_partial (A : Arith F) (L : LinAlg F Fact) (junk : VRef → V) (h0 : Heap V) (prog : List (Py.Action F V))
    (hub : Res.ub ∉ (Py.run A L junk (withoutLooks prog) (Py.start A h0)).2)
    (hkeep : ∀ pre r post, prog = pre ++ .letGo r :: post → (Py.run A L junk pre (Py.start A h0)).1.wrap r ≠ .adopted) :
    let s := Py.run A L junk (withoutLooks prog) (Py.start A h0)
    let t := Py.run A L junk prog (Py.start A h0)
    t.2 = s.2 ∧ t.1.world = s.1.world := by
  have h := Py.Like.run (A := A) (L := L) (junk := junk) prog
    (s := Py.start A h0) (t := Py.start A h0) ⟨rfl, fun _ => .inl ⟨rfl, rfl⟩⟩ hub hkeep
  exact ⟨h.2, h.1.world⟩

/-- In particular if a variable is only asked for by `get_all_variables`, or while the program holds a Python object of
it. -/
theorem C100_held_partial (A : Arith F) (L : LinAlg F Fact) (junk : VRef → V) (h0 : Heap V) (prog : List (Py.Action F V))
    (hub : Res.ub ∉ (Py.run A L junk (withoutLooks prog) (Py.start A h0)).2)
    (hheld : ∀ pre a post, prog = pre ++ a :: post → a ≠ .getAllVariables →
      ∀ r ∈ Py.looked (Py.run A L junk pre (Py.start A h0)).1 a, (Py.run A L junk pre (Py.start A h0)).1.wrap r ≠ .none) :
    let s := Py.run A L junk (withoutLooks prog) (Py.start A h0)
    let t := Py.run A L junk prog (Py.start A h0)
    t.2 = s.2 ∧ t.1.world = s.1.world :=
  C100_partial A L junk h0 prog hub fun pre r post hp =>
    Py.no_adopted pre (by simp [Py.start])
      (fun pre' a post' hp' => hheld pre' a (post' ++ .letGo r :: post) (by simp [hp, hp'])) r

namespace C100
/-- The caller lists all variables, which makes new Python objects of them, then looks at one with `get_variable`, and at
those of a factor, drops everything, and optimizes. -/
def listed : List (Py.Action Rat (GenVar Rat)) :=
  built ++ [.getAllVariables, .getVariable 3, .factorVariables (genericPrior 10 0 [4, 4] 2), .letGo 0, .letGo 1, .letGo 2,
    .getAllVariables, .call ToyOpt.env .optimize]

theorem listed_ub : Res.ub ∉ (Py.run ToyOpt.rat Ldlt.linAlg junk (withoutLooks listed) (Py.start ToyOpt.rat ToyOpt.heap)).2 := by
  decide +kernel

/-- The states in which a list of actions is taken. -/
def held : List (Py.Action Rat (GenVar Rat)) → Py.State Rat (GenVar Rat) (Ldlt.Fact Rat) → Bool
  | [], _ => true
  | a :: as, s => ((match a with | .getAllVariables => true | _ => false) || (Py.looked s a).all fun r => s.wrap r != .none) &&
      held as (Py.act ToyOpt.rat Ldlt.linAlg junk a s).1

theorem of_held (prog : List (Py.Action Rat (GenVar Rat))) : ∀ s, held prog s = true →
    ∀ pre a post, prog = pre ++ a :: post → a ≠ .getAllVariables →
      ∀ r ∈ Py.looked (Py.run ToyOpt.rat Ldlt.linAlg junk pre s).1 a,
        (Py.run ToyOpt.rat Ldlt.linAlg junk pre s).1.wrap r ≠ .none := by
  induction prog with
  | nil => intro s _ pre a post hp; simp at hp
  | cons b as ih =>
    intro s h pre a post hp ha r hr
    simp only [held, Bool.and_eq_true] at h
    cases pre with
    | nil =>
      simp only [List.nil_append, List.cons.injEq] at hp
      obtain ⟨rfl, rfl⟩ := hp
      simp only [Py.run] at hr ⊢
      cases b with
      | getAllVariables => exact absurd rfl ha
      | _ =>
        have := h.1
        simp only [Bool.false_or, List.all_eq_true] at this
        simpa using this r hr
    | cons b' pre =>
      simp only [List.cons_append, List.cons.injEq] at hp
      obtain ⟨rfl, rfl⟩ := hp
      exact ih _ h.2 pre a post rfl ha r hr

theorem listed_held : held listed (Py.start ToyOpt.rat ToyOpt.heap) = true := by decide +kernel
theorem listed_values : ((Py.run ToyOpt.rat Ldlt.linAlg junk (withoutLooks listed) (Py.start ToyOpt.rat ToyOpt.heap)).1.world.heap
    1).value = [4, 5] := by decide +kernel
end C100

/-- Such a program: its estimate is the one it has without the looks. -/
example : ((Py.run ToyOpt.rat Ldlt.linAlg C100.junk C100.listed (Py.start ToyOpt.rat ToyOpt.heap)).1.world.heap 1).value =
    [4, 5] := by
  have h := (C100_held_partial ToyOpt.rat Ldlt.linAlg C100.junk ToyOpt.heap C100.listed C100.listed_ub
    (C100.of_held _ _ C100.listed_held)).2
  rw [h]
  exact C100.listed_values

namespace C100
/-- Adopted, but never let go of: the program stores the Python object. -/
def stored : List (Py.Action Rat (GenVar Rat)) := built ++ [.getVariable 3, .call ToyOpt.env .optimize]

def kept : List (Py.Action Rat (GenVar Rat)) → Py.State Rat (GenVar Rat) (Ldlt.Fact Rat) → Bool
  | [], _ => true
  | a :: as, s => (match a with | .letGo r => s.wrap r != .adopted | _ => true) &&
      kept as (Py.act ToyOpt.rat Ldlt.linAlg junk a s).1

theorem of_kept (prog : List (Py.Action Rat (GenVar Rat))) : ∀ s, kept prog s = true →
    ∀ pre r post, prog = pre ++ .letGo r :: post → (Py.run ToyOpt.rat Ldlt.linAlg junk pre s).1.wrap r ≠ .adopted := by
  induction prog with
  | nil => intro s _ pre a post hp; simp at hp
  | cons b as ih =>
    intro s h pre r post hp
    simp only [kept, Bool.and_eq_true] at h
    cases pre with
    | nil =>
      simp only [List.nil_append, List.cons.injEq] at hp
      obtain ⟨rfl, rfl⟩ := hp
      simpa [Py.run] using h.1
    | cons b' pre =>
      simp only [List.cons_append, List.cons.injEq] at hp
      obtain ⟨rfl, rfl⟩ := hp
      exact ih _ h.2 pre r post rfl

theorem stored_kept : kept stored (Py.start ToyOpt.rat ToyOpt.heap) = true := by decide +kernel
theorem stored_ub : Res.ub ∉ (Py.run ToyOpt.rat Ldlt.linAlg junk (withoutLooks stored) (Py.start ToyOpt.rat ToyOpt.heap)).2 := by
  decide +kernel
theorem stored_adopted : (Py.run ToyOpt.rat Ldlt.linAlg junk stored (Py.start ToyOpt.rat ToyOpt.heap)).1.wrap 2 = .adopted := by
  decide +kernel
end C100

example : (Py.run ToyOpt.rat Ldlt.linAlg C100.junk C100.stored (Py.start ToyOpt.rat ToyOpt.heap)).1.world =
    (Py.run ToyOpt.rat Ldlt.linAlg C100.junk (withoutLooks C100.stored) (Py.start ToyOpt.rat ToyOpt.heap)).1.world :=
  (C100_partial ToyOpt.rat Ldlt.linAlg C100.junk ToyOpt.heap C100.stored C100.stored_ub
    (C100.of_kept _ _ C100.stored_kept)).2

end Factorama.Props
