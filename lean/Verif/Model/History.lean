import Verif.Model.Graph

/-!
# Sequences of calls on a factor graph and its variables

A program using the library is a sequence of the calls below. The read-only accessors (`jacobian()`,
`residual()`, `sparse_jacobian()`, placements, `get_variable_vector()`, …) do not change the state and are
not listed.
-/

namespace Factorama

/-- Laws of a variable class which the graph relies on: identity, constness and size of an object do not
depend on its value, and identity and size do not depend on constness (base_types.hpp:129-182; proved for
the concrete variable classes in `Verif/Lemmas/Variables.lean`). -/
class LawfulVar (F : outParam Type) (V : Type) [VarLike F V] : Prop where
  id_setConst : ∀ (v : V) b, VarLike.id (VarLike.setConst v b) = VarLike.id v
  isConst_setConst : ∀ (v : V) b, VarLike.isConst (VarLike.setConst v b) = b
  size_setConst : ∀ (v : V) b, VarLike.size (VarLike.setConst v b) = VarLike.size v
  id_setValue : ∀ (v v' : V) x, VarLike.setValue v x = .ok v' → VarLike.id v' = VarLike.id v
  isConst_setValue : ∀ (v v' : V) x, VarLike.setValue v x = .ok v' → VarLike.isConst v' = VarLike.isConst v
  size_setValue : ∀ (v v' : V) x, VarLike.setValue v x = .ok v' → VarLike.size v' = VarLike.size v
  id_applyIncr : ∀ (v v' : V) x, VarLike.applyIncr v x = .ok v' → VarLike.id v' = VarLike.id v
  isConst_applyIncr : ∀ (v v' : V) x, VarLike.applyIncr v x = .ok v' → VarLike.isConst v' = VarLike.isConst v
  size_applyIncr : ∀ (v v' : V) x, VarLike.applyIncr v x = .ok v' → VarLike.size v' = VarLike.size v

/-- The variable objects and one graph. -/
structure World (F V : Type) where
  heap : Heap V
  graph : Graph F V

/-- One call by the user. -/
inductive Op (F V : Type) where
  /-- `graph.add_variable(p)` -/
  | addVariable (p : Option VRef)
  /-- `graph.add_factor(p)` -/
  | addFactor (p : Option (Factor F V))
  /-- `graph.finalize_structure()` -/
  | finalize
  /-- `variable.set_constant(b)` -/
  | setConstant (r : VRef) (b : Bool)
  /-- `variable.set_value_from_vector(x)` -/
  | setValue (r : VRef) (x : List F)
  /-- `variable.apply_increment(dx)` -/
  | incrOne (r : VRef) (dx : List F)
  /-- `graph.set_variable_values_from_vector(x)` -/
  | setVector (x : List F)
  /-- `graph.apply_increment(dx)` -/
  | applyIncrement (dx : List F)
  /-- `graph.compute_full_residual_vector()` -/
  | residual
  /-- `graph.compute_full_residual_vector(buf)` -/
  | residualInto (buf : List F)
  /-- `graph.compute_full_jacobian_matrix()` -/
  | dense
  /-- `graph.compute_full_jacobian_and_residual()` -/
  | denseAndResidual
  /-- `graph.compute_sparse_jacobian_matrix()` -/
  | sparse
  /-- `graph = FactorGraph(graph)`, or going on with a copy of the graph in its place. -/
  | copy

/-- Forget a result. -/
def Res.void {α : Type} : Res α → Res Unit
  | .ok _ => .ok ()
  | .threw => .threw
  | .ub => .ub

namespace World
variable {F V : Type} [Zero F] [VarLike F V]

/-- Start: the given objects and a default constructed graph. -/
def init (h : Heap V) : World F V := ⟨h, Graph.init⟩

/-- Run a call that only changes the graph. -/
def onGraph {α : Type} (m : Heap V → SE (Graph F V) α) (w : World F V) : World F V × Res Unit :=
  let s := m w.heap w.graph
  ({ w with graph := s.1 }, s.2.void)

/-- Run a call that only changes the variable objects. -/
def onHeap {α : Type} (m : Graph F V → SE (Heap V) α) (w : World F V) : World F V × Res Unit :=
  let s := m w.graph w.heap
  ({ w with heap := s.1 }, s.2.void)

/-- Effect of one call, with its outcome; the cited functions are those of `Verif/Model/Graph.lean`. -/
def step (env : Env F V) : Op F V → World F V → World F V × Res Unit
  | .addVariable p => onGraph fun h => Graph.addVariable h p
  | .addFactor p => onGraph fun _ => Graph.addFactor p
  | .finalize => onGraph fun h => Graph.finalizeStructure h
  | .setConstant r b => onHeap fun _ => Graph.mutate r fun v => .ok (VarLike.setConst v b)
  | .setValue r x => onHeap fun _ => Graph.mutate r fun v => VarLike.setValue v x
  | .incrOne r dx => onHeap fun _ => Graph.mutate r fun v => VarLike.applyIncr v dx
  | .setVector x => onHeap fun g => Graph.setVariableValuesFromVector g x
  | .applyIncrement dx => onHeap fun g => Graph.applyIncrement g dx
  | .residual => onGraph fun h => Graph.computeResidual env h
  | .residualInto buf => fun w => (w, (Graph.computeResidualInto env w.graph w.heap buf).2)
  | .dense => onGraph fun h => Graph.computeDense env h
  | .denseAndResidual => onGraph fun h => Graph.computeDenseAndResidual env h
  | .sparse => onGraph fun h => Graph.computeSparse h
  | .copy => onGraph fun _ => SE.modify Graph.copy

/-- `Runs w evs w'`: a history `evs` of calls with their outcomes can lead from `w` to `w'`. A call may return
or throw (the user catches the exception and goes on) but must not run into undefined behaviour. The
undetermined choices (`Env`) may differ from call to call. -/
inductive Runs : World F V → List (Op F V × Res Unit) → World F V → Prop where
  | nil (w : World F V) : Runs w [] w
  | cons {w w' w'' : World F V} {op : Op F V} {evs : List (Op F V × Res Unit)} {r : Res Unit} (env : Env F V) :
      step env op w = (w', r) → r ≠ .ub → Runs w' evs w'' → Runs w ((op, r) :: evs) w''

end World

/-- Calls that only evaluate, or change values of variables: everything except building the graph,
finalizing it, and changing which variables are constant. -/
def Op.isValueOp {F V : Type} : Op F V → Prop
  | .addVariable _ | .addFactor _ | .finalize | .setConstant _ _ => False
  | _ => True

/-- Variables offered to the graph in a history, in order. -/
def offeredVars {F V : Type} (evs : List (Op F V × Res Unit)) : List VRef :=
  evs.filterMap fun ev => match ev.1 with
    | .addVariable p => p
    | _ => none

/-- Factors offered to the graph in a history, in order. -/
def offeredFactors {F V : Type} (evs : List (Op F V × Res Unit)) : List (Factor F V) :=
  evs.filterMap fun ev => match ev.1 with
    | .addFactor p => p
    | _ => none

/-- A world reached from a fresh graph by any history (`pre`), then a successful `finalize_structure()`, then
any calls that evaluate or change values (`post`). -/
def FinalizedAfter {F V : Type} [Zero F] [VarLike F V] (h0 : Heap V) (pre post : List (Op F V × Res Unit))
    (w : World F V) : Prop :=
  World.Runs (World.init h0) (pre ++ (.finalize, .ok ()) :: post) w ∧ ∀ ev ∈ post, ev.1.isValueOp

/-- No Jacobian has been computed successfully in this history. -/
def NoJacobianYet {F V : Type} (evs : List (Op F V × Res Unit)) : Prop :=
  (.dense, .ok ()) ∉ evs ∧ (.denseAndResidual, .ok ()) ∉ evs ∧ (.denseAndResidual, .threw) ∉ evs ∧
    (.sparse, .ok ()) ∉ evs

end Factorama
