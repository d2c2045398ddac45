import Verif.Model.Enums

/-!
# C144: types, methods and statuses in Python
-/

namespace Factorama.Props
open Spec Py

/-- **C144** is false of the code for types in general: the C++ enumerations have values that Python has no name for. They are the
types a C++ program has for variables and factors of its own. -/
theorem C144_false : ¬ ((∀ t : VariableType, variableTypes.nameOf t = t.name ∧ variableTypes.value t.name = some t) ∧
    (∀ t : FactorType, factorTypes.nameOf t = t.name ∧ factorTypes.value t.name = some t)) := by
  intro h
  have := (h.1 .custom).1
  revert this
  decide

/-- What is missing: `custom` and `other` for variables, `other` for factors. They are shown as "???", all alike. -/
theorem C144_missing : (∀ t : VariableType, variableTypes.value t.name = none ↔ t = .custom ∨ t = .other) ∧
    (∀ t : FactorType, factorTypes.value t.name = none ↔ t = .other) ∧
    variableTypes.nameOf .custom = variableTypes.nameOf .other := by
  refine ⟨fun t => ?_, fun t => ?_, by decide⟩
  · cases t <;> decide
  · cases t <;> decide

/-- **C144**, variables. The type of every variable of the library is shown in Python under the name it has in C++, the attribute of
that name is that type, and the name of the variable is this name followed by its id. -/
theorem C144_variables_partial (v : RVar) : variableTypes.nameOf v.type = v.type.name ∧ variableTypes.value v.type.name = some v.type ∧
    v.name = variableTypes.nameOf v.type ++ toString (VarLike.id v) := by
  have hc : v.type ≠ .custom ∧ v.type ≠ .other := by cases v <;> simp [RVar.type]
  have key : ∀ t : VariableType, t ≠ .custom ∧ t ≠ .other → variableTypes.nameOf t = t.name ∧ variableTypes.value t.name = some t := by
    intro t
    cases t <;> decide
  obtain ⟨h, h'⟩ := key _ hc
  refine ⟨h, h', ?_⟩
  rw [h]
  rfl

/-- **C144**, factors. The same for the factors of the library. -/
theorem C144_factors_partial (c : FactorClass) : factorTypes.nameOf (factorType c) = (factorType c).name ∧
    factorTypes.value (factorType c).name = some (factorType c) := by
  cases c <;> decide

/-- **C144**, comparison. In Python, two variables of the library show the same type name if and only if their types are equal. -/
theorem C144_compare_partial (v w : RVar) : variableTypes.nameOf v.type = variableTypes.nameOf w.type ↔ v.type = w.type := by
  refine ⟨fun h => ?_, fun h => by rw [h]⟩
  have h1 := (C144_variables_partial v).2.1
  rw [← (C144_variables_partial v).1, h, (C144_variables_partial w).1, (C144_variables_partial w).2.1] at h1
  exact (Option.some.inj h1).symm

/-- **C144**, methods and statuses. Every method can be chosen and every status is shown, under a name of its own. -/
theorem C144_optimizer_partial : (∀ m : Method, methods.value (methods.nameOf m) = some m) ∧
    (∀ st : Status, statuses.value (statuses.nameOf st) = some st) ∧
    (∀ a b : Status, statuses.nameOf a = statuses.nameOf b ↔ a = b) := by
  refine ⟨fun m => by cases m <;> decide, fun st => by cases st <;> decide, fun a b => ?_⟩
  cases a <;> cases b <;> decide

/-- A pose in the plane with id 7. -/
example (v : Pose2DVar) (h : VarLike.id (RVar.pose2d v) = 7) : (RVar.pose2d v).name = "pose_2d7" ∧
    variableTypes.value "pose_2d" = some (RVar.pose2d v).type := by
  refine ⟨?_, rfl⟩
  rw [(C144_variables_partial _).2.2, h]
  show variableTypes.nameOf .pose2d ++ toString (7 : Int) = _
  decide

end Factorama.Props
