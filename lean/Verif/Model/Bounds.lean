import Verif.Model.Variables

/-!
# Bounds of an inverse range

`minimum_inverse_range_` and `maximum_inverse_range_` are public members, which programs are invited to change
(inverse_range_variable.hpp:39-42; _factorama.cpp:139-140 in Python).
-/

namespace Factorama.InvRangeVar

/-- What a program does with an `InverseRangeVariable`. -/
inductive Act where
  /-- `set_value_from_vector(x)`, inverse_range_variable.cpp:29-33 -/
  | set (x : List ℝ)
  /-- `apply_increment(dx)`, inverse_range_variable.cpp:35-42 -/
  | increment (dx : List ℝ)
  /-- `clip_inverse_range()`, a public method, inverse_range_variable.hpp:51 -/
  | clip
  /-- `minimum_inverse_range_ = b`, inverse_range_variable.hpp:40-41 -/
  | minimum (b : ℝ)
  /-- `maximum_inverse_range_ = b`, inverse_range_variable.hpp:42 -/
  | maximum (b : ℝ)

/-- Effect of an action, inverse_range_variable.cpp:22-42, inverse_range_variable.hpp:40-42. -/
noncomputable def act (v : InvRangeVar) : Act → Res InvRangeVar
  | .set x => v.setValue x
  | .increment dx => v.applyIncr dx
  | .clip => .ok { v with inv := InvRangeVar.clip v.lo v.hi v.inv }
  | .minimum b => .ok { v with lo := b }
  | .maximum b => .ok { v with hi := b }

end Factorama.InvRangeVar
