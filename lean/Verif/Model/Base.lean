/-!
# Outcomes, the state-and-exception monad, and the `Variable`/`Factor` interfaces

Everything in this file is generic in the scalar type `F` (C++ `double`) and the variable type `V`.
-/

namespace Factorama

/-- Outcome of a C++ call: it returns a value, throws a `std::exception`, or runs into undefined
behaviour (this includes a failing `assert`/`eigen_assert`, which is compiled out in release builds).
Exception messages are not modelled. -/
inductive Res (α : Type) where
  | ok (a : α)
  | threw
  | ub
  deriving Repr, DecidableEq

namespace Res
/-- `true` exactly for a normal return. -/
def isOk {α : Type} : Res α → Bool
  | ok _ => true
  | _ => false
end Res

/-- A C++ member function: it may change the state `σ` and then return, throw or hit undefined
behaviour. State changes made before a `throw` persist, as in C++. -/
def SE (σ α : Type) : Type := σ → σ × Res α

namespace SE
variable {σ α β : Type}

/-- Normal return. -/
def ret (a : α) : SE σ α := fun s => (s, .ok a)
/-- `throw std::runtime_error(...)`. -/
def throw : SE σ α := fun s => (s, .threw)
/-- Undefined behaviour. -/
def undefined : SE σ α := fun s => (s, .ub)
/-- Sequencing: stop at the first exception or undefined behaviour, keeping the state reached. -/
def bind (m : SE σ α) (f : α → SE σ β) : SE σ β := fun s =>
  match m s with
  | (s', .ok a) => f a s'
  | (s', .threw) => (s', .threw)
  | (s', .ub) => (s', .ub)
/-- Run an outcome that does not touch the state. -/
def lift (r : Res α) : SE σ α := fun s => (s, r)
/-- Read the state. -/
def get : SE σ σ := fun s => (s, .ok s)
/-- Replace the state. -/
def put (s : σ) : SE σ Unit := fun _ => (s, .ok ())
/-- Update the state. -/
def modify (f : σ → σ) : SE σ Unit := fun s => (f s, .ok ())

instance : Monad (SE σ) where
  pure := ret
  bind := bind

/-- A range-based `for` loop. -/
def forEach : List β → (β → SE σ Unit) → SE σ Unit
  | [], _ => ret ()
  | b :: bs, body => bind (body b) fun _ => forEach bs body

end SE

/-- A pointer to a variable object (`Variable*`), as an address in the heap. Every address
holds an object; the end of lifetimes is in `Verif/Model/Lifetime.lean`. -/
abbrev VRef := Nat

/-- The memory holding the variable objects. -/
abbrev Heap (V : Type) := VRef → V

/-- Store an object at an address. -/
def Heap.set {V : Type} (h : Heap V) (r : VRef) (v : V) : Heap V :=
  fun r' => if r' = r then v else h r'

/-- The virtual interface of `Variable`, base_types.hpp:129-182. A method that throws leaves the
object unchanged (all implementations check before they write). -/
class VarLike (F : outParam Type) (V : Type) where
  /-- `id()` -/
  id : V → Int
  /-- `is_constant()` -/
  isConst : V → Bool
  /-- `set_constant(bool)` -/
  setConst : V → Bool → V
  /-- `size()` -/
  size : V → Nat
  /-- `value()` -/
  value : V → List F
  /-- `set_value_from_vector(x)` -/
  setValue : V → List F → Res V
  /-- `apply_increment(dx)` -/
  applyIncr : V → List F → Res V

/-- A dense Eigen matrix; entries outside `rows × cols` are meaningless. -/
structure Mat (F : Type) where
  rows : Nat
  cols : Nat
  entry : Nat → Nat → F

/-- `Eigen::MatrixXd()`: the empty 0x0 matrix. -/
def Mat.empty {F : Type} [Zero F] : Mat F := ⟨0, 0, fun _ _ => 0⟩

/-- `Ji.rows() == 0 || Ji.cols() == 0`. -/
def Mat.isEmpty {F : Type} (m : Mat F) : Bool := m.rows == 0 || m.cols == 0

/-- The virtual interface of `Factor`, base_types.hpp:190-232, as a record of its methods. Factor
objects are immutable (the kernel set by `SetKernel` is never read), so value semantics is faithful.
`computeJacobians` receives the previous contents of the output vector (the graph re-uses it) and
returns the new contents. `variables` may contain null pointers (`none`). -/
structure Factor (F V : Type) where
  id : Int
  residualSize : Nat
  variables : List (Option VRef)
  computeResidual : Heap V → Res (List F)
  computeJacobians : Heap V → List (Mat F) → Res (List (Mat F))

end Factorama
