import Verif.Model.Graph

/-!
# Specification vocabulary for the factor graph

Small definitions, independent of the algorithms in the model, in which the properties are stated.
-/

namespace Factorama.Spec
variable {F V : Type} [VarLike F V]

/-- Number of free (optimised) values of a variable: none if it is constant. -/
def freeSize (v : V) : Nat := if VarLike.isConst v then 0 else VarLike.size v

/-- Total number of free values of a list of variables. -/
def freeTotal (h : Heap V) (rs : List VRef) : Nat := (rs.map fun r => freeSize (h r)).sum

/-- First column of variable `r`: the free values of the variables inserted before it. -/
def colStart (h : Heap V) (vars : List VRef) (r : VRef) : Nat :=
  freeTotal h (vars.takeWhile fun r' => r' != r)

/-- The part of a vector `x` of all free values that lies at the columns of variable `r`. -/
def partOf (h : Heap V) (vars : List VRef) (x : List F) (r : VRef) : List F :=
  (x.drop (colStart h vars r)).take (VarLike.size (h r))

/-- The objects accepted out of a sequence of offered ones when an object is refused exactly if an accepted one
has the same key. -/
def accepted {α : Type} (key : α → Int) (xs : List α) : List α :=
  xs.foldl (fun acc x => if acc.any (fun a => key a == key x) then acc else acc ++ [x]) []

/-- Total residual size of a list of factors. -/
def rowTotal (facs : List (Factor F V)) : Nat := (facs.map fun f => f.residualSize).sum

/-- First row of the `k`-th factor: the residual sizes of the factors inserted before it. -/
def rowStart (facs : List (Factor F V)) (k : Nat) : Nat := rowTotal (facs.take k)

/-- A factor graph is well posed if every factor's variables are non-null, every non-constant one has
an id that belongs to a variable of the graph, and there are at least as many residuals as free values. -/
def WellPosed (h : Heap V) (vars : List VRef) (facs : List (Factor F V)) : Prop :=
  (∀ f ∈ facs, ∀ p ∈ f.variables, ∃ r, p = some r ∧
    (VarLike.isConst (h r) = false → ∃ r' ∈ vars, VarLike.id (h r') = VarLike.id (h r))) ∧
  freeTotal h vars ≤ rowTotal facs

/-- Two heaps hold variables of the same identity, constness and size at every address (they may
differ in the variables' values). -/
def SameShape (h h' : Heap V) : Prop :=
  ∀ r, VarLike.id (h' r) = VarLike.id (h r) ∧ VarLike.isConst (h' r) = VarLike.isConst (h r) ∧
    VarLike.size (h' r) = VarLike.size (h r)

/-- The blocks a factor reports are one per variable: empty for a constant variable, of the size
(residual size) x (variable size), and not empty, for any other. -/
def ProperBlocks (h : Heap V) (f : Factor F V) (js : List (Mat F)) : Prop :=
  ∀ (p : Nat) (r : VRef), f.variables[p]? = some (some r) → ∃ J : Mat F, js[p]? = some J ∧
    (VarLike.isConst (h r) = true → J.isEmpty = true) ∧
    (VarLike.isConst (h r) = false →
      J.isEmpty = false ∧ J.rows = f.residualSize ∧ J.cols = VarLike.size (h r))

/-- Ids identify objects: a variable used by a factor that has the id of a variable of the graph is that
variable. -/
def IdsIdentify (h : Heap V) (vars : List VRef) (facs : List (Factor F V)) : Prop :=
  ∀ f ∈ facs, ∀ v, some v ∈ f.variables → ∀ r ∈ vars, VarLike.id (h r) = VarLike.id (h v) → r = v

/-- No factor mentions the same variable twice. -/
def NoRepeats (facs : List (Factor F V)) : Prop :=
  ∀ f ∈ facs, ∀ (p q : Nat) (r : VRef), f.variables[p]? = some (some r) →
    f.variables[q]? = some (some r) → p = q

/-- `M` is the Jacobian of the stacked residual assembled from the blocks `blocks k p` (factor `k`,
`p`-th variable of that factor): on the rows of factor `k` and the columns of its `p`-th variable it is
that block, and on the columns of a variable the factor does not mention it is zero. -/
def IsStackedJacobian [Zero F] (h : Heap V) (vars : List VRef) (facs : List (Factor F V))
    (blocks : Nat → List (Mat F)) (M : Nat → Nat → F) : Prop :=
  ∀ (k : Nat) (f : Factor F V), facs[k]? = some f → ∀ i, i < f.residualSize →
    (∀ (p : Nat) (r : VRef) (J : Mat F), f.variables[p]? = some (some r) → VarLike.isConst (h r) = false →
      (blocks k)[p]? = some J → ∀ j, j < VarLike.size (h r) →
        M (rowStart facs k + i) (colStart h vars r + j) = Mat.entry J i j) ∧
    (∀ r ∈ vars, VarLike.isConst (h r) = false → some r ∉ f.variables → ∀ j, j < VarLike.size (h r) →
        M (rowStart facs k + i) (colStart h vars r + j) = 0)

/-- The buffers a factor can find in the vector the graph re-uses for it: the empty one and whatever it has
itself put there in earlier evaluations. -/
inductive OwnBuffer (f : Factor F V) : List (Mat F) → Prop where
  | nil : OwnBuffer f []
  | out {h : Heap V} {buf js : List (Mat F)} : OwnBuffer f buf → f.computeJacobians h buf = .ok js → OwnBuffer f js

/-- The Jacobian blocks a factor reports depend on the variables only, not on what is left over in the
re-used output vector. -/
def ReuseSafe (f : Factor F V) : Prop :=
  ∀ h buf, OwnBuffer f buf → f.computeJacobians h buf = f.computeJacobians h []

end Factorama.Spec
