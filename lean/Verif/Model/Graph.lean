import Verif.Model.Base

/-!
# Model of `FactorGraph` (src/factorama/factor_graph.hpp, src/factorama/factor_graph.cpp)

`int` and `size_t` are modelled by `Nat`/`Int` without overflow. Progress and error messages written to
`std::cerr`/`std::cout` are not modelled.
-/

namespace Factorama

/-- `struct VariablePlacement`, factor_graph.hpp:14-19. -/
structure VarPlacement where
  varRef : VRef
  index : Nat
  dim : Nat
  deriving Repr, DecidableEq

/-- `struct FactorPlacement`, factor_graph.hpp:24-32. -/
structure FacPlacement (F V : Type) where
  factor : Factor F V
  residualIndex : Nat
  residualDim : Nat
  columnIndices : List Nat
  dims : List Nat

/-! ## The part of `Eigen::SparseMatrix<double>` the graph relies on (column major, uncompressed) -/

/-- One column of an uncompressed sparse matrix: the room reserved for it and its entries
(row, value), sorted by row. -/
structure SpCol (F : Type) where
  cap : Nat
  entries : List (Nat × F)

/-- `Eigen::SparseMatrix<double>` in uncompressed mode. Column `c` owns the slots
`[∑_{c'<c} cap c', ∑_{c'≤c} cap c')` of the value array; `alloc` is the number of slots ever allocated
(the value pointer is null while it is 0). -/
structure SpMat (F : Type) where
  rows : Nat
  columns : List (SpCol F)
  alloc : Nat

namespace SpMat
variable {F : Type}

/-- The default constructed matrix. -/
def empty : SpMat F := ⟨0, [], 0⟩

/-- `m.coeff(r, c)`: the stored value, or zero. -/
def coeff [Zero F] (m : SpMat F) (r c : Nat) : F :=
  match m.columns[c]? with
  | none => 0
  | some col => (col.entries.lookup r).getD 0

/-- `nonZeros()` in uncompressed mode: the number of inserted entries. -/
def nonZeros (m : SpMat F) : Nat := (m.columns.map fun c => c.entries.length).sum

/-- Sorted insertion into a column, overwriting an existing entry (Eigen `coeffRef(r,c) = v`). -/
def insertEntry (r : Nat) (v : F) : List (Nat × F) → List (Nat × F)
  | [] => [(r, v)]
  | (r', v') :: es =>
    if r = r' then (r, v) :: es
    else if r < r' then (r, v) :: (r', v') :: es
    else (r', v') :: insertEntry r v es

/-- `m.coeffRef(r, c) = v`. Out of range is an `eigen_assert`. Simplification: inserting beyond the
reserved room makes Eigen re-allocate; the model then enlarges the room of the column by one slot. -/
def setCoeff (m : SpMat F) (r c : Nat) (v : F) : Res (SpMat F) :=
  if r < m.rows then
    match m.columns[c]? with
    | none => .ub
    | some col =>
      let es := insertEntry r v col.entries
      .ok { m with columns := m.columns.set c ⟨max col.cap es.length, es⟩ }
  else .ub

/-- `values[p] = v` through `valuePtr()`: slot `p` belongs to the column whose reserved slots contain
it; a write to a reserved but unused slot is not observable. -/
def writeSlot (v : F) : Nat → List (SpCol F) → List (SpCol F)
  | _, [] => []
  | p, col :: cols =>
    if p < col.cap then
      { col with entries := match col.entries[p]? with
          | none => col.entries
          | some e => col.entries.set p (e.1, v) } :: cols
    else col :: writeSlot v (p - col.cap) cols

/-- `std::copy(data.begin(), data.end(), &values[p])`. -/
def writeSlots : List F → Nat → List (SpCol F) → List (SpCol F)
  | [], _, cols => cols
  | v :: vs, p, cols => writeSlots vs (p + 1) (writeSlot v p cols)

/-- `Eigen::SparseMatrix<double>(rows, cols)` assigned over `old`, followed by `reserve(caps)`
(factor_graph.cpp:359-360): no entries, the given capacities, old allocation kept. -/
def reserveFresh (old : SpMat F) (rows : Nat) (caps : List Nat) : SpMat F :=
  ⟨rows, caps.map fun c => ⟨c, []⟩, max old.alloc caps.sum⟩

/-- Copy constructor of `Eigen::SparseMatrix<double>` for an uncompressed matrix: the entries are copied into new storage
without gaps between the columns, for which Eigen reserves `min(rows*cols, 2*max(rows,cols))` slots, or as many as there are
entries. Simplifications: that the copy is in compressed mode is not represented (entries inserted later column by column,
as the graph does, are again stored without gaps); growth of the allocation by later insertions is not tracked, it is
irrelevant because only an allocation of 0 is ever distinguished and a matrix that can have entries has room here; copying
an empty copy is treated like copying. -/
def copied (m : SpMat F) : SpMat F :=
  ⟨m.rows, m.columns.map fun c => ⟨c.entries.length, c.entries⟩,
    max m.nonZeros (min (m.rows * m.columns.length) (2 * max m.rows m.columns.length))⟩

end SpMat

/-! ## The graph object -/

/-- The data members of `FactorGraph`, factor_graph.hpp:217-252 (without `verbose_`).
`std::unordered_map<int, T>` is a function `Int → Option T`, except `factor_placement_`, which is
iterated and therefore a list of (key, value) pairs; its keys are insertion indices. -/
structure Graph (F V : Type) where
  /-- `variables_map_` -/
  varsMap : Int → Option VRef := fun _ => none
  /-- `variables_vector_` -/
  varsVec : List VRef := []
  /-- `factors_map_` -/
  facsMap : Int → Option (Factor F V) := fun _ => none
  /-- `factors_` -/
  facs : List (Factor F V) := []
  /-- `structure_finalized_` -/
  finalized : Bool := false
  /-- `variable_placement_` -/
  varPl : Int → Option VarPlacement := fun _ => none
  /-- `factor_placement_` -/
  facPl : List (Nat × FacPlacement F V) := []
  /-- `num_residuals_` -/
  numResiduals : Nat := 0
  /-- `num_values_` -/
  numValues : Nat := 0
  /-- `cached_jacobian_` -/
  cachedJac : Mat F
  /-- `jacobian_valid_` -/
  jacValid : Bool := false
  /-- `cached_residual_` -/
  cachedRes : List F := []
  /-- `residual_valid_` -/
  resValid : Bool := false
  /-- `sparse_jacobian_` -/
  sparse : SpMat F := SpMat.empty
  /-- `sparse_jacobian_components_` -/
  sparseComps : List (List (Mat F)) := []
  /-- `sparse_jacobian_initialized_` -/
  sparseInit : Bool := false
  /-- `sparse_jacobian_valid_` -/
  sparseValid : Bool := false
  /-- `sparse_jacobian_row_indices_` -/
  sparseRows : List (List Nat) := []
  /-- `sparse_jacobian_data_` -/
  sparseData : List (List F) := []

/-- Update of a finite map. -/
def mapSet {α : Type} (m : Int → Option α) (k : Int) (a : α) : Int → Option α :=
  fun k' => if k' = k then some a else m k'

/-- What the C++ program does not determine: the iteration order of `factor_placement_` and the
contents of freshly resized, uninitialised vectors. Every theorem quantifies over it. -/
structure Env (F V : Type) where
  order : List (Nat × FacPlacement F V) → List (Nat × FacPlacement F V)
  order_perm : ∀ l, (order l).Perm l
  junk : Nat → F

/-- `m.block(r0, c0, B.rows(), B.cols()) = B`. -/
def Mat.setBlock {F : Type} (m : Mat F) (r0 c0 : Nat) (B : Mat F) : Mat F :=
  { m with entry := fun i j =>
      if r0 ≤ i ∧ i < r0 + B.rows ∧ c0 ≤ j ∧ j < c0 + B.cols then B.entry (i - r0) (j - c0)
      else m.entry i j }

namespace Graph
variable {F V : Type} [Zero F] [VarLike F V]

/-- The default constructed graph, factor_graph.hpp:51. -/
def init : Graph F V := { cachedJac := Mat.empty }

/-! ### Construction and lookup -/

/-- `add_variable`, factor_graph.cpp:8-16. -/
def addVariable (h : Heap V) : Option VRef → SE (Graph F V) Unit
  | none => SE.undefined
  | some r => fun g =>
    if (g.varsMap (VarLike.id (h r))).isSome then (g, .threw)
    else ({ g with
            varsMap := mapSet g.varsMap (VarLike.id (h r)) r
            varsVec := g.varsVec ++ [r] }, .ok ())

/-- `add_factor`, factor_graph.cpp:18-26. -/
def addFactor : Option (Factor F V) → SE (Graph F V) Unit
  | none => SE.undefined
  | some f => fun g =>
    if (g.facsMap f.id).isSome then (g, .threw)
    else ({ g with
            facsMap := mapSet g.facsMap f.id f
            facs := g.facs ++ [f] }, .ok ())

/-- `get_variable`, factor_graph.cpp:28-32. -/
def getVariable (g : Graph F V) (id : Int) : Option VRef := g.varsMap id

/-- `get_all_variables`, factor_graph.cpp:34-37. -/
def getAllVariables (g : Graph F V) : List VRef := g.varsVec

/-- `get_all_factors`, factor_graph.cpp:39-42. -/
def getAllFactors (g : Graph F V) : List (Factor F V) := g.facs

/-- `variable_placement(id, valid)`, factor_graph.hpp:185-194. -/
def variablePlacement (g : Graph F V) (id : Int) : Option VarPlacement := g.varPl id

/-- `factor_placement(id, valid)`, factor_graph.hpp:196-205. -/
def factorPlacement (g : Graph F V) (id : Int) : Option (FacPlacement F V) :=
  match id with
  | .ofNat n => g.facPl.lookup n
  | .negSucc _ => none

/-- `jacobian()`, factor_graph.hpp:133-139. -/
def jacobian (g : Graph F V) : Res (Mat F) := if g.jacValid then .ok g.cachedJac else .threw
/-- `sparse_jacobian()`, factor_graph.hpp:141-147. -/
def sparseJacobian (g : Graph F V) : Res (SpMat F) := if g.sparseValid then .ok g.sparse else .threw
/-- `residual()`, factor_graph.hpp:149-155. -/
def residual (g : Graph F V) : Res (List F) := if g.resValid then .ok g.cachedRes else .threw

/-! ### Reading and writing all variables -/

/-- The loop of `get_variable_vector`, factor_graph.cpp:48-68, writing into `x` from `offset` on. -/
def getVectorLoop (g : Graph F V) (h : Heap V) : List VRef → Nat → List F → Res (List F)
  | [], _, x => .ok x
  | r :: rs, offset, x =>
    let v := h r
    if VarLike.isConst v then getVectorLoop g h rs offset x
    else match g.variablePlacement (VarLike.id v) with
      | none => .threw
      | some p =>
        if p.dim ≠ VarLike.size v then .threw
        else if offset + VarLike.size v ≤ x.length ∧ (VarLike.value v).length = VarLike.size v then
          getVectorLoop g h rs (offset + VarLike.size v)
            (x.take offset ++ VarLike.value v ++ x.drop (offset + VarLike.size v))
        else .ub

/-- `get_variable_vector`, factor_graph.cpp:44-70; the vector starts uninitialised. -/
def getVariableVector (env : Env F V) (g : Graph F V) (h : Heap V) : Res (List F) :=
  getVectorLoop g h g.varsVec 0 ((List.range g.numValues).map env.junk)

/-- `x.segment(off, n)` read access; out of range is an `eigen_assert`. -/
def segment (x : List F) (off n : Nat) : Res (List F) :=
  if off + n ≤ x.length then .ok ((x.drop off).take n) else .ub

/-- Call a mutating method of the object at address `r`. -/
def mutate (r : VRef) (f : V → Res V) : SE (Heap V) Unit := fun h =>
  match f (h r) with
  | .ok v => (h.set r v, .ok ())
  | .threw => (h, .threw)
  | .ub => (h, .ub)

/-- The loop of `set_variable_values_from_vector`, factor_graph.cpp:75-80. -/
def setVectorLoop (x : List F) : List VRef → Nat → SE (Heap V) Unit
  | [], _ => SE.ret ()
  | r :: rs, offset => SE.bind SE.get fun h =>
    if VarLike.isConst (h r) then setVectorLoop x rs offset
    else
      let n := VarLike.size (h r)
      SE.bind (SE.lift (segment x offset n)) fun seg =>
      SE.bind (mutate r fun v => VarLike.setValue v seg) fun _ => SE.bind SE.get fun h' =>
      setVectorLoop x rs (offset + VarLike.size (h' r))

/-- `set_variable_values_from_vector`, factor_graph.cpp:72-81. -/
def setVariableValuesFromVector (g : Graph F V) (x : List F) : SE (Heap V) Unit :=
  setVectorLoop x g.varsVec 0

/-- Body of the loop of `apply_increment`, factor_graph.cpp:95-114, for one variable. -/
def applyIncrementOne (g : Graph F V) (dx : List F) (r : VRef) : SE (Heap V) Unit :=
  SE.bind SE.get fun h =>
  if VarLike.isConst (h r) then SE.ret ()
  else match g.variablePlacement (VarLike.id (h r)) with
    | none => SE.ret ()
    | some p =>
      if p.index + p.dim > dx.length then SE.throw
      else SE.bind (SE.lift (segment dx p.index p.dim)) fun local_dx =>
        mutate r fun v => VarLike.applyIncr v local_dx

/-- `apply_increment`, factor_graph.cpp:83-115. -/
def applyIncrement (g : Graph F V) (dx : List F) : SE (Heap V) Unit :=
  if !g.finalized then SE.throw
  else if dx.length ≠ g.numValues then SE.throw
  else SE.forEach g.varsVec (applyIncrementOne g dx)

/-! ### Residual vector -/

/-- `result.resize(n)` unless the size already matches (factor_graph.cpp:140-142). -/
def resizeTo (env : Env F V) (n : Nat) (buf : List F) : List F :=
  if buf.length = n then buf else (List.range n).map env.junk

/-- Body of the loop of `compute_full_residual_vector`, factor_graph.cpp:144-150. -/
def residualOne (h : Heap V) (it : Nat × FacPlacement F V) : SE (List F) Unit := fun buf =>
  let fp := it.2
  if fp.residualIndex + fp.residualDim > buf.length then (buf, .ub)
  else match fp.factor.computeResidual h with
    | .threw => (buf, .threw)
    | .ub => (buf, .ub)
    | .ok seg =>
      if seg.length = fp.residualDim then
        (buf.take fp.residualIndex ++ seg ++ buf.drop (fp.residualIndex + fp.residualDim), .ok ())
      else (buf, .ub)

/-- `compute_full_residual_vector(Eigen::VectorXd& result)`, factor_graph.cpp:134-151; the state is the
caller's vector. -/
def computeResidualInto (env : Env F V) (g : Graph F V) (h : Heap V) : SE (List F) Unit :=
  if !g.finalized then SE.throw
  else SE.bind (SE.modify (resizeTo env g.numResiduals)) fun _ =>
    SE.forEach (env.order g.facPl) (residualOne h)

/-- `compute_full_residual_vector()`, factor_graph.cpp:117-132. -/
def computeResidual (env : Env F V) (h : Heap V) : SE (Graph F V) (List F) := fun g =>
  if !g.finalized then (g, .threw)
  else
    let start := if g.resValid then g.cachedRes else List.replicate g.numResiduals 0
    match computeResidualInto env g h start with
    | (buf, .ok ()) => ({ g with cachedRes := buf, resValid := true }, .ok buf)
    | (buf, .threw) => ({ g with cachedRes := buf }, .threw)
    | (buf, .ub) => ({ g with cachedRes := buf }, .ub)

/-! ### Dense Jacobian -/

/-- Inner loop of `compute_full_jacobian_matrix`, factor_graph.cpp:172-215, over the remaining
variables and the matching remaining Jacobian blocks. -/
def denseVars (g : Graph F V) (h : Heap V) (fp : FacPlacement F V) :
    List (Option VRef) → List (Mat F) → SE (Mat F) Unit
  | [], _ => SE.ret ()
  | _ :: _, [] => SE.undefined            -- jacobians[i] out of range
  | none :: _, _ :: _ => SE.undefined     -- null variable pointer
  | some r :: vs, Ji :: js =>
    if Ji.isEmpty then
      if VarLike.isConst (h r) then denseVars g h fp vs js else SE.throw
    else match g.variablePlacement (VarLike.id (h r)) with
      | none => denseVars g h fp vs js
      | some p => SE.bind SE.get fun J =>
        if fp.residualIndex + Ji.rows > J.rows ∨ p.index + Ji.cols > J.cols then SE.throw
        else if Ji.rows ≠ fp.residualDim then SE.throw
        else if Ji.cols ≠ p.dim then SE.throw
        else SE.bind (SE.put (J.setBlock fp.residualIndex p.index Ji)) fun _ =>
          denseVars g h fp vs js

/-- Outer loop body of `compute_full_jacobian_matrix`, factor_graph.cpp:163-216. -/
def denseOne (g : Graph F V) (h : Heap V) (it : Nat × FacPlacement F V) : SE (Mat F) Unit :=
  SE.bind (SE.lift (it.2.factor.computeJacobians h [])) fun js =>
    denseVars g h it.2 it.2.factor.variables js

/-- `compute_full_jacobian_matrix`, factor_graph.cpp:153-220. -/
def computeDense (env : Env F V) (h : Heap V) : SE (Graph F V) (Mat F) := fun g =>
  if !g.finalized then (g, .threw)
  else
    let start : Mat F := if g.jacValid then g.cachedJac else ⟨g.numResiduals, g.numValues, fun _ _ => 0⟩
    match SE.forEach (env.order g.facPl) (denseOne g h) start with
    | (J, .ok ()) => ({ g with cachedJac := J, jacValid := true }, .ok J)
    | (J, .threw) => ({ g with cachedJac := J }, .threw)
    | (J, .ub) => ({ g with cachedJac := J }, .ub)

/-- `compute_full_jacobian_and_residual`, factor_graph.cpp:222-230. -/
def computeDenseAndResidual (env : Env F V) (h : Heap V) : SE (Graph F V) Unit := fun g =>
  if !g.finalized then (g, .threw)
  else SE.bind (computeDense env h) (fun _ => SE.bind (computeResidual env h) fun _ => SE.ret ()) g

/-! ### finalize_structure -/

/-- Width of a variable in the Jacobian, factor_graph.cpp:246-250. -/
def placedDim (v : V) : Nat := if VarLike.isConst v then 0 else VarLike.size v

/-- Column assignment loop, factor_graph.cpp:241-253. -/
def placeVariables (h : Heap V) : List VRef → Nat → (Int → Option VarPlacement) →
    (Int → Option VarPlacement) × Nat
  | [], off, m => (m, off)
  | r :: rs, off, m =>
    placeVariables h rs (off + placedDim (h r)) (mapSet m (VarLike.id (h r)) ⟨r, off, placedDim (h r)⟩)

/-- Column list of one factor, factor_graph.cpp:265-283. -/
def factorColumns (h : Heap V) (pl : Int → Option VarPlacement) :
    List (Option VRef) → Res (List Nat × List Nat)
  | [] => .ok ([], [])
  | none :: _ => .threw
  | some r :: vs =>
    if VarLike.isConst (h r) then factorColumns h pl vs
    else match pl (VarLike.id (h r)) with
      | none => .threw
      | some p => match factorColumns h pl vs with
        | .ok (cs, ds) => .ok (p.index :: cs, p.dim :: ds)
        | .threw => .threw
        | .ub => .ub

/-- Row assignment loop, factor_graph.cpp:258-288; the state is `factor_placement_`, the result the
final `row_offset`. -/
def placeFactors (h : Heap V) (pl : Int → Option VarPlacement) :
    List (Factor F V) → Nat → Nat → SE (List (Nat × FacPlacement F V)) Nat
  | [], _, off => SE.ret off
  | f :: fs, i, off =>
    SE.bind (SE.lift (factorColumns h pl f.variables)) fun cd =>
    SE.bind (SE.modify fun m => m ++ [(i, ⟨f, off, f.residualSize, cd.1, cd.2⟩)]) fun _ =>
    placeFactors h pl fs (i + 1) (off + f.residualSize)

/-- `for i in [base, base+dim): counts[i] += d` on an `Eigen::VectorXi`, factor_graph.cpp:317-319. -/
def addRange (counts : List Nat) (base dim d : Nat) : Res (List Nat) :=
  if dim = 0 ∨ base + dim ≤ counts.length then
    .ok (counts.mapIdx fun i x => if base ≤ i ∧ i < base + dim then x + d else x)
  else .ub

/-- Row counting for one factor, factor_graph.cpp:307-320. -/
def countVars (h : Heap V) (pl : Int → Option VarPlacement) (rowDim : Nat) :
    List (Option VRef) → List Nat → Res (List Nat)
  | [], counts => .ok counts
  | none :: _, _ => .ub
  | some r :: vs, counts =>
    if VarLike.isConst (h r) then countVars h pl rowDim vs counts
    else match pl (VarLike.id (h r)) with
      | none => .ub
      | some p => match addRange counts p.index p.dim rowDim with
        | .ok counts' => countVars h pl rowDim vs counts'
        | .threw => .threw
        | .ub => .ub

/-- Row counting for all factors, factor_graph.cpp:303-321. -/
def countRows (h : Heap V) (pl : Int → Option VarPlacement) :
    List (Nat × FacPlacement F V) → List Nat → Res (List Nat)
  | [], counts => .ok counts
  | (_, fp) :: fps, counts =>
    match countVars h pl fp.residualDim fp.factor.variables counts with
    | .ok counts' => countRows h pl fps counts'
    | .threw => .threw
    | .ub => .ub

/-- One write `arr[col][cur[col]] = x; cur[col]++` of the scatter loops factor_graph.cpp:348-352 and
factor_graph.cpp:412-427. `cur[col]` is read first; `bad` is what happens when `arr` has no such column
or the column is full (undefined behaviour in `finalize_structure`, an exception in
`compute_sparse_jacobian_matrix`). -/
def scatterOne {α : Type} (bad : Res Unit) (w : Nat × α) : SE (List (List α) × List Nat) Unit :=
  fun s =>
    match s.2[w.1]? with
    | none => (s, .ub)
    | some k =>
      match s.1[w.1]? with
      | none => (s, bad)
      | some col =>
        if k < col.length then ((s.1.set w.1 (col.set k w.2), s.2.set w.1 (k + 1)), .ok ())
        else (s, bad)

/-- The order of the writes of one block: rows outside, columns inside
(factor_graph.cpp:346-354 and 408-429). -/
def blockWrites {α : Type} (colBase rowDim colDim : Nat) (x : Nat → Nat → α) : List (Nat × α) :=
  (List.range rowDim).flatMap fun r => (List.range colDim).map fun c => (colBase + c, x r c)

/-- The writes of one factor in the second loop of `finalize_structure`, factor_graph.cpp:342-355. -/
def rowIndexWrites (fp : FacPlacement F V) : List (Nat × Nat) :=
  (fp.columnIndices.zip fp.dims).flatMap fun cd =>
    blockWrites cd.1 fp.residualDim cd.2 fun r _ => fp.residualIndex + r

/-- `finalize_structure`, factor_graph.cpp:232-367. -/
def finalizeStructure (h : Heap V) : SE (Graph F V) Unit := fun g0 =>
  let (pl, numVals) := placeVariables h g0.varsVec 0 (fun _ => none)
  match placeFactors h pl g0.facs 0 0 [] with
  | (fpl, .threw) => ({ g0 with varPl := pl, facPl := fpl }, .threw)
  | (fpl, .ub) => ({ g0 with varPl := pl, facPl := fpl }, .ub)
  | (fpl, .ok numRes) =>
    let g1 : Graph F V := { g0 with varPl := pl, facPl := fpl, numResiduals := numRes, numValues := numVals }
    if numRes < numVals then (g1, .threw)
    else match countRows h pl fpl (List.replicate numVals 0) with
      | .threw => (g1, .threw)
      | .ub => (g1, .ub)
      | .ok counts =>
        let g2 : Graph F V := { g1 with sparseData := counts.map fun n => List.replicate n 0 }
        match SE.forEach (fpl.flatMap fun it => rowIndexWrites it.2) (scatterOne .ub)
            (counts.map fun n => List.replicate n 0, List.replicate numVals 0) with
        | (s, .threw) => ({ g2 with sparseRows := s.1 }, .threw)
        | (s, .ub) => ({ g2 with sparseRows := s.1 }, .ub)
        | (s, .ok ()) =>
          ({ g2 with
              sparseRows := s.1
              sparse := g0.sparse.reserveFresh numRes counts
              sparseInit := true
              sparseComps := List.replicate g0.facs.length []
              finalized := true }, .ok ())

/-! ### Sparse Jacobian -/

/-- Working state of `compute_sparse_jacobian_matrix`: the graph and `current_row_index`. -/
structure SparseWork (F V : Type) where
  g : Graph F V
  cur : List Nat

/-- Run scatter writes on `sparse_jacobian_data_`. -/
def scatterData (ws : List (Nat × F)) : SE (SparseWork F V) Unit := fun s =>
  match SE.forEach ws (scatterOne .threw) (s.g.sparseData, s.cur) with
  | (d, r) => (⟨{ s.g with sparseData := d.1 }, d.2⟩, r)

/-- Inner loop over the variables of a factor, factor_graph.cpp:395-430. -/
def sparseVars (h : Heap V) : List (Option VRef) → List (Mat F) → SE (SparseWork F V) Unit
  | [], _ => SE.ret ()
  | _ :: _, [] => SE.undefined            -- jacobians[i] out of range
  | none :: _, _ :: _ => SE.undefined     -- null variable pointer
  | some r :: vs, Ji :: js => SE.bind SE.get fun s =>
    match s.g.variablePlacement (VarLike.id (h r)) with
    | none => sparseVars h vs js
    | some p => SE.bind (scatterData (blockWrites p.index Ji.rows Ji.cols Ji.entry)) fun _ =>
        sparseVars h vs js

/-- Outer loop body, factor_graph.cpp:382-431, for factor index `i`. `factor_placement_[i]` of a missing
key yields an uninitialised factor pointer; an index beyond `sparse_jacobian_components_` is out of
range: both are undefined behaviour. -/
def sparseOne (h : Heap V) (i : Nat) : SE (SparseWork F V) Unit := SE.bind SE.get fun s =>
  match s.g.facPl.lookup i, s.g.sparseComps[i]? with
  | some fp, some buf =>
    match fp.factor.computeJacobians h buf with
    | .threw => SE.throw
    | .ub => SE.undefined
    | .ok js =>
      SE.bind (SE.modify fun s => { s with g := { s.g with sparseComps := s.g.sparseComps.set i js } }) fun _ =>
        sparseVars h fp.factor.variables js
  | _, _ => SE.undefined

/-- Inner loop of the first population, factor_graph.cpp:457-466. `k` counts through the column. -/
def populateColumn (c : Nat) (data : List F) : List Nat → Nat → SE (SpMat F) Unit
  | [], _ => SE.ret ()
  | row :: rest, k =>
    match data[k]? with
    | none => SE.undefined
    | some v => SE.bind SE.get fun m =>
      match m.setCoeff row c v with
      | .ok m' => SE.bind (SE.put m') fun _ => populateColumn c data rest (k + 1)
      | .threw => SE.throw
      | .ub => SE.undefined

/-- First population through `coeffRef`, factor_graph.cpp:452-467. -/
def populate (rowsIdx : List (List Nat)) (data : List (List F)) (numValues : Nat) : SE (SpMat F) Unit :=
  SE.forEach (List.range numValues) fun c =>
    match rowsIdx[c]?, data[c]? with
    | some rs, some d => populateColumn c d rs 0
    | some [], none => SE.ret ()
    | _, _ => SE.undefined

/-- Loop of `copy_sparse_data_to_eigen_matrix`, factor_graph.cpp:687-715. `total` is `nonZeros()`. -/
def copyLoop (rowsIdx : List (List Nat)) (data : List (List F)) (total : Nat) :
    List Nat → Nat → SE (SpMat F) Unit
  | [], _ => SE.ret ()
  | c :: cs, running =>
    match rowsIdx[c]?, data[c]? with
    | some rs, some d =>
      if d.length ≠ rs.length then SE.throw
      else if d.isEmpty then copyLoop rowsIdx data total cs running
      else if running ≥ total then SE.throw
      else if running + rs.length > total then SE.throw
      else SE.bind (SE.modify fun m => { m with columns := SpMat.writeSlots d running m.columns }) fun _ =>
        copyLoop rowsIdx data total cs (running + rs.length)
    | _, _ => SE.undefined

/-- `copy_sparse_data_to_eigen_matrix`, factor_graph.cpp:671-716 (the conversion check of lines 698-700
and the negativity checks are vacuous for natural numbers). -/
def copySparse (rowsIdx : List (List Nat)) (data : List (List F)) (numValues : Nat) : SE (SpMat F) Unit :=
  SE.bind SE.get fun m =>
  if m.alloc = 0 then SE.throw
  else copyLoop rowsIdx data m.nonZeros (List.range numValues) 0

/-- `compute_sparse_jacobian_matrix`, factor_graph.cpp:369-483. -/
def computeSparse (h : Heap V) : SE (Graph F V) (SpMat F) := fun g0 =>
  if !g0.finalized then (g0, .threw)
  else if !g0.sparseInit then (g0, .threw)
  else match SE.forEach (List.range g0.facs.length) (sparseOne h) ⟨g0, List.replicate g0.numValues 0⟩ with
    | (s, .threw) => (s.g, .threw)
    | (s, .ub) => (s.g, .ub)
    | (s, .ok ()) =>
      let g1 := s.g
      let fill := if g1.sparseValid then copySparse g1.sparseRows g1.sparseData g1.numValues
                  else populate g1.sparseRows g1.sparseData g1.numValues
      match fill g1.sparse with
      | (m, .threw) => ({ g1 with sparse := m }, .threw)
      | (m, .ub) => ({ g1 with sparse := m }, .ub)
      | (m, .ok ()) => ({ g1 with sparse := m, sparseValid := true }, .ok m)

/-- The implicit copy constructor of `FactorGraph`, factor_graph.hpp:48-51 and 217-253 (`std::make_shared<FactorGraph>(graph)`
in EXAMPLES.md:87): member by member. The variable and factor objects are shared with the original. The order in which a
copied hash table is traversed may differ (`Env`). -/
def copy (g : Graph F V) : Graph F V := { g with sparse := g.sparse.copied }

end Graph
end Factorama
