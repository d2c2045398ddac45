import Verif.Model.Names
import Verif.Model.RealArith

/-!
# Drawing a graph from Python

`PlotFactorGraph` of the Python package, python_bindings/python/factorama/__init__.py:23-714. A drawing is the list of things
handed to matplotlib, in order. Colours, line styles, labels, legend, title and grid are left out, apart from the kind of
each thing. In a 2D drawing matplotlib gets the first two coordinates only; here each point keeps three coordinates and
`Options.threeD` tells which are shown. `np.linalg.eigh` is a parameter (`Eigh`). A Python exception is the outcome `threw`.
-/

namespace Factorama.Plot
open Matrix Geo Spec

/-- A factor as Python sees it: its class, the C++ object, and what the accessors bound for that class return
(python_bindings/python/factorama/_factorama.cpp:161-277). An accessor that is not bound for the class is `none`. -/
structure PyFactor where
  cls : FactorClass
  fac : Factor ℝ RVar
  /-- `bearing_C_obs()` -/
  bearingC : Option V3 := none
  /-- `bearing_angle_obs()` -/
  angle : Option ℝ := none
  /-- `range_obs()` -/
  range : Option ℝ := none

/-- The bound accessors of `BearingObservationFactor`, _factorama.cpp:161-167, bearing_observation_factor.hpp:41, 84. -/
noncomputable def PyFactor.bearingObservation (id : Int) (p l : VRef) (bearing : V3) (sigma : ℝ) : PyFactor :=
  { cls := .bearingObservation, fac := Fac.bearingObservation id p l bearing sigma, bearingC := some (normalized bearing) }

/-- The bound accessors of `BearingObservationFactor2D`, _factorama.cpp:241-246, bearing_observation_factor_2d.hpp:51. -/
noncomputable def PyFactor.bearing2D (id : Int) (p l : VRef) (obs sigma : ℝ) : PyFactor :=
  { cls := .bearing2D, fac := Fac.bearing2D id p l obs sigma, angle := some obs }

/-- The bound accessors of `RangeBearingFactor2D`, _factorama.cpp:248-255, range_bearing_factor_2d.hpp:58-59. -/
noncomputable def PyFactor.rangeBearing2D (id : Int) (p l : VRef) (rangeObs obs rs bs : ℝ) : PyFactor :=
  { cls := .rangeBearing2D, fac := Fac.rangeBearing2D id p l rangeObs obs rs bs, angle := some obs, range := some rangeObs }

/-- The arguments of `PlotFactorGraph`, __init__.py:23; a given axis changes nothing of what is drawn. -/
structure Options where
  threeD : Bool := true
  covariance : Bool := false
  measurements : Bool := true
  between : Bool := true

/-- What a marker stands for, by its label, __init__.py:123, 143, 158, 164, 173, 188, 202, 227. -/
inductive Mark where
  | pose | landmark | pose2d | landmark2d
  deriving DecidableEq

/-- What a line stands for, __init__.py:520-529, 567-576, 611-620, 701-710. -/
inductive Line where
  | bearing | bearing2d | rangeBearing | between
  deriving DecidableEq

/-- One thing handed to matplotlib. -/
inductive Item where
  /-- one point of a `scatter` -/
  | marker (k : Mark) (p : V3)
  /-- `plot` with two points -/
  | line (k : Line) (a b : V3)
  /-- `quiver` or `arrow`: start and the vector drawn -/
  | arrow (a d : V3)
  /-- an `Ellipse` patch: centre, width, height and angle (in radians) -/
  | ellipse (centre : V2) (width height angle : ℝ)
  /-- the points given to `plot_surface` -/
  | surface (mesh : List V3)
  /-- `set_xlim`, `set_ylim`, `set_zlim` -/
  | limits (lo hi : V3)

/-- A point of the plane at height zero, __init__.py:155-164. -/
def lift (p : V2) : V3 := ![p 0, p 1, 0]

/-- The variables that are drawn, in the order of `get_all_variables()`, with their positions. -/
structure Gathered where
  pose : List (VRef × PoseVar) := []
  landmark : List (VRef × V3) := []
  pose2d : List (VRef × Pose2DVar) := []
  landmark2d : List (VRef × V2) := []

/-- The loop over the variables, __init__.py:72-96. -/
def gather (h : Heap RVar) : List VRef → Res Gathered
  | [] => .ok {}
  | r :: rs =>
    match h r with
    | .pose v => (gather h rs).map fun g => { g with pose := (r, v) :: g.pose }
    | .landmark x => x.posW.andThen fun p => (gather h rs).map fun g => { g with landmark := (r, p) :: g.landmark }
    | .pose2d v => (gather h rs).map fun g => { g with pose2d := (r, v) :: g.pose2d }
    | .generic v =>
      if v.value.length = 2 then
        (gather h rs).map fun g => { g with landmark2d := (r, ![v.value.getD 0 0, v.value.getD 1 0]) :: g.landmark2d }
      else gather h rs
    | _ => gather h rs

/-- All positions, planar ones at height zero, in the order of __init__.py:269-280 (and of 304-312, 329-340, where the
order does not matter). -/
def Gathered.positions (g : Gathered) : List V3 :=
  g.pose.map (·.2.pos) ++ g.landmark.map (·.2) ++ g.pose2d.map (fun p => lift p.2.pos) ++ g.landmark2d.map (fun p => lift p.2)

/-- `a[:, i].max()`; zero for no points, for which it is not called. -/
noncomputable def top (ps : List V3) (i : Fin 3) : ℝ := match ps with
  | [] => 0
  | p :: rest => rest.foldr (fun q m => max (q i) m) (p i)

/-- `a[:, i].min()`. -/
noncomputable def bottom (ps : List V3) (i : Fin 3) : ℝ := match ps with
  | [] => 0
  | p :: rest => rest.foldr (fun q m => min (q i) m) (p i)

/-- The extent of the points along one axis. -/
noncomputable def extent (ps : List V3) (i : Fin 3) : ℝ := top ps i - bottom ps i

/-- `_compute_arrow_length`, __init__.py:299-321; called with at least one position. -/
noncomputable def arrowLength (ps : List V3) : ℝ := max (5 / 100 * ((extent ps 0 + extent ps 1) / 2)) (1 / 10)

/-- `_compute_arrow_length_3d`, __init__.py:324-350; called with at least one position. -/
noncomputable def arrowLength3 (ps : List V3) : ℝ := max (8 / 100 * ((extent ps 0 + extent ps 1 + extent ps 2) / 3)) (1 / 5)

/-- The three arrows of a pose, `_plot_3d_pose_arrows`, __init__.py:353-396. matplotlib draws a vector of the given length in
the direction of the given vector scaled by the length (`normalize=False`). -/
noncomputable def poseArrows (len : ℝ) (v : PoseVar) : List Item :=
  [.arrow v.pos (len • v.dcm 0), .arrow v.pos (len • v.dcm 1), .arrow v.pos (len • v.dcm 2)]

/-- `np.linalg.eigh`: eigenvalues and a matrix with the eigenvectors as columns. -/
structure Eigh where
  values {n : Nat} : Matrix (Fin n) (Fin n) ℝ → Fin n → ℝ
  vectors {n : Nat} : Matrix (Fin n) (Fin n) ℝ → Matrix (Fin n) (Fin n) ℝ

/-- `cov[:n, :n]`. -/
def corner (n : Nat) (P : Mat ℝ) : Matrix (Fin n) (Fin n) ℝ := Matrix.of fun i j => P.entry i j

/-- `_plot_covariance_ellipse_2d` with `n_std = 1`, __init__.py:399-431. The eigenvalues of `eigh` are ascending, so the
reversed order is: last first. -/
noncomputable def ellipse (E : Eigh) (centre : V2) (C : Matrix (Fin 2) (Fin 2) ℝ) : Item :=
  .ellipse centre (2 * √(E.values C 1)) (2 * √(E.values C 0)) (atan2 (E.vectors C 1 1) (E.vectors C 0 1))

/-- The points of `_plot_covariance_ellipsoid_3d` with `n_std = 1` and `resolution = 20`, __init__.py:434-471. -/
noncomputable def ellipsoidMesh (E : Eigh) (centre : V3) (C : M3) : List V3 :=
  (List.range 20).flatMap fun (i : Nat) => (List.range 20).map fun (j : Nat) =>
    let u : ℝ := i * (2 * Real.pi / 19)
    let w : ℝ := j * (Real.pi / 19)
    let s : V3 := ![Real.cos u * Real.sin w, Real.sin u * Real.sin w, Real.cos w]
    E.vectors C *ᵥ (fun k => √(E.values C k) * s k) + centre

/-- `covariances`, the dictionary from ids to matrices. -/
abbrev Covs := Int → Option (Mat ℝ)

/-- The ellipse or ellipsoid of one variable, if its covariance is known, __init__.py:130-139, 146-152, 176-184, 191-198,
215-223, 230-236. -/
noncomputable def region (draw : Mat ℝ → Item) (covs : Covs) (id : Int) (least : Nat) : List Item :=
  match covs id with
  | some P => if least ≤ P.rows then [draw P] else []
  | none => []

/-- The ellipsoid of one variable, __init__.py:132-139, 148-152. -/
noncomputable def region3 (E : Eigh) (h : Heap RVar) (covs : Covs) (r : VRef) (centre : V3) : List Item :=
  region (fun P => .surface (ellipsoidMesh E centre (corner 3 P))) covs (VarLike.id (h r)) 3

/-- The ellipse of one variable, __init__.py:177-184, 192-198, 216-223, 231-236. -/
noncomputable def region2 (E : Eigh) (h : Heap RVar) (covs : Covs) (r : VRef) (centre : V2) : List Item :=
  region (fun P => ellipse E centre (corner 2 P)) covs (VarLike.id (h r)) 2

/-- The part of a drawing that shows variables in 3D, __init__.py:119-168. -/
noncomputable def drawVariables3 (E : Eigh) (o : Options) (h : Heap RVar) (covs : Covs) (g : Gathered) : List Item :=
  g.pose.map (fun p => .marker .pose p.2.pos) ++
  g.pose.flatMap (fun p => poseArrows (arrowLength3 g.positions) p.2) ++
  (if o.covariance then g.pose.flatMap fun p => region3 E h covs p.1 p.2.pos else []) ++
  g.landmark.map (fun p => .marker .landmark p.2) ++
  (if o.covariance then g.landmark.flatMap fun p => region3 E h covs p.1 p.2 else []) ++
  g.pose2d.map (fun p => .marker .pose2d (lift p.2.pos)) ++
  g.landmark2d.map (fun p => .marker .landmark2d (lift p.2))

/-- The part of a drawing that shows variables in 2D, __init__.py:169-239. -/
noncomputable def drawVariables2 (E : Eigh) (o : Options) (h : Heap RVar) (covs : Covs) (g : Gathered) : List Item :=
  g.pose.map (fun p => .marker .pose p.2.pos) ++
  (if o.covariance then g.pose.flatMap fun p => region2 E h covs p.1 ![p.2.pos 0, p.2.pos 1] else []) ++
  g.landmark.map (fun p => .marker .landmark p.2) ++
  (if o.covariance then g.landmark.flatMap fun p => region2 E h covs p.1 ![p.2 0, p.2 1] else []) ++
  g.pose2d.map (fun p => .marker .pose2d (lift p.2.pos)) ++
  g.pose2d.map (fun p => .arrow (lift p.2.pos)
    (arrowLength g.positions • ![Real.cos p.2.theta, Real.sin p.2.theta, 0])) ++
  (if o.covariance then g.pose2d.flatMap fun p => region2 E h covs p.1 p.2.pos else []) ++
  g.landmark2d.map (fun p => .marker .landmark2d (lift p.2)) ++
  (if o.covariance then g.landmark2d.flatMap fun p => region2 E h covs p.1 p.2 else [])

/-- Calling an accessor: `AttributeError` if it is not bound for the class. -/
def accessor {α : Type} : Option α → Res α
  | some a => .ok a
  | none => .threw

/-- `pos_W()` as Python calls it on any object, _factorama.cpp:109, 117, 135. `InverseRangeVariable` has it as well. -/
noncomputable def pyPosW : RVar → Res V3
  | .pose v => .ok v.pos
  | .landmark x => x.posW
  | .invRange x => match x.posW with
    | some p => .ok p
    | none => .ub
  | _ => .threw

/-- `dcm_CW()`, _factorama.cpp:111. -/
def pyDcm : RVar → Res M3
  | .pose v => .ok v.dcm
  | _ => .threw

/-- `pos_2d()` and `theta()`, _factorama.cpp:154-155. -/
def pyPose2d : RVar → Res Pose2DVar
  | .pose2d v => .ok v
  | _ => .threw

/-- `bearing_W` of a planar measurement, __init__.py:548-557, 596-605. -/
noncomputable def planarBearing (v : Pose2DVar) (obs : ℝ) : V2 :=
  (!![Real.cos v.theta, -Real.sin v.theta; Real.sin v.theta, Real.cos v.theta] : Matrix (Fin 2) (Fin 2) ℝ) *ᵥ
    ![Real.cos obs, Real.sin obs]

/-- The line of one measurement, if its factor gets one, `_plot_bearing_lines`, __init__.py:474-624. `landmark.value()[:2]`
of a value with fewer than two entries is `.ub` (numpy broadcasts or throws). -/
noncomputable def measurementLine (h : Heap RVar) (f : PyFactor) : Res (List Item) :=
  match factorType f.cls, f.fac.variables with
  | .bearingObservation, some p :: some l :: _ =>
    (pyPosW (h p)).andThen fun pos => (pyDcm (h p)).andThen fun dcm => (accessor f.bearingC).andThen fun b =>
    (pyPosW (h l)).map fun lm => [.line .bearing pos (pos + vnorm (lm - pos) • (dcmᵀ *ᵥ b))]
  | .bearingObservation2d, some p :: some l :: _ =>
    (pyPose2d (h p)).andThen fun v => (accessor f.angle).andThen fun obs =>
    (Fac.head2 (VarLike.value (h l))).map fun lm =>
      [.line .bearing2d (lift v.pos) (lift (v.pos + vnorm (lm - v.pos) • planarBearing v obs))]
  | .rangeBearing2d, some p :: some _ :: _ =>
    (pyPose2d (h p)).andThen fun v => (accessor f.range).andThen fun range => (accessor f.angle).map fun obs =>
      [.line .rangeBearing (lift v.pos) (lift (v.pos + range • planarBearing v obs))]
  | _, _ => .ok []

/-- The position of an end of a line between poses, __init__.py:682-697. -/
def endOf : RVar → Option V3
  | .pose v => some v.pos
  | .pose2d v => some (lift v.pos)
  | _ => none

/-- The types treated as relations between two poses, __init__.py:652-678. -/
def isBetween : FactorType → Bool
  | .pose2dBetween | .posePositionBetween | .poseOrientationBetween | .genericBetween => true
  | _ => false

/-- The line of one relation, `_plot_between_factors`, __init__.py:627-714. -/
def betweenLine (h : Heap RVar) (f : PyFactor) : List Item :=
  match isBetween (factorType f.cls), f.fac.variables with
  | true, some a :: some b :: _ => match endOf (h a), endOf (h b) with
    | some pa, some pb => [.line .between pa pb]
    | _, _ => []
  | _, _ => []

/-- The loop over the factors that draws measurements. -/
noncomputable def measurementLines (h : Heap RVar) : List PyFactor → Res (List Item)
  | [] => .ok []
  | f :: fs => (measurementLine h f).andThen fun a => (measurementLines h fs).map fun b => a ++ b

/-- The axis limits of a 3D drawing, __init__.py:267-292. -/
noncomputable def axisLimits (ps : List V3) : List Item :=
  if ps.isEmpty then []
  else
    let half := max (max (extent ps 0) (extent ps 1)) (extent ps 2) / 2
    let mid : V3 := fun i => (top ps i + bottom ps i) * (5 / 10)
    [.limits (fun i => mid i - half) (fun i => mid i + half)]

/-- `PlotFactorGraph` once the covariances are known, __init__.py:57-106, 118-296. -/
noncomputable def draw (E : Eigh) (o : Options) (h : Heap RVar) (vars : List VRef) (facs : List PyFactor) (covs : Covs) :
    Res (List Item) :=
  (gather h vars).andThen fun g =>
  (if o.measurements then measurementLines h facs else .ok []).map fun ms =>
    (if o.threeD then drawVariables3 E o h covs g else drawVariables2 E o h covs g) ++ ms ++
    (if o.between then facs.flatMap (betweenLine h) else []) ++
    (if o.threeD then axisLimits g.positions else [])

/-- The dictionary `covariances`, __init__.py:107-116. -/
noncomputable def collect {Fact : Type} (L : LinAlg ℝ Fact) (s : OptWorld ℝ RVar Fact) : List VRef → Res Covs
  | [] => .ok fun _ => none
  | r :: rs => (Opt.estimateCovariance realArith L s (some r)).andThen fun c =>
    (collect L s rs).map fun d => fun i =>
      match d i with
      | some P => some P
      | none => if i = VarLike.id (s.heap r) then c else none

/-- `PlotFactorGraph`, __init__.py:23-296, for a graph and its optimizer; `facs` are the Python objects of the factors of the
graph. `optimizer=None` with `plot_covariance=True` draws no covariances, as `plot_covariance=False`.
Simplification: the positions are read after the covariances, not before; nothing between changes them. -/
noncomputable def plot {Fact : Type} (E : Eigh) (L : LinAlg ℝ Fact) (o : Options) (facs : List PyFactor) :
    SE (OptWorld ℝ RVar Fact) (List Item) := fun s =>
  if o.covariance then
    SE.bind (Opt.prepare realArith L) (fun _ => fun s1 =>
      (s1, (collect L s1 s.graph.getAllVariables).andThen fun covs => draw E o s1.heap s.graph.getAllVariables facs covs)) s
  else (s, draw E o s.heap s.graph.getAllVariables facs fun _ => none)

end Factorama.Plot
