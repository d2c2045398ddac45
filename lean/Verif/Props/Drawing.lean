import Verif.Lemmas.Plot
import Verif.Props.FactorsBearing
import Verif.Props.FactorsPlanar

/-!
# Drawing a graph: C94, C95
-/

namespace Factorama.Props
open Spec Matrix Geo Plot

namespace C94
/-- A pose at the origin looking along the world axes, and landmarks. -/
noncomputable def heap : Heap RVar := fun r =>
  if r = 0 then .pose ⟨1, false, 0, 0, [], 1⟩ else if r = 1 then .landmark ⟨2, false, [0, 3, 4]⟩
  else if r = 2 then .pose2d ⟨3, false, ![1, 2], 0⟩ else if r = 3 then .generic ⟨4, false, [4, 6]⟩
  else .invRange (InvRangeVar.make 5 0 ![0, 0, 1] 10)

/-- An `eigh` that is never called in these drawings. -/
def eigh : Eigh := ⟨fun _ _ => 0, fun _ => 0⟩

theorem sized : LandmarksSized heap := by
  intro r x h
  unfold heap at h
  split at h
  · simp at h
  split at h
  · cases h; rfl
  split at h
  · simp at h
  split at h
  · simp at h
  · simp at h

/-- A measurement of a landmark, as a bearing and as a projection. -/
noncomputable def bearing : PyFactor := .bearingObservation 7 0 1 ![0, 0, 2] (1 / 10)
noncomputable def projection : PyFactor :=
  { cls := .bearingProjection, fac := Fac.bearingProjection 8 0 1 ![0, 0, 2] (1 / 10) 1e-6 }
noncomputable def planar : PyFactor := .bearing2D 9 2 3 0 (1 / 10)
noncomputable def ranged : PyFactor := .rangeBearing2D 10 2 3 6 0 1 (1 / 10)

theorem seen_bearing : Seen heap bearing :=
  .bearingObservation (v := ⟨1, false, 0, 0, [], 1⟩) (x := ⟨2, false, [0, 3, 4]⟩) 7 0 1 _ _ (by simp [heap]) (by simp [heap])

theorem seen_projection : Seen heap projection :=
  .other _ (.bearingProjection (v := ⟨1, false, 0, 0, [], 1⟩) (x := ⟨2, false, [0, 3, 4]⟩) 8 0 1 _ _ _ (by simp [heap])
    (by simp [heap])) (by simp [projection]) (by simp [projection]) (by simp [projection]) rfl rfl rfl

theorem seen_planar : Seen heap planar :=
  .bearing2D (v := ⟨3, false, ![1, 2], 0⟩) 9 2 3 _ _ (by simp [heap]) (by simp [heap]; rfl)

theorem seen_ranged : Seen heap ranged :=
  .rangeBearing2D (v := ⟨3, false, ![1, 2], 0⟩) 10 2 3 _ _ _ _ (by simp [heap]) (by simp [heap]; rfl)

theorem seen : ∀ f ∈ [bearing, planar, ranged], Seen heap f := by
  intro f hf
  simp only [List.mem_cons, List.not_mem_nil, or_false] at hf
  rcases hf with rfl | rfl | rfl
  exacts [seen_bearing, seen_planar, seen_ranged]

theorem drawable : ∀ f ∈ [bearing, planar, ranged], f.cls ≠ .bearingProjection := by
  intro f hf
  simp only [List.mem_cons, List.not_mem_nil, or_false] at hf
  rcases hf with rfl | rfl | rfl <;> simp [bearing, planar, ranged, PyFactor.bearingObservation, PyFactor.bearing2D,
    PyFactor.rangeBearing2D]
end C94

/-- **C94** is false of the code: with the default arguments a graph with a `BearingProjectionFactor2D` cannot be drawn; its
type is that of a bearing observation, but it has no `bearing_C_obs` in Python. -/
theorem C94_false : ¬ ∀ (E : Eigh) (h : Heap RVar) (vars : List VRef) (facs : List PyFactor), LandmarksSized h →
    (∀ f ∈ facs, Seen h f) → ∃ items, draw E {} h vars facs (fun _ => none) = .ok items := by
  intro hall
  obtain ⟨items, hi⟩ := hall C94.eigh C94.heap [0, 1] [C94.projection] C94.sized (by
    intro f hf
    simp only [List.mem_singleton] at hf
    subst hf
    exact C94.seen_projection)
  obtain ⟨g, ms, _, hms, _⟩ := draw_parts hi
  simp [measurementLines, measurementLine, C94.projection, factorType, Fac.bearingProjection, C94.heap, pyPosW, pyDcm,
    accessor, Res.andThen] at hms

/-- **C94**, the part that holds: without such factors, or without their measurements, every graph can be drawn, with and
without covariances, in 2D and in 3D. -/
theorem C94_partial (E : Eigh) (o : Options) (h : Heap RVar) (vars : List VRef) (facs : List PyFactor) (covs : Covs)
    (hl : LandmarksSized h) (hs : ∀ f ∈ facs, Seen h f)
    (hp : o.measurements = true → ∀ f ∈ facs, f.cls ≠ .bearingProjection) :
    ∃ items, draw E o h vars facs covs = .ok items := by
  obtain ⟨g, hg⟩ := gather_ok hl vars
  have hm : ∃ ms, (if o.measurements then measurementLines h facs else .ok []) = .ok ms := by
    split
    · rename_i ho
      exact measurementLines_ok hl hs (hp ho)
    · exact ⟨_, rfl⟩
  obtain ⟨ms, hms⟩ := hm
  unfold draw
  rw [hg]
  simp only [Res.andThen]
  rw [hms]
  exact ⟨_, rfl⟩

example : ∃ items, draw C94.eigh {} C94.heap [0, 1, 2, 3, 4] [C94.bearing, C94.planar, C94.ranged] (fun _ => none) = .ok items :=
  C94_partial _ _ _ _ _ _ C94.sized C94.seen fun _ => C94.drawable
example : ∃ items, draw C94.eigh { measurements := false } C94.heap [0, 1] [C94.projection] (fun _ => none) = .ok items :=
  C94_partial _ _ _ _ _ _ C94.sized (by
    intro f hf
    simp only [List.mem_singleton] at hf
    subst hf
    exact C94.seen_projection) (by simp)

/-! ### C95 What is shown where -/

/-- **C95** is false of the code: the landmark of an inverse range variable has a position, but is not shown. -/
theorem C95_false : ¬ ∀ (E : Eigh) (o : Options) (h : Heap RVar) (vars : List VRef) (facs : List PyFactor) (covs : Covs)
    (items : List Item), draw E o h vars facs covs = .ok items →
    ∀ r ∈ vars, ∀ p, pyPosW (h r) = .ok p → ∃ k, (k, p) ∈ markers items := by
  intro hall
  obtain ⟨items, hi⟩ := C94_partial C94.eigh {} C94.heap [4] [] (fun _ => none) C94.sized (by simp) (by simp)
  obtain ⟨g, hg, hm⟩ := draw_markers hi
  have h4 : C94.heap 4 = .invRange (InvRangeVar.make 5 0 ![0, 0, 1] 10) := by simp [C94.heap]
  have hpos : ∃ p, pyPosW (C94.heap 4) = .ok p := by
    have hinv : (InvRangeVar.make 5 0 ![0, 0, 1] 10).inv = 1 / 10 := by
      norm_num [InvRangeVar.make, InvRangeVar.initialInv, InvRangeVar.clip]
    rw [h4]
    simp only [pyPosW, InvRangeVar.posW]
    rw [hinv, if_neg (by rw [abs_of_pos] <;> norm_num)]
    exact ⟨_, rfl⟩
  obtain ⟨p, hpos⟩ := hpos
  obtain ⟨k, hk⟩ := hall _ _ _ _ _ _ _ hi 4 (by simp) _ hpos
  have hp := (gather_marks hg).mem_iff.mp (hm ▸ hk)
  simp [C94.heap, shownAs] at hp

/-- **C95**, the part that holds: the markers are those of the poses, landmarks, planar poses and two-dimensional vectors of
the graph, each once and at its position, and no others. -/
theorem C95_partial {E : Eigh} {o : Options} {h : Heap RVar} {vars : List VRef} {facs : List PyFactor} {covs : Covs}
    {items : List Item} (hd : draw E o h vars facs covs = .ok items) :
    (markers items).Perm (vars.filterMap fun r => shownAs (h r)) := by
  obtain ⟨g, hg, hm⟩ := draw_markers hd
  rw [hm]
  exact gather_marks hg

/-- A drawing of five variables, with four markers. -/
example : ∃ items, draw C94.eigh {} C94.heap [0, 1, 2, 3, 4] [C94.bearing, C94.planar, C94.ranged] (fun _ => none) = .ok items ∧
    (markers items).Perm [(.pose, 0), (.landmark, ![0, 3, 4]), (.pose2d, ![1, 2, 0]), (.landmark2d, ![4, 6, 0])] := by
  obtain ⟨items, hi⟩ := C94_partial C94.eigh {} C94.heap [0, 1, 2, 3, 4] [C94.bearing, C94.planar, C94.ranged]
    (fun _ => none) C94.sized C94.seen fun _ => C94.drawable
  refine ⟨items, hi, (C95_partial hi).trans ?_⟩
  have h3 : read3 [0, 3, 4] 0 = ![0, 3, 4] := by funext i; fin_cases i <;> simp [read3]
  simp [C94.heap, shownAs, h3]

/-- **C95**, orientation of a pose: in a 3D drawing three arrows start at its position, along the directions in the world
that the camera calls its first, second and third axis. -/
theorem C95_axes_partial {E : Eigh} {o : Options} {h : Heap RVar} {vars : List VRef} {facs : List PyFactor} {covs : Covs}
    {items : List Item} (hd : draw E o h vars facs covs = .ok items) (ho : o.threeD = true) {r : VRef} (hr : r ∈ vars)
    {v : PoseVar} (hv : h r = .pose v) (hR : IsRotation v.dcm) (i : Fin 3) :
    ∃ len ≥ (1 / 5 : ℝ), ∃ d : V3, Item.arrow v.pos d ∈ items ∧ v.dcm *ᵥ d = len • Pi.single i 1 := by
  obtain ⟨g, ms, hg, _, rfl⟩ := draw_parts hd
  have hm := (gather_pose hg hr).1 v hv
  refine ⟨arrowLength3 g.positions, le_max_right _ _, arrowLength3 g.positions • v.dcm i, ?_, ?_⟩
  · rw [if_pos ho]
    simp only [List.mem_append]
    refine .inl (.inl (.inl ?_))
    unfold drawVariables3
    simp only [List.mem_append]
    refine .inl (.inl (.inl (.inl (.inl (.inr ?_)))))
    refine List.mem_flatMap.mpr ⟨_, hm, ?_⟩
    fin_cases i <;> simp [poseArrows]
  · rw [Matrix.mulVec_smul]
    congr 1
    funext j
    have := congrFun (congrFun hR.1 j) i
    rw [Matrix.mul_apply] at this
    simp only [Matrix.mulVec, dotProduct, Matrix.transpose_apply] at this ⊢
    rw [this, Matrix.one_apply, Pi.single_apply]

example : ∃ items, draw C94.eigh {} C94.heap [0, 1, 2, 3, 4] [C94.bearing, C94.planar, C94.ranged] (fun _ => none) = .ok items ∧
    ∃ len ≥ (1 / 5 : ℝ), ∃ d : V3, Item.arrow 0 d ∈ items ∧ (1 : M3) *ᵥ d = len • Pi.single 2 1 := by
  obtain ⟨items, hi⟩ := C94_partial C94.eigh {} C94.heap [0, 1, 2, 3, 4] [C94.bearing, C94.planar, C94.ranged]
    (fun _ => none) C94.sized C94.seen fun _ => C94.drawable
  exact ⟨items, hi, C95_axes_partial hi rfl (r := 0) (v := ⟨1, false, 0, 0, [], 1⟩) (by simp) (by simp [C94.heap])
    isRotation_one 2⟩

/-- **C95**, orientation of a planar pose: in a 2D drawing an arrow starts at its position, in the direction of its
heading. -/
theorem C95_heading_partial {E : Eigh} {o : Options} {h : Heap RVar} {vars : List VRef} {facs : List PyFactor} {covs : Covs}
    {items : List Item} (hd : draw E o h vars facs covs = .ok items) (ho : o.threeD = false) {r : VRef} (hr : r ∈ vars)
    {v : Pose2DVar} (hv : h r = .pose2d v) :
    ∃ len ≥ (1 / 10 : ℝ), Item.arrow ![v.pos 0, v.pos 1, 0] (len • ![Real.cos v.theta, Real.sin v.theta, 0]) ∈ items := by
  obtain ⟨g, ms, hg, _, rfl⟩ := draw_parts hd
  have hm := (gather_pose hg hr).2.1 v hv
  refine ⟨arrowLength g.positions, le_max_right _ _, ?_⟩
  rw [if_neg (by simp [ho])]
  simp only [List.mem_append]
  refine .inl (.inl (.inl ?_))
  unfold drawVariables2
  simp only [List.mem_append]
  exact .inl (.inl (.inl (.inr (List.mem_map.mpr ⟨_, hm, rfl⟩))))

/-- **C95**, orientation, is false of the code for planar poses in a 3D drawing: nothing shows their heading. -/
theorem C95_heading_false : ¬ ∀ (E : Eigh) (o : Options) (h : Heap RVar) (vars : List VRef) (facs : List PyFactor) (covs : Covs)
    (items : List Item), draw E o h vars facs covs = .ok items →
    ∀ r ∈ vars, ∀ v, h r = .pose2d v → ∃ a d, Item.arrow a d ∈ items := by
  intro hall
  obtain ⟨items, hi⟩ := C94_partial C94.eigh {} C94.heap [2] [] (fun _ => none) C94.sized (by simp) (by simp)
  obtain ⟨a, d, hm⟩ := hall _ _ _ _ _ _ _ hi 2 (by simp) ⟨3, false, ![1, 2], 0⟩ (by simp [C94.heap])
  obtain ⟨g, ms, hg, hms, rfl⟩ := draw_parts hi
  simp [gather, C94.heap, Res.map] at hg
  simp [measurementLines] at hms
  subst hg hms
  simp [drawVariables3, axisLimits, Gathered.positions] at hm

example : ∃ items, draw C94.eigh { threeD := false } C94.heap [0, 1, 2, 3, 4] [C94.bearing] (fun _ => none) = .ok items ∧
    ∃ len ≥ (1 / 10 : ℝ), Item.arrow ![1, 2, 0] (len • ![Real.cos 0, Real.sin 0, 0]) ∈ items := by
  obtain ⟨items, hi⟩ := C94_partial C94.eigh { threeD := false } C94.heap [0, 1, 2, 3, 4] [C94.bearing]
    (fun _ => none) C94.sized (fun f hf => C94.seen f (by simp at hf; simp [hf])) (fun _ f hf => C94.drawable f (by simp at hf; simp [hf]))
  exact ⟨items, hi, C95_heading_partial hi rfl (r := 2) (v := ⟨3, false, ![1, 2], 0⟩) (by simp) (by simp [C94.heap])⟩

end Factorama.Props
