import Verif.Props.Drawing

/-!
# The lines of a drawing: C96
-/

namespace Factorama.Props
open Spec Matrix Geo Plot

theorem vnorm_rotated {R : M3} (hR : IsRotation R) (x : V3) : vnorm (R *ᵥ x) = vnorm x := by
  unfold vnorm
  rw [Matrix.dotProduct_mulVec, Matrix.vecMul_mulVec, IsRotation.transpose_mul hR, Matrix.vecMul_one]

/-- **C96** `BearingObservationFactor`: the line starts at the camera and misses the landmark by the distance of the landmark
times the length of the residual in units of sigma. -/
theorem C96_bearing_partial {E : Eigh} {o : Options} {h : Heap RVar} {vars : List VRef} {facs : List PyFactor} {covs : Covs}
    {items : List Item} (hd : draw E o h vars facs covs = .ok items) (ho : o.measurements = true)
    {id : Int} {p l : VRef} {bearing : V3} {sigma : ℝ} (hf : PyFactor.bearingObservation id p l bearing sigma ∈ facs)
    {v : PoseVar} {x : LandmarkVar} {pw : V3} (hp : h p = .pose v) (hl : h l = .landmark x) (hx : x.value = toList pw)
    (hR : IsRotation v.dcm) (hs : 0 < sigma) :
    ∃ (e : V3) (ρ : V3), (.bearing, v.pos, e) ∈ lines items ∧
      ResidualIs (Fac.bearingObservation id p l bearing sigma) h ρ ∧
      length (e - pw) = length (pw - v.pos) * (sigma * length ρ) := by
  refine ⟨v.pos + vnorm (pw - v.pos) • (v.dcmᵀ *ᵥ normalized bearing), _, ?_, bearing_residual hp hl hx id bearing sigma, ?_⟩
  · refine measurement_drawn hd ho hf ?_
    simp [measurementLine, PyFactor.bearingObservation, factorType, Fac.bearingObservation, hp, hl, pyPosW, pyDcm,
      accessor, Res.andThen, posW_of hx, Res.map]
  · rw [length_eq, length_eq, length_eq, vnorm_smul, abs_of_pos (by positivity)]
    by_cases h0 : pw - v.pos = 0
    · have : pw = v.pos := sub_eq_zero.mp h0
      rw [this]
      simp [vnorm]
    · have hn : vnorm (pw - v.pos) ≠ 0 := vnorm_ne h0
      have hn' : vnorm (v.dcm *ᵥ (pw - v.pos)) ≠ 0 := by rw [vnorm_rotated hR]; exact hn
      have hpos : 0 < vnorm (pw - v.pos) := lt_of_le_of_ne (vnorm_nonneg _) hn.symm
      rw [normalized_eq hn', vnorm_rotated hR]
      have hRt : v.dcmᵀ *ᵥ (v.dcm *ᵥ (pw - v.pos)) = pw - v.pos := by
        rw [Matrix.mulVec_mulVec, IsRotation.transpose_mul hR, Matrix.one_mulVec]
      have key : v.pos + vnorm (pw - v.pos) • (v.dcmᵀ *ᵥ normalized bearing) - pw =
          (-vnorm (pw - v.pos)) • (v.dcmᵀ *ᵥ ((vnorm (pw - v.pos))⁻¹ • (v.dcm *ᵥ (pw - v.pos)) - normalized bearing)) := by
        rw [Matrix.mulVec_sub, Matrix.mulVec_smul, hRt, smul_sub, smul_smul, neg_mul, mul_inv_cancel₀ hn]
        module
      rw [key, vnorm_smul, abs_neg, abs_of_pos hpos, vnorm_rotated (isRotation_transpose hR)]
      field_simp


example : ∃ items, draw C94.eigh {} C94.heap [0, 1, 2, 3, 4] [C94.bearing, C94.planar, C94.ranged] (fun _ => none) = .ok items ∧
    ∃ (e : V3) (ρ : V3), (.bearing, 0, e) ∈ lines items ∧
      ResidualIs (Fac.bearingObservation 7 0 1 ![0, 0, 2] (1 / 10)) C94.heap ρ ∧
      length (e - ![0, 3, 4]) = length (![0, 3, 4] - (0 : V3)) * (1 / 10 * length ρ) := by
  obtain ⟨items, hi⟩ := C94_partial C94.eigh {} C94.heap [0, 1, 2, 3, 4] [C94.bearing, C94.planar, C94.ranged]
    (fun _ => none) C94.sized C94.seen fun _ => C94.drawable
  exact ⟨items, hi, C96_bearing_partial hi rfl (id := 7) (p := 0) (l := 1) (bearing := ![0, 0, 2]) (sigma := 1 / 10)
    (by simp [C94.bearing]) (v := ⟨1, false, 0, 0, [], 1⟩) (x := ⟨2, false, [0, 3, 4]⟩) (by simp [C94.heap])
    (by simp [C94.heap]) (by simp [toList]) isRotation_one (by norm_num)⟩

theorem planarBearing_eq (v : Pose2DVar) (obs : ℝ) :
    planarBearing v obs = ![Real.cos (v.theta + obs), Real.sin (v.theta + obs)] := by
  rw [Real.cos_add, Real.sin_add]
  funext i
  fin_cases i <;> simp [planarBearing, Matrix.mulVec, dotProduct, Fin.sum_univ_two] <;> ring

/-- The landmark in polar coordinates about the pose. -/
theorem landmark_polar (v : Pose2DVar) (x : V2) :
    x = v.pos + vnorm (Fac.deltaLocal v x) • ![Real.cos (v.theta + atan2 (Fac.deltaLocal v x 1) (Fac.deltaLocal v x 0)),
      Real.sin (v.theta + atan2 (Fac.deltaLocal v x 1) (Fac.deltaLocal v x 0))] := by
  obtain ⟨e0, e1⟩ := vnorm_polar (Fac.deltaLocal v x)
  refine (deltaLocal_polar v x _ _).mpr ?_
  generalize atan2 (Fac.deltaLocal v x 1) (Fac.deltaLocal v x 0) = α at *
  generalize vnorm (Fac.deltaLocal v x) = n at *
  have := Real.sin_sq_add_cos_sq α
  rw [e0, e1]
  constructor
  · linear_combination n * this
  · ring

theorem deltaLocal_norm (v : Pose2DVar) (x : V2) : vnorm (Fac.deltaLocal v x) = vnorm (x - v.pos) := by
  rw [vnorm2, vnorm2, deltaLocal_eq]
  congr 1
  have := Real.sin_sq_add_cos_sq v.theta
  simp only [cons_val_zero, cons_val_one, Pi.sub_apply]
  linear_combination ((x 0 - v.pos 0) ^ 2 + (x 1 - v.pos 1) ^ 2) * this

/-- The law of cosines, with the half angle. -/
theorem gap_sq (v : Pose2DVar) (x : V2) (s obs : ℝ) :
    vnorm (v.pos + s • planarBearing v obs - x) ^ 2 = (vnorm (x - v.pos) - s) ^ 2 +
      4 * vnorm (x - v.pos) * s *
        Real.sin (wrapAngle (atan2 (Fac.deltaLocal v x 1) (Fac.deltaLocal v x 0) - obs) / 2) ^ 2 := by
  have hx := landmark_polar v x
  rw [deltaLocal_norm] at hx
  generalize atan2 (Fac.deltaLocal v x 1) (Fac.deltaLocal v x 0) = α at *
  generalize vnorm (x - v.pos) = n at *
  rw [Real.sin_sq_eq_half_sub, show 2 * (wrapAngle (α - obs) / 2) = wrapAngle (α - obs) by ring, (wrap_trig _).1,
    planarBearing_eq, hx, vnorm_sq]
  have hd : Real.cos (α - obs) = Real.cos ((v.theta + α) - (v.theta + obs)) := by congr 1; ring
  rw [hd, Real.cos_sub]
  have h1 := Real.sin_sq_add_cos_sq (v.theta + α)
  have h2 := Real.sin_sq_add_cos_sq (v.theta + obs)
  simp [dotProduct, Fin.sum_univ_two]
  linear_combination n ^ 2 * h1 + s ^ 2 * h2

/-- **C96** `BearingObservationFactor2D`: the line starts at the pose, and is as long as the landmark is away, in the direction
that differs from that of the landmark by the residual in units of sigma. -/
theorem C96_bearing2d_partial {E : Eigh} {o : Options} {h : Heap RVar} {vars : List VRef} {facs : List PyFactor} {covs : Covs}
    {items : List Item} (hd : draw E o h vars facs covs = .ok items) (ho : o.measurements = true)
    {id : Int} {p l : VRef} {obs sigma : ℝ} (hf : PyFactor.bearing2D id p l obs sigma ∈ facs)
    {v : Pose2DVar} {x : V2} (hp : h p = .pose2d v) (hl : IsVector (h l) x) (hs : 0 < sigma) :
    ∃ (e : V2) (ρ : ℝ), (.bearing2d, ![v.pos 0, v.pos 1, 0], ![e 0, e 1, 0]) ∈ lines items ∧
      ResidualIs (Fac.bearing2D id p l obs sigma) h ![ρ] ∧
      length (e - x) = 2 * length (x - v.pos) * |Real.sin (sigma * ρ / 2)| := by
  refine ⟨v.pos + vnorm (x - v.pos) • planarBearing v obs, _, ?_, bearing2d_residual hp hl id obs sigma, ?_⟩
  · refine measurement_drawn hd ho hf ?_
    simp [measurementLine, PyFactor.bearing2D, factorType, Fac.bearing2D, hp, pyPose2d, accessor, Res.andThen,
      (vector_value hl).1, head2_toList, Res.map, lift]
  · rw [length_eq, length_eq, ← mul_assoc, mul_one_div_cancel hs.ne', one_mul]
    have := gap_sq v x (vnorm (x - v.pos)) obs
    have hn := vnorm_nonneg (x - v.pos)
    refine (sq_eq_sq₀ (vnorm_nonneg _) (by positivity)).mp ?_
    rw [this, mul_pow, mul_pow, sq_abs]
    ring

example : ∃ items, draw C94.eigh {} C94.heap [0, 1, 2, 3, 4] [C94.bearing, C94.planar, C94.ranged] (fun _ => none) = .ok items ∧
    ∃ (e : V2) (ρ : ℝ), (.bearing2d, ![1, 2, 0], ![e 0, e 1, 0]) ∈ lines items ∧
      ResidualIs (Fac.bearing2D 9 2 3 0 (1 / 10)) C94.heap ![ρ] ∧
      length (e - ![4, 6]) = 2 * length (![4, 6] - ![(1 : ℝ), 2]) * |Real.sin (1 / 10 * ρ / 2)| := by
  obtain ⟨items, hi⟩ := C94_partial C94.eigh {} C94.heap [0, 1, 2, 3, 4] [C94.bearing, C94.planar, C94.ranged]
    (fun _ => none) C94.sized C94.seen fun _ => C94.drawable
  exact ⟨items, hi, C96_bearing2d_partial hi rfl (id := 9) (p := 2) (l := 3) (obs := 0) (sigma := 1 / 10)
    (by simp [C94.planar]) (v := ⟨3, false, ![1, 2], 0⟩) (by simp [C94.heap])
    (.inl ⟨⟨4, false, [4, 6]⟩, by simp [C94.heap], by simp [toList]⟩) (by norm_num)⟩

/-- **C96** `RangeBearingFactor2D`: the line starts at the pose and misses the landmark by what the two entries of the residual
say, in units of their sigmas. -/
theorem C96_range_bearing_partial {E : Eigh} {o : Options} {h : Heap RVar} {vars : List VRef} {facs : List PyFactor}
    {covs : Covs} {items : List Item} (hd : draw E o h vars facs covs = .ok items) (ho : o.measurements = true)
    {id : Int} {p l : VRef} {range obs rs bs : ℝ} (hf : PyFactor.rangeBearing2D id p l range obs rs bs ∈ facs)
    {v : Pose2DVar} {x : V2} (hp : h p = .pose2d v) (hl : IsVector (h l) x) (hrs : 0 < rs) (hbs : 0 < bs) :
    ∃ (e : V2) (ρ : V2), (.rangeBearing, ![v.pos 0, v.pos 1, 0], ![e 0, e 1, 0]) ∈ lines items ∧
      ResidualIs (Fac.rangeBearing2D id p l range obs rs bs) h ρ ∧
      length (e - x) ^ 2 = (rs * ρ 0) ^ 2 + 4 * length (x - v.pos) * range * Real.sin (bs * ρ 1 / 2) ^ 2 := by
  refine ⟨v.pos + range • planarBearing v obs, _, ?_, range_bearing_residual hp hl id range obs rs bs, ?_⟩
  · refine measurement_drawn hd ho hf ?_
    simp [measurementLine, PyFactor.rangeBearing2D, factorType, Fac.rangeBearing2D, hp, pyPose2d, accessor, Res.andThen,
      Res.map, lift]
  · rw [length_eq, length_eq, gap_sq, deltaLocal_norm]
    simp only [cons_val_zero, cons_val_one]
    rw [← mul_assoc rs, mul_one_div_cancel hrs.ne', one_mul, ← mul_assoc bs, mul_one_div_cancel hbs.ne', one_mul]

example : ∃ items, draw C94.eigh {} C94.heap [0, 1, 2, 3, 4] [C94.bearing, C94.planar, C94.ranged] (fun _ => none) = .ok items ∧
    ∃ (e : V2) (ρ : V2), (.rangeBearing, ![1, 2, 0], ![e 0, e 1, 0]) ∈ lines items ∧
      ResidualIs (Fac.rangeBearing2D 10 2 3 6 0 1 (1 / 10)) C94.heap ρ ∧
      length (e - ![4, 6]) ^ 2 = (1 * ρ 0) ^ 2 + 4 * length (![4, 6] - ![(1 : ℝ), 2]) * 6 * Real.sin (1 / 10 * ρ 1 / 2) ^ 2 := by
  obtain ⟨items, hi⟩ := C94_partial C94.eigh {} C94.heap [0, 1, 2, 3, 4] [C94.bearing, C94.planar, C94.ranged]
    (fun _ => none) C94.sized C94.seen fun _ => C94.drawable
  exact ⟨items, hi, C96_range_bearing_partial hi rfl (id := 10) (p := 2) (l := 3) (range := 6) (obs := 0) (rs := 1)
    (bs := 1 / 10) (by simp [C94.ranged]) (v := ⟨3, false, ![1, 2], 0⟩) (by simp [C94.heap])
    (.inl ⟨⟨4, false, [4, 6]⟩, by simp [C94.heap], by simp [toList]⟩) (by norm_num) (by norm_num)⟩

/-- **C96** The lines of relations are drawn between the positions of the two poses. -/
theorem C96_between_partial {E : Eigh} {o : Options} {h : Heap RVar} {vars : List VRef} {facs : List PyFactor} {covs : Covs}
    {items : List Item} (hd : draw E o h vars facs covs = .ok items) (ho : o.between = true) {f : PyFactor} (hf : f ∈ facs)
    {a b : VRef} {rest : List (Option VRef)} (hv : f.fac.variables = some a :: some b :: rest)
    (hc : f.cls = .posePositionBetween ∨ f.cls = .poseOrientationBetween ∨ f.cls = .pose2DBetween) :
    (∀ va vb, h a = .pose va → h b = .pose vb → (.between, va.pos, vb.pos) ∈ lines items) ∧
    ∀ va vb, h a = .pose2d va → h b = .pose2d vb →
      (.between, ![va.pos 0, va.pos 1, 0], ![vb.pos 0, vb.pos 1, 0]) ∈ lines items := by
  obtain ⟨ms, _, hl⟩ := draw_lines hd
  rw [if_pos ho] at hl
  have hb : isBetween (factorType f.cls) = true := by rcases hc with e | e | e <;> rw [e] <;> rfl
  constructor
  all_goals
    intro va vb ha hb'
    rw [hl, List.mem_append]
    refine .inr (mem_lines.mpr (List.mem_flatMap.mpr ⟨f, hf, ?_⟩))
    unfold betweenLine
    rw [hb, hv]
    simp [ha, hb', endOf, lift]

/-- **C96** Every line of a drawing belongs to a factor of the graph: it starts at the position of the first variable of that
factor, and lines of relations end at the position of the second. -/
theorem C96_only_partial {E : Eigh} {o : Options} {h : Heap RVar} {vars : List VRef} {facs : List PyFactor} {covs : Covs}
    {items : List Item} (hd : draw E o h vars facs covs = .ok items) {k : Line} {s e : V3} (hm : (k, s, e) ∈ lines items) :
    ∃ f ∈ facs, ∃ a b rest, f.fac.variables = some a :: some b :: rest ∧
      (k ≠ .between → o.measurements = true) ∧ (k = .between → o.between = true) ∧
      (∃ m, shownAs (h a) = some (m, s)) ∧ (k = .between → ∃ m, shownAs (h b) = some (m, e)) := by
  obtain ⟨ms, hms, hl⟩ := draw_lines hd
  rw [hl, List.mem_append, mem_lines, mem_lines] at hm
  rcases hm with hm | hm
  · by_cases ho : o.measurements = true
    swap
    · rw [if_neg ho] at hms
      cases hms
      simp at hm
    rw [if_pos ho] at hms
    obtain ⟨f, hf, a, ha, hi⟩ := (mem_measurementLines hms).2 _ hm
    refine ⟨f, hf, ?_⟩
    unfold measurementLine at ha
    split at ha
    · rename_i q l rest _ hv
      obtain ⟨pos, hpos, ha⟩ := andThen_ok ha
      obtain ⟨dcm, hdcm, ha⟩ := andThen_ok ha
      obtain ⟨b, _, ha⟩ := andThen_ok ha
      obtain ⟨lm, _, rfl⟩ := map_ok ha
      simp only [List.mem_singleton, Item.line.injEq] at hi
      obtain ⟨rfl, rfl, rfl⟩ := hi
      refine ⟨q, l, rest, hv, fun _ => ho, by simp, ?_, by simp⟩
      cases e : h q <;> rw [e] at hdcm hpos <;> first | cases hdcm | skip
      cases hpos
      exact ⟨.pose, rfl⟩
    · rename_i q l rest _ hv
      obtain ⟨v, hpos, ha⟩ := andThen_ok ha
      obtain ⟨b, _, ha⟩ := andThen_ok ha
      obtain ⟨lm, _, rfl⟩ := map_ok ha
      simp only [List.mem_singleton, Item.line.injEq] at hi
      obtain ⟨rfl, rfl, rfl⟩ := hi
      refine ⟨q, l, rest, hv, fun _ => ho, by simp, ?_, by simp⟩
      cases e : h q <;> rw [e] at hpos <;> first | cases hpos | skip
      exact ⟨.pose2d, rfl⟩
    · rename_i q l rest _ hv
      obtain ⟨v, hpos, ha⟩ := andThen_ok ha
      obtain ⟨b, _, ha⟩ := andThen_ok ha
      obtain ⟨lm, _, rfl⟩ := map_ok ha
      simp only [List.mem_singleton, Item.line.injEq] at hi
      obtain ⟨rfl, rfl, rfl⟩ := hi
      refine ⟨q, l, rest, hv, fun _ => ho, by simp, ?_, by simp⟩
      cases e : h q <;> rw [e] at hpos <;> first | cases hpos | skip
      exact ⟨.pose2d, rfl⟩
    · cases ha
      simp at hi
  · by_cases ho : o.between = true
    swap
    · rw [if_neg ho] at hm
      simp at hm
    rw [if_pos ho] at hm
    obtain ⟨f, hf, hi⟩ := List.mem_flatMap.mp hm
    refine ⟨f, hf, ?_⟩
    unfold betweenLine at hi
    split at hi
    · rename_i a b rest _ hv
      split at hi
      · rename_i pa pb ha hb
        simp only [List.mem_singleton, Item.line.injEq] at hi
        obtain ⟨rfl, rfl, rfl⟩ := hi
        have key : ∀ {v : RVar} {x : V3}, endOf v = some x → ∃ m, shownAs v = some (m, x) := by
          intro v x hx
          cases v <;> simp [endOf] at hx
          · exact ⟨.pose, by simp [shownAs, hx]⟩
          · exact ⟨.pose2d, by simp [shownAs, ← hx, lift]⟩
        exact ⟨a, b, rest, hv, by simp, fun _ => ho, key ha, fun _ => key hb⟩
      · simp at hi
    · simp at hi

namespace C96
/-- Two poses with a measured displacement, and an inverse-range landmark seen from the first. -/
noncomputable def heap : Heap RVar := fun r =>
  if r = 0 then .pose ⟨1, false, 0, 0, [], 1⟩ else if r = 1 then .pose ⟨2, false, ![1, 2, 3], 0, [], 1⟩
  else if r = 2 then .generic ⟨3, false, [1, 1, 1]⟩ else .invRange (InvRangeVar.make 4 0 ![0, 0, 1] 10)

theorem sized : LandmarksSized heap := by
  intro r x h
  unfold heap at h
  split at h
  · simp at h
  split at h
  · simp at h
  split at h
  · simp at h
  · simp at h

noncomputable def between : PyFactor :=
  { cls := .posePositionBetween, fac := Fac.posePositionBetween 7 0 1 2 (1 / 10) false }
noncomputable def inverse : PyFactor :=
  { cls := .inverseRangeBearing, fac := Fac.inverseRangeBearing 8 0 3 ![0, 1, 1] (1 / 10) }

theorem seen_between : Seen heap between :=
  .other _ (.posePositionBetween (va := ⟨1, false, 0, 0, [], 1⟩) (vb := ⟨2, false, ![1, 2, 3], 0, [], 1⟩) 7 0 1 2 _ _
    (by simp [heap]) (by simp [heap]) (by simp [heap]; rfl)) (by simp [between]) (by simp [between]) (by simp [between])
    rfl rfl rfl

theorem seen_inverse : Seen heap inverse :=
  .other _ (.inverseRangeBearing (v := ⟨1, false, 0, 0, [], 1⟩) (x := InvRangeVar.make 4 0 ![0, 0, 1] 10) 8 0 3 _ _
    (by simp [heap]) (by simp [heap])) (by simp [inverse]) (by simp [inverse]) (by simp [inverse]) rfl rfl rfl

theorem drawn : ∃ items, draw C94.eigh {} heap [0, 1, 2, 3] [between, inverse] (fun _ => none) = .ok items := by
  refine C94_partial C94.eigh {} heap [0, 1, 2, 3] [between, inverse] (fun _ => none) sized ?_ ?_
  · intro f hf
    simp only [List.mem_cons, List.not_mem_nil, or_false] at hf
    rcases hf with rfl | rfl
    exacts [seen_between, seen_inverse]
  · intro _ f hf
    simp only [List.mem_cons, List.not_mem_nil, or_false] at hf
    rcases hf with rfl | rfl <;> simp [between, inverse]
end C96

example : ∃ items, draw C94.eigh {} C96.heap [0, 1, 2, 3] [C96.between, C96.inverse] (fun _ => none) = .ok items ∧
    (.between, 0, ![1, 2, 3]) ∈ lines items := by
  obtain ⟨items, hi⟩ := C96.drawn
  exact ⟨items, hi, (C96_between_partial hi rfl (f := C96.between) (by simp) (a := 0) (b := 1) (rest := [some 2]) rfl
    (.inl rfl)).1 ⟨1, false, 0, 0, [], 1⟩ ⟨2, false, ![1, 2, 3], 0, [], 1⟩ (by simp [C96.heap]) (by simp [C96.heap])⟩

example : ∃ items, draw C94.eigh {} C96.heap [0, 1, 2, 3] [C96.between, C96.inverse] (fun _ => none) = .ok items ∧
    ∃ k s e, (k, s, e) ∈ lines items ∧ ∃ f ∈ [C96.between, C96.inverse], ∃ a b rest,
      f.fac.variables = some a :: some b :: rest ∧ (∃ m, shownAs (C96.heap a) = some (m, s)) := by
  obtain ⟨items, hi⟩ := C96.drawn
  have hm := (C96_between_partial hi rfl (f := C96.between) (by simp) (a := 0) (b := 1) (rest := [some 2]) rfl
    (.inl rfl)).1 ⟨1, false, 0, 0, [], 1⟩ ⟨2, false, ![1, 2, 3], 0, [], 1⟩ (by simp [C96.heap]) (by simp [C96.heap])
  obtain ⟨f, hf, a, b, rest, h1, _, _, h2, _⟩ := C96_only_partial hi hm
  exact ⟨items, hi, _, _, _, hm, f, hf, a, b, rest, h1, h2⟩

/-- **C96** is false of the code for bearings of inverse-range landmarks: they get no line, although drawing measurements was
asked for. -/
theorem C96_false : ¬ ∀ (E : Eigh) (o : Options) (h : Heap RVar) (vars : List VRef) (facs : List PyFactor) (covs : Covs)
    (items : List Item), (∀ f ∈ facs, Seen h f) → o.measurements = true → draw E o h vars facs covs = .ok items →
    ∀ f ∈ facs, f.cls = .inverseRangeBearing → ∃ k s e, (k, s, e) ∈ lines items := by
  intro hall
  obtain ⟨items, hi⟩ := C94_partial C94.eigh {} C96.heap [0, 3] [C96.inverse] (fun _ => none) C96.sized
    (by intro f hf; simp only [List.mem_singleton] at hf; subst hf; exact C96.seen_inverse)
    (by intro _ f hf; simp only [List.mem_singleton] at hf; subst hf; simp [C96.inverse])
  obtain ⟨k, s, e, hm⟩ := hall _ _ _ _ _ _ _
    (by intro f hf; simp only [List.mem_singleton] at hf; subst hf; exact C96.seen_inverse) rfl hi C96.inverse (by simp) rfl
  obtain ⟨ms, hms, hl⟩ := draw_lines hi
  rw [hl] at hm
  simp [measurementLines, measurementLine, C96.inverse, factorType, Res.andThen, Res.map] at hms
  subst hms
  simp [betweenLine, C96.inverse, factorType, isBetween, lines] at hm

end Factorama.Props
