import Verif.Lemmas.Smooth
import Verif.Spec.Library
import Verif.Props.FactorsRotation
import Verif.Props.FactorsBearing
import Verif.Props.FactorsPlanar
import Verif.Props.FactorsPlane
import Verif.Props.FactorsMotion

/-!
# Property C68 for single factors: derivatives when all variables move at once
-/

namespace Factorama.Props
open Spec Geo Matrix Topology Filter

section motions
variable {E : Type*} [NormedAddCommGroup E] [NormedSpace ℝ E]

theorem plane_joint {v : RVar} {q : PlaneVar} (hv : v = .plane q) (hn : q.normal ⬝ᵥ q.normal = 1)
    (L : E →L[ℝ] (Fin (VarLike.size v) → ℝ)) :
    ∃ γ : E → PlaneVar, (∀ᶠ x in 𝓝 0, ∀ v', Moved v (L x) v' → v' = .plane (γ x)) ∧
      (∀ᶠ x in 𝓝 0, (γ x).normal ⬝ᵥ (γ x).normal = 1) ∧ VecSm (fun x => (γ x).normal) ∧ ScalSm fun x => (γ x).dist := by
  subst hv
  by_cases hc : VarLike.isConst (RVar.plane q)
  · exact ⟨fun _ => q, .of_forall fun x v' hm => by simpa [Moved, hc] using hm, .of_forall fun _ => hn, .const _, .const _⟩
  · have hL : Tendsto (fun x => L x) (𝓝 0) (𝓝 0) := by simpa using L.continuous.tendsto 0
    refine ⟨fun x => movedPlane q (L x), ?_, ?_, VecSm.comp_clm (movedPlane_normal_deriv hn).sm L,
      ScalSm.comp_clm ⟨_, movedPlane_dist_deriv q⟩ L⟩
    · filter_upwards [hL.eventually (plane_motion hn .code)] with x hx v' hm
      rw [Moved, if_neg hc] at hm
      rw [codeIncr, hm] at hx
      exact Res.ok.inj hx
    · have hd := HasVecDeriv.const_add q.normal (incNormal_deriv 0)
      have hcn : ContinuousAt (fun d : Fin 4 → ℝ => (q.normal + incNormal d) ⬝ᵥ (q.normal + incNormal d)) 0 :=
        HasScalDeriv.continuousAt (HasVecDeriv.dot hd hd)
      have h0 : (0 : ℝ) < (fun d : Fin 4 → ℝ => (q.normal + incNormal d) ⬝ᵥ (q.normal + incNormal d)) 0 := by
        simp only [incNormal_zero, add_zero, hn]; norm_num
      filter_upwards [hL.eventually (hcn.eventually_const_lt h0)] with x hx
      exact normalized_unit (ne_zero_of_pos hx)

theorem invRange_joint {v : RVar} {q : InvRangeVar} (hv : v = .invRange q) (hext : q.extra = []) (hlo : q.lo < q.inv)
    (hhi : q.inv < q.hi) (L : E →L[ℝ] (Fin (VarLike.size v) → ℝ)) :
    ∃ t : E → ℝ, (∀ᶠ x in 𝓝 0, ∀ v', Moved v (L x) v' → v' = .invRange { q with inv := t x }) ∧ t 0 = q.inv ∧ ScalSm t := by
  subst hv
  by_cases hc : VarLike.isConst (RVar.invRange q)
  · exact ⟨fun _ => q.inv, .of_forall fun x v' hm => by simpa [Moved, hc] using hm, rfl, .const _⟩
  · have hs : ScalSm fun x => q.inv + L x 0 := .add (.const _) (VecSm.clm L 0)
    have h0 : q.inv + L 0 0 = q.inv := by simp
    refine ⟨fun x => q.inv + L x 0, ?_, h0, hs⟩
    filter_upwards [hs.continuousAt.eventually_const_lt (show q.lo < q.inv + L 0 0 by rw [h0]; exact hlo),
      hs.continuousAt.eventually_lt_const (show q.inv + L 0 0 < q.hi by rw [h0]; exact hhi)] with x k1 k2 v' hm
    rw [Moved, if_neg hc] at hm
    have := invRange_motion hext .code (L x)
    rw [codeIncr, hm, clip_id k1.le k2.le] at this
    exact Res.ok.inj this

theorem part_joint {n i : Nat} {v : RVar} {y : Fin n → ℝ} (hv : HasPart v i y) (L : E →L[ℝ] (Fin (VarLike.size v) → ℝ)) :
    ∃ γ : E → Fin n → ℝ, (∀ x v', Moved v (L x) v' → HasPart v' i (γ x)) ∧ VecSm γ := by
  by_cases hc : VarLike.isConst v
  · exact ⟨fun _ => y, fun x v' hm => by rw [Moved, if_pos hc] at hm; rw [hm]; exact hv, .const _⟩
  · obtain ⟨γ, hγ⟩ := part_motion hv .code
    have hfit := part_fits hv
    refine ⟨fun x k => y k + L x ⟨i + k, by omega⟩, fun x v' hmv => ?_, fun k => .add (.const _) (VecSm.clm L _)⟩
    rw [Moved, if_neg hc] at hmv
    have := (hγ (L x)).1
    rw [codeIncr, hmv] at this
    rw [Res.ok.inj this]
    exact (hγ (L x)).2

theorem measured_joint {v : RVar} {y : V3} (hv : MeasuredPose v y) (L : E →L[ℝ] (Fin (VarLike.size v) → ℝ)) :
    ∃ (γ : E → V3) (t : E → ℝ), (∀ x v', Moved v (L x) v' → VarLike.value v' = toList (γ x)) ∧
      ScalSm (fun x => γ x 0) ∧ ScalSm (fun x => γ x 1) ∧ ScalSm t ∧ t 0 = y 2 ∧
      ∀ x, ∃ n : ℤ, γ x 2 = t x + n * (2 * Real.pi) := by
  rcases hv with hv | ⟨q, hq, h1, h2⟩
  · obtain ⟨γ, h1, h2, h3⟩ := vector_joint hv L
    exact ⟨γ, fun x => γ x 2, fun x v' hm => (vector_value (h1 x v' hm)).1, h3 0, h3 1, h3 2, congrFun h2 2, fun x => ⟨0, by simp⟩⟩
  · obtain ⟨γ, t, k1, k2, _, k4, k5, _, k7, k8⟩ := pose2d_joint hq L
    refine ⟨fun x => ![(γ x).pos 0, (γ x).pos 1, (γ x).theta], t, fun x v' hm => ?_, k5 0, k5 1, k7, by rw [k4, h2],
      fun x => by simpa using k8 x⟩
    rw [k1 x v' hm]
    show [(γ x).pos 0, (γ x).pos 1, (γ x).theta] = _
    simp [toList3]

end motions

theorem wrap_turns {a b : ℝ} (h : ∃ n : ℤ, a = b + n * (2 * Real.pi)) : wrapAngle a = wrapAngle b := by
  obtain ⟨n, rfl⟩ := h
  exact wrap_add_int b n

theorem sm_one {E : Type*} [NormedAddCommGroup E] [NormedSpace ℝ E] {f : E → ℝ} (h : ScalSm f) : VecSm fun x => ![f x] := by
  intro i; fin_cases i; exact h

/-- The residuals of the library's factors are jointly differentiable at such points. -/
theorem jointly_differentiable {h : Heap RVar} {f : Factor ℝ RVar} (hf : SmoothPoint h f) : JointlyDifferentiable f h := by
  cases hf with
  | @genericPrior n y p id r sigma hn hv hc =>
    refine joint_of (length_toList p) fun N L => ?_
    obtain ⟨γ, m, _, s⟩ := vector_joint hv (L r)
    exact ⟨fun x => (1 / sigma) • (γ x - p), .csmul _ (s.sub (.const p)), .of_forall fun x h' hm =>
      generic_residual (m x _ (hm r (by simp [genericPrior]))) id p _⟩
  | @genericBetween n xa xb xm id a b m sigma hn ha hb hm _ _ _ =>
    refine joint_of rfl fun N L => ?_
    obtain ⟨γa, ma, _, sa⟩ := vector_joint ha (L a)
    obtain ⟨γb, mb, _, sb⟩ := vector_joint hb (L b)
    obtain ⟨γm, mm, _, sm⟩ := vector_joint hm (L m)
    exact ⟨fun x => (1 / sigma) • (γb x - γa x - γm x), .csmul _ ((sb.sub sa).sub sm), .of_forall fun x h' hm =>
      between_residual (ma x _ (hm a (by simp [genericBetween]))) (mb x _ (hm b (by simp [genericBetween])))
        (mm x _ (hm m (by simp [genericBetween]))) id _⟩
  | posePositionPrior id p prior sigma hp =>
    refine joint_of rfl fun N L => ?_
    obtain ⟨γ, m, _, s⟩ := pose_pos_joint hp (L p)
    refine ⟨fun x => (1 / sigma) • ((γ x).pos - prior), .csmul _ (s.sub (.const prior)), .of_forall fun x h' hm => ?_⟩
    have := m x _ (hm p (by simp [Fac.posePositionPrior]))
    simp [Fac.posePositionPrior, this]
  | @poseOrientationPrior v id p prior sigma hp hR hreg hP hs hE =>
    refine joint_of rfl fun N L => ?_
    obtain ⟨γ, m, _, d0, _, s⟩ := pose_joint hp hR hreg (L p)
    have hE' : v.dcm * priorᵀ = 1 ∨ Regular (v.dcm * priorᵀ) := hE.imp_left (mul_transpose_eq_one hP).mpr
    have hM : MatSm fun x => (γ x).dcm * priorᵀ := s.mul (.const _)
    refine ⟨fun x => (1 / sigma) • logSO3 ((γ x).dcm * priorᵀ), .csmul _ (VecSm.log hM
      (by rw [d0]; exact rotation_mul hR (isRotation_transpose hP)) (by rw [d0]; exact hE')), .of_forall fun x h' hm => ?_⟩
    have := m x _ (hm p (by simp [Fac.poseOrientationPrior]))
    simp [Fac.poseOrientationPrior, this, prior_stored hP hs]
  | @rotationPrior v id r prior sigma hr hR hP hE =>
    refine joint_of rfl fun N L => ?_
    obtain ⟨γ, m, d0, s⟩ := rotation_joint hr (L r)
    have hE' : v.dcm * priorᵀ = 1 ∨ Regular (v.dcm * priorᵀ) := hE.imp_left (mul_transpose_eq_one hP).mpr
    have hM : MatSm fun x => (γ x).dcm * priorᵀ := s.mul (.const _)
    refine ⟨fun x => (1 / sigma) • logSO3 ((γ x).dcm * priorᵀ), .csmul _ (VecSm.log hM
      (by rw [d0]; exact rotation_mul hR (isRotation_transpose hP)) (by rw [d0]; exact hE')), .of_forall fun x h' hm => ?_⟩
    have := m x _ (hm r (by simp [Fac.rotationPrior]))
    simp [Fac.rotationPrior, this]
  | @posePositionBetween va vb y id a b m sigma localFrame ha hb hm _ hR hreg =>
    refine joint_of rfl fun N L => ?_
    obtain ⟨γa, ma, _, _, sa, da⟩ := pose_joint ha hR hreg (L a)
    obtain ⟨γb, mb, _, sb⟩ := pose_pos_joint hb (L b)
    obtain ⟨γm, mm, _, sm⟩ := vector_joint hm (L m)
    refine ⟨fun x => (1 / sigma) • ((if localFrame then (γa x).dcm *ᵥ ((γb x).pos - (γa x).pos) else (γb x).pos - (γa x).pos) - γm x),
      .csmul _ (.sub ?_ sm), .of_forall fun x h' hm => ?_⟩
    · cases localFrame
      · exact sb.sub sa
      · exact da.mulVec (sb.sub sa)
    · exact position_between_residual (ma x _ (hm a (by simp [Fac.posePositionBetween])))
        (mb x _ (hm b (by simp [Fac.posePositionBetween]))) (mm x _ (hm m (by simp [Fac.posePositionBetween]))) id sigma localFrame
  | @poseOrientationBetween v1 v2 vc id p1 p2 c sigma h1 h2 hc _ hR1 hg1 hR2 hg2 hRc hE =>
    refine joint_of rfl fun N L => ?_
    obtain ⟨γ1, m1, _, e1, _, s1⟩ := pose_joint h1 hR1 hg1 (L p1)
    obtain ⟨γ2, m2, _, e2, _, s2⟩ := pose_joint h2 hR2 hg2 (L p2)
    obtain ⟨γc, mc, ec, sc⟩ := rotation_joint hc (L c)
    have hM : MatSm fun x => (γ2 x).dcm * ((γ1 x).dcm)ᵀ * (γc x).dcm := (s2.mul s1.transpose).mul sc
    refine ⟨fun x => (1 / sigma) • logSO3 ((γ2 x).dcm * ((γ1 x).dcm)ᵀ * (γc x).dcm), .csmul _ (VecSm.log hM
      (by rw [e1, e2, ec]; exact rotation_mul (rotation_mul hR2 (isRotation_transpose hR1)) hRc)
      (by rw [e1, e2, ec]; exact hE)), .of_forall fun x h' hm => ?_⟩
    exact orientation_between_residual (m1 x _ (hm p1 (by simp [Fac.poseOrientationBetween])))
      (m2 x _ (hm p2 (by simp [Fac.poseOrientationBetween]))) (mc x _ (hm c (by simp [Fac.poseOrientationBetween]))) id sigma
  | @bearingObservation v q pw id p l bearing sigma hp hl hx hR hreg hfar =>
    refine joint_of rfl fun N L => ?_
    obtain ⟨γ, m, e1, e2, sp, sd⟩ := pose_joint hp hR hreg (L p)
    obtain ⟨γl, ml, el, sl⟩ := landmark_joint hl hx (L l)
    rw [length_eq] at hfar
    have h0 : vnorm (v.dcm *ᵥ (pw - v.pos)) ≠ 0 := (lt_of_lt_of_le (by norm_num) hfar).ne'
    refine ⟨fun x => (1 / sigma) • (normalized ((γ x).dcm *ᵥ (γl x - (γ x).pos)) - normalized bearing),
      .csmul _ (.sub (VecSm.normalized (sd.mulVec (sl.sub sp)) (by rw [e1, e2, el]; exact h0)) (.const _)),
      .of_forall fun x h' hm => ?_⟩
    obtain ⟨l', k1, k2⟩ := ml x _ (hm l (by simp [Fac.bearingObservation]))
    exact bearing_residual (m x _ (hm p (by simp [Fac.bearingObservation]))) k1 k2 id bearing sigma
  | @inverseRangeBearing v q id p r bearing sigma hp hr hext hinv hlo hhi hR hreg hfar =>
    refine joint_of rfl fun N L => ?_
    obtain ⟨γ, m, e1, e2, sp, sd⟩ := pose_joint hp hR hreg (L p)
    obtain ⟨t, mt, et, st⟩ := invRange_joint hr hext hlo hhi (L r)
    rw [length_eq] at hfar
    have h0 : vnorm (v.dcm *ᵥ (q.origin + (1 / q.inv) • q.bearing - v.pos)) ≠ 0 := (lt_of_lt_of_le (by norm_num) hfar).ne'
    have hne : q.inv ≠ 0 := by intro h; rw [h, abs_zero] at hinv; norm_num at hinv
    have hi : ScalSm fun x => 1 / t x := by simpa only [one_div] using st.inv (by rw [et]; exact hne)
    refine ⟨fun x => (1 / sigma) • (normalized ((γ x).dcm *ᵥ (q.origin + (1 / t x) • q.bearing - (γ x).pos)) - normalized bearing),
      .csmul _ (.sub (VecSm.normalized (sd.mulVec (((VecSm.const _).add (VecSm.smul hi (.const _))).sub sp))
        (by rw [e1, e2, et]; exact h0)) (.const _)), ?_⟩
    filter_upwards [mt, st.continuousAt.abs.eventually_const_lt (show 1e-9 < |t 0| by rw [et]; exact hinv)] with x k1 k2 h' hm
    exact inverse_range_residual (m x _ (hm p (by simp [Fac.inverseRangeBearing])))
      (k1 _ (hm r (by simp [Fac.inverseRangeBearing]))) k2.le id bearing sigma
  | @bearingProjection v q pw id p l bearing sigma tol hp hl hx hR hreg hne hdep =>
    refine joint_of rfl fun N L => ?_
    obtain ⟨γ, m, e1, e2, sp, sd⟩ := pose_joint hp hR hreg (L p)
    obtain ⟨γl, ml, el, sl⟩ := landmark_joint hl hx (L l)
    have hb : VecSm fun x => normalized ((γ x).dcm *ᵥ (γl x - (γ x).pos)) :=
      VecSm.normalized (sd.mulVec (sl.sub sp)) (by rw [e1, e2, el]; exact vnorm_ne hne)
    have hk : ScalSm fun x => normalized bearing ⬝ᵥ normalized ((γ x).dcm *ᵥ (γl x - (γ x).pos)) := (VecSm.const _).dot hb
    have hk0 : normalized bearing ⬝ᵥ normalized ((γ 0).dcm *ᵥ (γl 0 - (γ 0).pos)) =
        normalized bearing ⬝ᵥ normalized (v.dcm *ᵥ (pw - v.pos)) := by rw [e1, e2, el]
    refine ⟨fun x => (1 / sigma) • if normalized bearing ⬝ᵥ normalized ((γ x).dcm *ᵥ (γl x - (γ x).pos)) ≤ tol then ![1, 1]
      else Fac.tangentT (normalized bearing) *ᵥ normalized ((γ x).dcm *ᵥ (γl x - (γ x).pos)), .csmul _ ?_,
      .of_forall fun x h' hm => ?_⟩
    · rcases lt_or_gt_of_ne hdep with hlt | hgt
      · refine VecSm.congr (VecSm.const (![1, 1] : V2)) ?_
        filter_upwards [hk.continuousAt.eventually_lt_const (hk0.trans_lt hlt)] with x hx
        rw [if_pos hx.le]
      · refine VecSm.congr ((MatSm.const (Fac.tangentT (normalized bearing))).mulVec hb) ?_
        filter_upwards [hk.continuousAt.eventually_const_lt (lt_of_lt_of_eq hgt hk0.symm)] with x hx
        rw [if_neg (not_le.mpr hx)]
    · obtain ⟨l', k1, k2⟩ := ml x _ (hm l (by simp [Fac.bearingProjection]))
      exact projection_residual (m x _ (hm p (by simp [Fac.bearingProjection]))) k1 k2 id bearing sigma tol
  | @bearing2D v y id p l obs sigma hp hl hfar hopp =>
    refine joint_of rfl fun N L => ?_
    obtain ⟨γ, t, m, e1, e2, _, sp, sd, _, _⟩ := pose2d_joint hp (L p)
    obtain ⟨γl, ml, el, sl⟩ := vector_joint hl (L l)
    have hd : VecSm fun x => Fac.deltaLocal (γ x) (γl x) := sd.transpose.mulVec (sl.sub sp)
    have hd0 : Fac.deltaLocal (γ 0) (γl 0) = Fac.deltaLocal v y := by simp only [Fac.deltaLocal, e1, e2, el]
    refine ⟨fun x => ![(1 / sigma) * wrapAngle (atan2 (Fac.deltaLocal (γ x) (γl x) 1) (Fac.deltaLocal (γ x) (γl x) 0) - obs)],
      sm_one (.mul (.const _) (ScalSm.bearing hd obs (by
        rw [hd0]
        rintro ⟨z0, z1⟩
        rw [z0, z1] at hfar
        norm_num at hfar) (by rw [hd0]; exact hopp))), .of_forall fun x h' hm => ?_⟩
    exact bearing2d_residual (m x _ (hm p (by simp [Fac.bearing2D]))) (ml x _ (hm l (by simp [Fac.bearing2D]))) id obs sigma
  | @rangeBearing2D v y id p l range obs rs bs hp hl hfar hopp =>
    refine joint_of rfl fun N L => ?_
    obtain ⟨γ, t, m, e1, e2, _, sp, sd, _, _⟩ := pose2d_joint hp (L p)
    obtain ⟨γl, ml, el, sl⟩ := vector_joint hl (L l)
    have hd : VecSm fun x => Fac.deltaLocal (γ x) (γl x) := sd.transpose.mulVec (sl.sub sp)
    have hd0 : Fac.deltaLocal (γ 0) (γl 0) = Fac.deltaLocal v y := by simp only [Fac.deltaLocal, e1, e2, el]
    rw [length_eq] at hfar
    have hn : vnorm (Fac.deltaLocal v y) ≠ 0 := (lt_of_lt_of_le (by norm_num) hfar).ne'
    refine ⟨fun x => ![(1 / rs) * (vnorm (Fac.deltaLocal (γ x) (γl x)) - range),
      (1 / bs) * wrapAngle (atan2 (Fac.deltaLocal (γ x) (γl x) 1) (Fac.deltaLocal (γ x) (γl x) 0) - obs)], ?_,
      .of_forall fun x h' hm => ?_⟩
    · intro i
      fin_cases i
      · exact .mul (.const _) (.sub (hd.vnorm (by rw [hd0]; exact hn)) (.const _))
      · refine .mul (.const _) (ScalSm.bearing hd obs ?_ (by rw [hd0]; exact hopp))
        rw [hd0]
        rintro ⟨z0, z1⟩
        rw [vnorm2, z0, z1] at hn
        simp at hn
    · exact range_bearing_residual (m x _ (hm p (by simp [Fac.rangeBearing2D]))) (ml x _ (hm l (by simp [Fac.rangeBearing2D])))
        id range obs rs bs
  | @pose2DPrior v id p prior ps as hp hopp =>
    refine joint_of rfl fun N L => ?_
    obtain ⟨γ, t, m, e1, e2, et, sp, sd, st, hmod⟩ := pose2d_joint hp (L p)
    refine ⟨fun x => ![(1 / ps) * ((γ x).pos 0 - prior 0), (1 / ps) * ((γ x).pos 1 - prior 1), (1 / as) * wrapAngle (t x - prior 2)],
      ?_, .of_forall fun x h' hm => ?_⟩
    · intro i
      fin_cases i
      · exact .mul (.const _) (.sub (sp 0) (.const _))
      · exact .mul (.const _) (.sub (sp 1) (.const _))
      · exact .mul (.const _) (ScalSm.wrap (st.sub (.const _)) (by rw [et]; exact hopp))
    · rw [prior2d_residual (m x _ (hm p (by simp [Fac.pose2DPrior])))]
      obtain ⟨n, hn⟩ := hmod x
      rw [wrap_turns (a := (γ x).theta - prior 2) (b := t x - prior 2) ⟨n, by rw [hn]; ring⟩]
      rfl
  | @pose2DBetween va vb y id a b m ps as localFrame ha hb hm _ _ _ hopp =>
    refine joint_of rfl fun N L => ?_
    obtain ⟨γa, ta, ma, _, _, eta, spa, sda, sta, hmoda⟩ := pose2d_joint ha (L a)
    obtain ⟨γb, tb, mb, _, _, etb, spb, _, stb, hmodb⟩ := pose2d_joint hb (L b)
    obtain ⟨γm, tm, mm, s0, s1, stm, etm, hmodm⟩ := measured_joint hm (L m)
    have hrel : VecSm fun x => if localFrame then (γa x).dcm *ᵥ ((γb x).pos - (γa x).pos) else (γb x).pos - (γa x).pos := by
      cases localFrame
      · exact spb.sub spa
      · exact sda.mulVec (spb.sub spa)
    refine ⟨fun x => ![(1 / ps) * ((if localFrame then (γa x).dcm *ᵥ ((γb x).pos - (γa x).pos) else (γb x).pos - (γa x).pos) 0 - γm x 0),
      (1 / ps) * ((if localFrame then (γa x).dcm *ᵥ ((γb x).pos - (γa x).pos) else (γb x).pos - (γa x).pos) 1 - γm x 1),
      (1 / as) * wrapAngle (tb x - ta x - tm x)], ?_, .of_forall fun x h' hm => ?_⟩
    · intro i
      fin_cases i
      · exact .mul (.const _) (.sub (hrel 0) s0)
      · exact .mul (.const _) (.sub (hrel 1) s1)
      · exact .mul (.const _) (ScalSm.wrap ((stb.sub sta).sub stm) (by rw [eta, etb, etm]; exact hopp))
    · rw [between2d_residual (ma x _ (hm a (by simp [Fac.pose2DBetween]))) (mb x _ (hm b (by simp [Fac.pose2DBetween])))
        (mm x _ (hm m (by simp [Fac.pose2DBetween])))]
      obtain ⟨na, ha⟩ := hmoda x
      obtain ⟨nb, hb⟩ := hmodb x
      obtain ⟨nm, hm⟩ := hmodm x
      rw [wrap_turns (a := (γb x).theta - (γa x).theta - γm x 2) (b := tb x - ta x - tm x)
        ⟨nb - na - nm, by rw [ha, hb, hm]; push_cast; ring⟩]
      rfl
  | @plane v y id p l sigma hl hn hp =>
    refine joint_of rfl fun N L => ?_
    obtain ⟨γ, m, _, sn, sd⟩ := plane_joint hl hn (L l)
    obtain ⟨γp, mp, _, sp⟩ := vector_joint hp (L p)
    refine ⟨fun x => ![(1 / sigma) * ((γ x).normal ⬝ᵥ γp x + (γ x).dist)], sm_one (.mul (.const _) ((sn.dot sp).add sd)), ?_⟩
    filter_upwards [m] with x m h' hm
    exact plane_residual (m _ (hm l (by simp [Fac.planeFactor]))) (mp x _ (hm p (by simp [Fac.planeFactor]))) id sigma
  | @planeScaled v y id p l sigma r0 p0 hl hn hp hr0 hr =>
    refine joint_of rfl fun N L => ?_
    obtain ⟨γ, m, _, sn, sd⟩ := plane_joint hl hn (L l)
    obtain ⟨γp, mp, e0, sp⟩ := vector_joint hp (L p)
    rw [length_eq] at hr
    have hrpos : 0 < vnorm (y - p0) := lt_trans (by norm_num) hr
    have hv : ScalSm fun x => vnorm (γp x - p0) := (sp.sub (.const _)).vnorm (by rw [e0]; exact hrpos.ne')
    have hden : ScalSm fun x => 1 + vnorm (γp x - p0) / r0 := by
      simp only [div_eq_mul_inv]
      exact .add (.const _) (.mul hv (.const _))
    refine ⟨fun x => ![(1 / sigma) * (((γ x).normal ⬝ᵥ γp x - (γ x).dist) / (1 + vnorm (γp x - p0) / r0))], sm_one (.mul (.const _) ?_), ?_⟩
    · simp only [div_eq_mul_inv _ (1 + vnorm (γp _ - p0) / r0)]
      refine .mul ((sn.dot sp).sub sd) (hden.inv ?_)
      rw [e0]
      positivity
    · filter_upwards [m] with x m h' hm
      exact plane_scaled_residual (m _ (hm l (by simp [Fac.planeFactor]))) (mp x _ (hm p (by simp [Fac.planeFactor]))) id sigma r0 p0
  | @planePrior v id l n0 d0 ns ds hl hn =>
    refine joint_of rfl fun N L => ?_
    obtain ⟨γ, m, hu, sn, sd⟩ := plane_joint hl hn (L l)
    refine ⟨fun x => ![(1 / ns) * (((γ x).normal ⬝ᵥ normalized n0) * (γ x).normal 0 - normalized n0 0),
        (1 / ns) * (((γ x).normal ⬝ᵥ normalized n0) * (γ x).normal 1 - normalized n0 1),
        (1 / ns) * (((γ x).normal ⬝ᵥ normalized n0) * (γ x).normal 2 - normalized n0 2),
        (1 / ds) * ((γ x).dist - d0)], ?_, ?_⟩
    · have hk := sn.dot (VecSm.const (normalized n0))
      intro i
      fin_cases i
      · exact .mul (.const _) (.sub (.mul hk (sn 0)) (.const _))
      · exact .mul (.const _) (.sub (.mul hk (sn 1)) (.const _))
      · exact .mul (.const _) (.sub (.mul hk (sn 2)) (.const _))
      · exact .mul (.const _) (.sub sd (.const _))
    · filter_upwards [m, hu] with x m hu h' hm
      exact plane_prior_residual (m _ (hm l (by simp [Fac.planePrior]))) hu id n0 d0 ns ds
  | @linearVelocity n x1 x2 u id v1 v2 vel dt sigma i hn h1 h2 hu _ _ _ =>
    refine joint_of rfl fun N L => ?_
    obtain ⟨γ1, m1, s1⟩ := part_joint h1 (L v1)
    obtain ⟨γ2, m2, s2⟩ := part_joint h2 (L v2)
    obtain ⟨γu, mu, _, su⟩ := vector_joint hu (L vel)
    exact ⟨fun x => (1 / sigma) • (γ2 x - γ1 x - dt • γu x), .csmul _ ((s2.sub s1).sub (.csmul _ su)), .of_forall fun x h' hm =>
      velocity_residual (m1 x _ (hm v1 (by simp [Fac.linearVelocity]))) (m2 x _ (hm v2 (by simp [Fac.linearVelocity])))
        (mu x _ (hm vel (by simp [Fac.linearVelocity]))) id dt sigma⟩
  | @coordinateTransform v o s a b id rot org sc la lb sigma hv _ _ =>
    obtain ⟨h1, ⟨g1, h2, e2⟩, ⟨g2, h3, e3⟩, ⟨l1, h4, e4⟩, ⟨l2, h5, e5⟩⟩ := hv
    refine joint_of rfl fun N L => ?_
    obtain ⟨γr, mr, _, sr⟩ := rotation_joint h1 (L rot)
    obtain ⟨γo, mo, _, so⟩ := generic_joint h2 e2 (L org)
    obtain ⟨γs, ms, _, ss⟩ := generic_joint (y := ![s]) h3 (by rw [e3]; simp [toList]) (L sc)
    obtain ⟨γa, ma, _, sa⟩ := landmark_joint h4 e4 (L la)
    obtain ⟨γb, mb, _, sb⟩ := landmark_joint h5 e5 (L lb)
    refine ⟨fun x => (1 / sigma) • (γa x - (γs x 0 • ((γr x).dcm *ᵥ γb x) - γo x)),
      .csmul _ (sa.sub ((VecSm.smul (ss 0) (sr.mulVec sb)).sub so)), .of_forall fun x h' hm => ?_⟩
    refine transform_residual ⟨mr x _ (hm rot (by simp [Fac.coordinateTransform])),
      mo x _ (hm org (by simp [Fac.coordinateTransform])), ?_, ma x _ (hm la (by simp [Fac.coordinateTransform])),
      mb x _ (hm lb (by simp [Fac.coordinateTransform]))⟩ id sigma
    obtain ⟨g, k1, k2⟩ := ms x _ (hm sc (by simp [Fac.coordinateTransform]))
    exact ⟨g, k1, by rw [k2]; simp [toList]⟩

theorem fresh_of {incr : Increment} {f : Factor ℝ RVar} {h : Heap RVar} (hj : JacobiansCorrect incr f h) :
    FreshJacobiansCorrect incr f h := hj []

/-- The blocks are the derivatives at such points. -/
theorem jacobians_correct {h : Heap RVar} {f : Factor ℝ RVar} (hf : SmoothPoint h f) : FreshJacobiansCorrect codeIncr f h := by
  cases hf with
  | genericPrior id r sigma hn hv hc => exact fresh_of (C42_jacobian_partial _ _ _ _ _ _ hv hc _ .code)
  | genericBetween id a b m sigma hn ha hb hm hab ham hbm =>
    exact fresh_of (C43_jacobian _ _ _ _ _ _ _ _ _ ha hb hm hab ham hbm _ .code)
  | posePositionPrior id p prior sigma hp => exact fresh_of ((C44_position_prior _ _ _ _ _ _ hp).2 _ .code)
  | poseOrientationPrior id p prior sigma hp hR hreg hP hs hE =>
    exact fresh_of (C45_pose_prior_jacobian _ _ _ _ _ _ hp hR hP hs hE _ (.code hreg))
  | rotationPrior id r prior sigma hr hR hP hE => exact fresh_of (C45_rotation_prior_jacobian _ _ _ _ _ _ hr hR hP hE _ .code)
  | posePositionBetween id a b m sigma localFrame ha hb hm hab hR hreg =>
    exact fresh_of (C44_position_between_jacobian _ _ _ _ _ _ _ _ _ _ ha hb hm hab hR _ (.code hreg))
  | poseOrientationBetween id p1 p2 c sigma h1 h2 hc h12 hR1 hg1 hR2 hg2 hRc hE =>
    exact fresh_of (C45_orientation_between_jacobian _ _ _ _ _ _ _ _ _ h1 h2 hc h12 hR1 hR2 hRc hE _ (.code hg1) (.code hg2))
  | bearingObservation id p l bearing sigma hp hl hx hR hreg hfar =>
    exact fresh_of (C46_jacobian _ _ _ _ _ _ _ _ _ hp hl hx hR hfar _ (.code hreg))
  | inverseRangeBearing id p r bearing sigma hp hr hext hinv hlo hhi hR hreg hfar =>
    exact fresh_of (C47_jacobian_partial _ _ _ _ _ _ _ _ hp hr hext hinv hlo hhi hR hfar _ (.code hreg))
  | bearingProjection id p l bearing sigma tol hp hl hx hR hreg hne hdep =>
    exact fresh_of (C48_jacobian _ _ _ _ _ _ _ _ _ _ hp hl hx hR hne hdep _ (.code hreg))
  | bearing2D id p l obs sigma hp hl hfar hopp => exact fresh_of (C49_jacobian _ _ _ _ _ _ _ _ hp hl hfar hopp _ .code)
  | rangeBearing2D id p l range obs rs bs hp hl hfar hopp =>
    exact fresh_of (C50_jacobian _ _ _ _ _ _ _ _ _ _ hp hl hfar hopp _ .code)
  | pose2DPrior id p prior ps as hp hopp => exact fresh_of (C51_jacobian _ _ _ _ _ _ _ hp hopp _ .code)
  | pose2DBetween id a b m ps as localFrame ha hb hm hab ham hbm hopp =>
    exact fresh_of (C52_jacobian _ _ _ _ _ _ _ _ _ _ _ ha hb hm hab ham hbm hopp _ .code)
  | plane id p l sigma hl hn hp => exact fresh_of (C53_jacobian _ _ _ _ _ _ _ hl hn hp _ .code)
  | planeScaled id p l sigma r0 p0 hl hn hp hr0 hr =>
    exact fresh_of (C53_scaled_jacobian _ _ _ _ _ _ _ _ _ hl hn hp hr0 hr _ .code)
  | planePrior id l n0 d0 ns ds hl hn => exact fresh_of (C54_jacobian _ _ _ _ _ _ _ _ hl hn _ .code)
  | linearVelocity id v1 v2 vel dt sigma i hn h1 h2 hu h12 h1u h2u =>
    exact fresh_of (C55_jacobian _ _ _ _ _ _ _ _ _ _ h1 h2 hu h12 h1u h2u _ .code)
  | coordinateTransform id rot org sc la lb sigma hv hos hab =>
    exact C56_jacobian_partial _ _ _ _ _ _ _ _ _ _ _ _ _ hv hos hab _ .code [] (.inl rfl)

end Factorama.Props
