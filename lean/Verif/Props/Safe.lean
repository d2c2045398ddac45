import Verif.Spec.Safe
import Verif.Props.Construct
import Verif.Props.OptimizerDefined
import Verif.Props.Optimizer
import Verif.Props.GraphEval
import Verif.Props.FactorsBlocks
import Verif.Lemmas.Repeats
import Verif.Lemmas.Determined
import Verif.Examples.RouteWorld

/-!
# C140: nothing undefined happens to a program that uses the library as intended
-/

namespace Factorama
open Spec Geo

theorem Spec.Sound.full {v : RVar} (h : Sound v) : Full v := by
  cases v with
  | generic v => rfl
  | landmark v => exact h
  | pose v => exact h
  | rotation v => exact length_toList _
  | invRange v => exact h.1
  | plane v => simp [Full, VarLike.value, VarLike.size, PlaneVar.value, toList]
  | pose2d v => rfl

theorem Spec.Sound.positive {v : RVar} (h : Sound v) : 0 < VarLike.size (F := ℝ) v := by
  cases v with
  | generic v => exact List.length_pos_of_ne_nil h
  | _ => simp [VarLike.size]

theorem InvRangeVar.lo_le_clip {lo hi x : ℝ} (h : lo ≤ hi) : lo ≤ InvRangeVar.clip lo hi x := le_min (le_max_right _ _) h

theorem Spec.Declared.kinds {h h' : Heap RVar} {a : FactorArgs} (hk : ∀ r, (h' r).cls = (h r).cls) (hd : Declared h a) :
    Declared h' a := by
  have k1 : ∀ r, (∃ v, h r = .pose v) → ∃ v, h' r = .pose v := fun r ⟨v, e⟩ => by
    have := hk r; rw [e] at this; cases e' : h' r <;> simp [e', RVar.cls] at this; exact ⟨_, rfl⟩
  have k2 : ∀ r, (∃ v, h r = .rotation v) → ∃ v, h' r = .rotation v := fun r ⟨v, e⟩ => by
    have := hk r; rw [e] at this; cases e' : h' r <;> simp [e', RVar.cls] at this; exact ⟨_, rfl⟩
  have k3 : ∀ r, (∃ v, h r = .landmark v) → ∃ v, h' r = .landmark v := fun r ⟨v, e⟩ => by
    have := hk r; rw [e] at this; cases e' : h' r <;> simp [e', RVar.cls] at this; exact ⟨_, rfl⟩
  have k4 : ∀ r, (∃ v, h r = .generic v) → ∃ v, h' r = .generic v := fun r ⟨v, e⟩ => by
    have := hk r; rw [e] at this; cases e' : h' r <;> simp [e', RVar.cls] at this; exact ⟨_, rfl⟩
  have k5 : ∀ r, (∃ v, h r = .pose2d v) → ∃ v, h' r = .pose2d v := fun r ⟨v, e⟩ => by
    have := hk r; rw [e] at this; cases e' : h' r <;> simp [e', RVar.cls] at this; exact ⟨_, rfl⟩
  have k6 : ∀ r, (∃ v, h r = .plane v) → ∃ v, h' r = .plane v := fun r ⟨v, e⟩ => by
    have := hk r; rw [e] at this; cases e' : h' r <;> simp [e', RVar.cls] at this; exact ⟨_, rfl⟩
  have k7 : ∀ r, (∃ v, h r = .invRange v) → ∃ v, h' r = .invRange v := fun r ⟨v, e⟩ => by
    have := hk r; rw [e] at this; cases e' : h' r <;> simp [e', RVar.cls] at this; exact ⟨_, rfl⟩
  have lift : ∀ {P Q : VRef → Prop} {p : Option VRef}, (∀ r, P r → Q r) → (∀ r, p = some r → P r) → ∀ r, p = some r → Q r :=
    fun k H r e => k r (H r e)
  cases a with
  | genericPrior | genericBetween | linearVelocity => trivial
  | posePositionPrior | poseOrientationPrior => exact lift k1 hd
  | rotationPrior => exact lift k2 hd
  | posePositionBetween => exact ⟨lift k1 hd.1, lift k1 hd.2⟩
  | poseOrientationBetween => exact ⟨lift k1 hd.1, lift k1 hd.2.1, lift k2 hd.2.2⟩
  | bearingObservation | bearingProjection => exact ⟨lift k1 hd.1, lift k3 hd.2⟩
  | inverseRangeBearing => exact ⟨lift k1 hd.1, lift k7 hd.2⟩
  | bearing2D | rangeBearing2D | pose2DPrior => exact lift k5 hd
  | pose2DBetween => exact ⟨lift k5 hd.1, lift k5 hd.2⟩
  | plane | planePrior => exact lift k6 hd
  | coordinateTransform => exact ⟨lift k2 hd.1, lift k4 hd.2.1, lift k4 hd.2.2.1, lift k3 hd.2.2.2.1, lift k3 hd.2.2.2.2⟩

theorem Spec.Built.size_pos {h : Heap RVar} {c : FactorClass} {f : Factor ℝ RVar} (hf : Built h c f)
    (hs : ∀ r, some r ∈ f.variables → 0 < VarLike.size (F := ℝ) (h r)) : 0 < f.residualSize := by
  cases hf with
  | genericPrior id r prior sigma e => exact lt_of_lt_of_eq (hs r (.head _)) e.symm
  | genericBetween id a b m n sigma ha hb hm => exact lt_of_lt_of_eq (hs m (.tail _ (.tail _ (.head _)))) hm
  | linearVelocity id v1 v2 vel n dt sigma i hn => exact lt_of_lt_of_eq (hs vel (.tail _ (.tail _ (.head _)))) hn
  | posePositionPrior | poseOrientationPrior | rotationPrior | posePositionBetween | poseOrientationBetween | bearingObservation
  | inverseRangeBearing | pose2DPrior | pose2DBetween | coordinateTransform => exact Nat.succ_pos 2
  | bearingProjection | rangeBearing2D => exact Nat.succ_pos 1
  | bearing2D | plane => exact Nat.succ_pos 0
  | planePrior => exact Nat.succ_pos 3

end Factorama

namespace Factorama.Props
open Spec Graph Opt Geo
variable {Fact : Type}

/-- **C140, variables.** What the constructors make is sound, the calls on variables keep it sound if they are given vectors of the size
of the variable, and none of these calls is undefined, except that an increment takes away the normal of a plane. -/
theorem C140_variables {v : RVar} (hv : Sound v) {x : List ℝ} (hx : x.length = VarLike.size (F := ℝ) v) :
    (∃ v', VarLike.setValue v x = .ok v' ∧ Sound v' ∧ v'.cls = v.cls) ∧
    (v.cls ≠ .plane → ∃ v', VarLike.applyIncr v x = .ok v' ∧ Sound v' ∧ v'.cls = v.cls) ∧
    ∀ b, Sound (VarLike.setConst (F := ℝ) v b) := by
  cases v with
  | generic v =>
    have hx : x.length = v.value.length := hx
    have hv : v.value ≠ [] := hv
    have hp := List.length_pos_of_ne_nil hv
    refine ⟨⟨.generic { v with value := x }, by simp [VarLike.setValue, GenVar.setValue, hx, Res.map], ?_, rfl⟩,
      fun _ => ⟨.generic { v with value := List.zipWith (· + ·) v.value x }, by simp [VarLike.applyIncr, GenVar.applyIncr, hx, Res.map], ?_, rfl⟩,
      fun b => hv⟩
    · exact List.ne_nil_of_length_pos (lt_of_lt_of_eq hp hx.symm)
    · exact List.ne_nil_of_length_pos (by rw [List.length_zipWith]; omega)
  | landmark v =>
    have hx : x.length = 3 := hx
    have hv : v.value.length = 3 := hv
    refine ⟨⟨_, rfl, hx, rfl⟩, fun _ => ⟨.landmark { v with value := List.zipWith (· + ·) v.value x }, ?_, ?_, rfl⟩, fun b => hv⟩
    · simp [VarLike.applyIncr, LandmarkVar.applyIncr, hx, hv, Res.map]
    · show (List.zipWith _ _ _).length = 3
      rw [List.length_zipWith]
      omega
  | pose v =>
    have hx : x.length = 6 := hx
    have hv : v.value.length = 6 := hv
    refine ⟨⟨.pose (PoseVar.recompute { v with pos := read3 x 0, rot := read3 x 3, extra := x.drop 6 }), ?_, ?_, rfl⟩,
      fun _ => ⟨.pose (PoseVar.recompute { v with pos := v.pos + read3 x 0, rot := logSO3 (expSO3 (read3 x 3) * v.dcm) }), ?_, ?_, rfl⟩,
      fun b => hv⟩
    · simp [VarLike.setValue, PoseVar.setValue, hx, Res.map]
    · simp [Sound, PoseVar.recompute, PoseVar.value, length_toList, hx]
    · simp [VarLike.applyIncr, PoseVar.applyIncr, hx, Res.map]
    · simpa [Sound, PoseVar.recompute, PoseVar.value, length_toList] using hv
  | rotation v =>
    have hx : x.length = 3 := hx
    refine ⟨⟨.rotation { v with vec := read3 x 0, dcm := expSO3 (read3 x 0) }, ?_, trivial, rfl⟩,
      fun _ => ⟨.rotation { v with dcm := expSO3 (read3 x 0) * v.dcm, vec := logSO3 (expSO3 (read3 x 0) * v.dcm) }, ?_, trivial, rfl⟩,
      fun b => trivial⟩
    · simp [VarLike.setValue, RotationVar.setValue, hx, Res.map]
    · simp [VarLike.applyIncr, RotationVar.applyIncr, hx, Res.map]
  | invRange v =>
    have hx : x.length = 1 := hx
    obtain ⟨h1, h2, h3, h4⟩ := hv
    obtain ⟨a, rfl⟩ := List.length_eq_one_iff.1 hx
    have he : v.extra = [] := by simpa [InvRangeVar.value] using h1
    refine ⟨⟨_, rfl, ⟨rfl, h2, h3, InvRangeVar.lo_le_clip h3⟩, rfl⟩,
      fun _ => ⟨.invRange { v with inv := InvRangeVar.clip v.lo v.hi (v.inv + a) }, ?_, ⟨?_, h2, h3, InvRangeVar.lo_le_clip h3⟩, rfl⟩,
      fun b => ⟨h1, h2, h3, h4⟩⟩
    · simp [VarLike.applyIncr, InvRangeVar.applyIncr, he, Res.map]
    · simp [InvRangeVar.value, he]
  | plane v =>
    have hx : x.length = 4 := hx
    refine ⟨⟨.plane { v with normal := normalized (read3 x 0), dist := x.getD 3 0 }, ?_, trivial, rfl⟩, fun h => absurd rfl h, fun b => trivial⟩
    simp [VarLike.setValue, PlaneVar.setValue, hx, Res.map]
  | pose2d v =>
    have hx : x.length = 3 := hx
    refine ⟨⟨.pose2d { v with pos := ![x.getD 0 0, x.getD 1 0], theta := wrapAngle (x.getD 2 0) }, ?_, trivial, rfl⟩,
      fun _ => ⟨.pose2d { v with pos := ![v.pos 0 + x.getD 0 0, v.pos 1 + x.getD 1 0], theta := wrapAngle (v.theta + x.getD 2 0) }, ?_, trivial, rfl⟩,
      fun b => trivial⟩
    · simp [VarLike.setValue, Pose2DVar.setValue, hx, Res.map]
    · simp [VarLike.applyIncr, Pose2DVar.applyIncr, hx, Res.map]

/-- **C140, constructors.** What the constructors of variables make is sound. -/
theorem C140_made (id : Int) :
    (∀ x (v : GenVar ℝ), GenVar.make id x = .ok v → Sound (.generic v)) ∧ (∀ p, Sound (.landmark (LandmarkVar.make id p))) ∧
    (∀ p r, Sound (.pose (PoseVar.make id p r))) ∧ (∀ p R, Sound (.pose (PoseVar.makeDcm id p R))) ∧
    (∀ R, Sound (.rotation (RotationVar.make id R))) ∧ (∀ o b range, Sound (.invRange (InvRangeVar.make id o b range))) ∧
    (∀ n d v, PlaneVar.make id n d = .ok v → Sound (.plane v)) ∧ ∀ p θ, Sound (.pose2d (Pose2DVar.make id p θ)) := by
  refine ⟨fun x v hv => ?_, fun p => length_toList p, fun p r => ?_, fun p R => ?_, fun R => trivial, fun o b range => ?_, fun n d v _ => trivial,
    fun p θ => trivial⟩
  · unfold GenVar.make at hv
    split at hv <;> cases hv
    rename_i h
    exact fun e => h (by rw [show x = [] from e]; rfl)
  · simp [Sound, PoseVar.make, PoseVar.recompute, PoseVar.value, length_toList]
  · simp [Sound, PoseVar.makeDcm, PoseVar.recompute, PoseVar.value, length_toList]
  · refine ⟨rfl, ?_, ?_, ?_⟩
    · norm_num [InvRangeVar.make]
    · norm_num [InvRangeVar.make]
    · show (1e-6 : ℝ) ≤ InvRangeVar.initialInv range
      unfold InvRangeVar.initialInv
      split
      · norm_num
      · exact InvRangeVar.lo_le_clip (by norm_num)

example : Sound (.invRange (InvRangeVar.make 4 0 ![0, 0, 2] 0)) := (C140_made 4).2.2.2.2.2.1 0 _ 0

example : ∃ v', VarLike.applyIncr (RVar.pose (PoseVar.make 1 0 0)) [1, 2, 3, 0, 0, 1] = .ok v' ∧ Sound v' ∧ v'.cls = .pose :=
  (C140_variables ((C140_made 1).2.2.1 0 0) rfl).2.1 (by decide)

/-- **C140 is false** of free planes: an increment that is the negative of the normal, of the right size, fails an assertion. -/
theorem C140_plane_false : ∃ (v : PlaneVar) (x : List ℝ), Sound (.plane v) ∧ x.length = VarLike.size (F := ℝ) (RVar.plane v) ∧
    VarLike.applyIncr (RVar.plane v) x = .ub := by
  refine ⟨⟨1, false, ![0, 0, 1], 0⟩, [0, 0, -1, 0], trivial, rfl, ?_⟩
  have e : (![0, 0, 1] : V3) + read3 [0, 0, -1, 0] 0 = 0 := by
    funext i
    fin_cases i <;> simp [read3]
  simp [VarLike.applyIncr, PlaneVar.applyIncr, e, Res.map]

theorem C140.finish_variables {id : Int} {n : Nat} {ptrs : List (Option VRef)} {ss : List ℝ} {k : (Nat → VRef) → Factor ℝ RVar}
    {f : Factor ℝ RVar} (h : Construct.finish id n ptrs ss k = .made f)
    (hk : none ∉ ptrs → (k fun i => (ptrs.getD i none).getD 0).variables = ptrs) : f.variables = ptrs := by
  unfold Construct.finish at h
  injection h with h
  subst h
  split
  · rfl
  · rename_i h
    exact hk fun h' => h (.inl h')

/-- A factor that a constructor made has the variables that were given to it. -/
theorem C140.made_variables {h : Heap RVar} {id : Int} {a : FactorArgs} {f : Factor ℝ RVar} (hf : construct .debug h id a = .made f) :
    f.variables = pointers a := by
  rw [← C130_release h id a ((C130_accepts h id a).1 ⟨f, hf⟩)] at hf
  cases a with
  | genericBetween a b m s =>
    cases m with
    | none => simp [construct, C130.check_release, C130.checkAt_release] at hf
    | some m =>
      simp only [construct, C130.check_release, C130.checkAt_release] at hf
      refine C140.finish_variables hf fun hn => ?_
      rcases a with _ | a <;> rcases b with _ | b <;> first | rfl | (simp [pointers] at hn)
  | linearVelocity v1 v2 vel dt s i =>
    cases vel with
    | none => simp [construct] at hf
    | some vel =>
      simp only [construct, C130.check_release, C130.checkAt_release] at hf
      split at hf
      · injection hf with hf
        subst hf
        rfl
      · refine C140.finish_variables hf fun hn => ?_
        rcases v1 with _ | a <;> rcases v2 with _ | b <;> first | rfl | (simp [pointers] at hn)
  | coordinateTransform rot org sc la lb s =>
    simp only [construct, C130.check_release, C130.checkAt_release] at hf
    refine C140.finish_variables hf fun hn => ?_
    rcases rot with _ | rot <;> rcases org with _ | org <;> rcases sc with _ | sc <;> rcases la with _ | la <;> rcases lb with _ | lb <;>
      first | rfl | (simp [pointers] at hn)
  | genericPrior p | posePositionPrior p | poseOrientationPrior p | rotationPrior p | pose2DPrior p | planePrior p =>
    simp only [construct, C130.check_release, C130.checkAt_release] at hf
    refine C140.finish_variables hf fun hn => ?_
    rcases p with _ | p <;> first | rfl | (simp [pointers] at hn)
  | posePositionBetween p q m | poseOrientationBetween p q m | pose2DBetween p q m =>
    simp only [construct, C130.check_release, C130.checkAt_release] at hf
    refine C140.finish_variables hf fun hn => ?_
    rcases p with _ | p <;> rcases q with _ | q <;> rcases m with _ | m <;> first | rfl | (simp [pointers] at hn)
  | bearingObservation p q | inverseRangeBearing p q | bearingProjection p q | bearing2D p q | rangeBearing2D p q | plane p q =>
    simp only [construct, C130.check_release, C130.checkAt_release] at hf
    refine C140.finish_variables hf fun hn => ?_
    rcases p with _ | p <;> rcases q with _ | q <;> first | rfl | (simp [pointers] at hn)

/-- The heaps that a run can reach. -/
def C140.Inv (h0 : Heap RVar) (vars : List VRef) (facs : List (Factor ℝ RVar)) (h : Heap RVar) : Prop :=
  (∀ r, (h r).cls = (h0 r).cls) ∧ SameShape (F := ℝ) h0 h ∧ ∀ r, Used vars facs r → Sound (h r)

theorem C140.Inv.set {h0 h : Heap RVar} {vars : List VRef} {facs : List (Factor ℝ RVar)} (hI : C140.Inv h0 vars facs h) {r : VRef} {v : RVar}
    (hc : v.cls = (h r).cls) (hs : VarLike.id (F := ℝ) v = VarLike.id (F := ℝ) (h r) ∧
      VarLike.isConst (F := ℝ) v = VarLike.isConst (F := ℝ) (h r) ∧ VarLike.size (F := ℝ) v = VarLike.size (F := ℝ) (h r))
    (hv : Sound v) : C140.Inv h0 vars facs (h.set r v) := by
  refine ⟨fun q => ?_, fun q => ?_, fun q hq => ?_⟩
  · by_cases e : q = r
    · subst e; simp only [Heap.set, if_true]; exact hc.trans (hI.1 q)
    · simp only [Heap.set, e, if_false]; exact hI.1 q
  · by_cases e : q = r
    · subst e
      simp only [Heap.set, if_true]
      have := hI.2.1 q
      exact ⟨hs.1.trans this.1, hs.2.1.trans this.2.1, hs.2.2.trans this.2.2⟩
    · simp only [Heap.set, e, if_false]; exact hI.2.1 q
  · by_cases e : q = r
    · subst e; simp only [Heap.set, if_true]; exact hv
    · simp only [Heap.set, e, if_false]; exact hI.2.2 q hq

/-- What the factors do on such heaps. -/
theorem C140.factor {h0 h : Heap RVar} {vars : List VRef} {facs : List (Factor ℝ RVar)} (hI : C140.Inv h0 vars facs h) {f : Factor ℝ RVar}
    (hf : f ∈ facs) (hc : FromConstructor h0 f) :
    (∃ s, f.computeResidual h = .ok s ∧ s.length = f.residualSize) ∧ ReuseSafe f ∧ f.computeJacobians h [] ≠ .ub ∧
    ∀ js, f.computeJacobians h [] = .ok js → ProperBlocks h f js := by
  obtain ⟨hk, hshape, hsound⟩ := hI
  obtain ⟨hm, id, a, ha, hd, hsz, hi, hscale, hb⟩ := hc
  have hd' : Declared h a := hd.kinds hk
  have hptr : f.variables = pointers a := C140.made_variables ha
  have hused : ∀ r, some r ∈ pointers a → Used vars facs r := fun r hr => .inr ⟨f, hf, hptr ▸ hr⟩
  have hsize : ∀ r, some r ∈ pointers a → VarLike.size (F := ℝ) (h r) = VarLike.size (F := ℝ) (hm r) := fun r hr =>
    (hshape r).2.2.trans (hsz r hr)
  have hfull : ∀ r, some r ∈ pointers a → Full (h r) ∧ VarLike.size (F := ℝ) (h r) = VarLike.size (F := ℝ) (hm r) := fun r hr =>
    ⟨(hsound r (hused r hr)).full, hsize r hr⟩
  have hbuilt := C130_built_partial ha hd' hsize hi hscale
  have hpos : ∀ r, some r ∈ f.variables → 0 < VarLike.size (F := ℝ) (h r) := fun r hr => (hsound r (hused r (hptr ▸ hr))).positive
  refine ⟨(C130_evaluates_partial ha hd' hfull hi hscale fun r v hr e => ?_).2.2, C57_reuse h _ f hbuilt,
    C130_jacobians_partial ha hd' hfull hi hscale (fun p l b s t vp vl pw e => absurd (congrArg classOf e) hb) (.inl rfl),
    fun js hj => C57_proper hbuilt (fun r => ⟨rfl, rfl, rfl⟩) ⟨hbuilt.size_pos hpos, hpos⟩ hj⟩
  have := hsound r (hused r hr)
  rw [e] at this
  exact this.2.1.trans (this.2.2.2.trans (le_abs_self _))

/-- The methods of sound variables and of factors made by constructors are defined. -/
theorem C140.defined {h0 : Heap RVar} {vars : List VRef} {facs : List (Factor ℝ RVar)} (hfac : ∀ f ∈ facs, FromConstructor h0 f)
    (hplane : ∀ r ∈ vars, VarLike.isConst (F := ℝ) (h0 r) = false → (h0 r).cls ≠ .plane) :
    MethodsDefined (C140.Inv h0 vars facs) vars facs where
  incr h hI r hr hc x hx := by
    obtain ⟨v', e, hv', hcls⟩ := (C140_variables (hI.2.2 r (.inl hr)) hx).2.1 (by
      rw [hI.1 r]
      exact hplane r hr ((hI.2.1 r).2.1.symm.trans hc))
    exact .inr ⟨v', e, hI.set hcls ⟨LawfulVar.id_applyIncr _ _ _ e, LawfulVar.isConst_applyIncr _ _ _ e, LawfulVar.size_applyIncr _ _ _ e⟩ hv'⟩
  restore h h' hI hI' r hr := by
    have hl : (VarLike.value (F := ℝ) (h' r)).length = VarLike.size (F := ℝ) (h r) := by
      rw [show (VarLike.value (F := ℝ) (h' r)).length = _ from (hI'.2.2 r (.inl hr)).full, (hI'.2.1 r).2.2, (hI.2.1 r).2.2]
    obtain ⟨v', e, hv', hcls⟩ := (C140_variables (hI.2.2 r (.inl hr)) hl).1
    exact .inr ⟨v', e, hI.set hcls ⟨LawfulVar.id_setValue _ _ _ e, LawfulVar.isConst_setValue _ _ _ e, LawfulVar.size_setValue _ _ _ e⟩ hv'⟩
  residual h hI f hf := .inr (C140.factor hI hf (hfac f hf)).1
  jacobians h hI f hf buf hb := by
    obtain ⟨_, hs, hne, hp⟩ := C140.factor hI hf (hfac f hf)
    rw [hs h buf hb]
    cases e : f.computeJacobians h [] with
    | ok js => exact .inr ⟨js, rfl, hp js e⟩
    | threw => exact .inl rfl
    | ub => exact absurd e hne

/-! ### Calls on the graph -/

/-- A dense evaluation is defined if the factors behave. -/
theorem C140.dense {env : Env ℝ RVar} {h : Heap RVar} {g : Graph ℝ RVar} (hl : Layout h g)
    (hdef : ∀ f ∈ g.facs, f.computeJacobians h [] ≠ .ub ∧ ∀ js, f.computeJacobians h [] = .ok js → ProperBlocks h f js) :
    (computeDense env h g).2 ≠ .ub := by
  have hv : ∀ (fp : FacPlacement ℝ RVar) (vs : List (Option VRef)) (js : List (Mat ℝ)) (J : Mat ℝ),
      (∀ (p : Nat) o, vs[p]? = some o → ∃ r M, o = some r ∧ js[p]? = some M) → (denseVars g h fp vs js J).2 ≠ .ub := by
    intro fp vs
    induction vs with
    | nil => intro js J _; simp [denseVars, SE.ret]
    | cons o vs ih =>
      intro js J hvs
      obtain ⟨r, M, rfl, hM⟩ := hvs 0 o rfl
      cases js with
      | nil => simp at hM
      | cons M' js =>
        have ih' := fun J => ih js J fun p o hp => by simpa using hvs (p + 1) o (by simpa using hp)
        unfold denseVars
        by_cases he : M'.isEmpty = true
        · rw [if_pos he]
          split
          · exact ih' J
          · simp [SE.throw]
        · rw [if_neg he]
          cases hp : g.variablePlacement (VarLike.id (F := ℝ) (h r)) with
          | none => exact ih' J
          | some p =>
            dsimp only
            rw [SE.bind_get]
            split
            · simp [SE.throw]
            · split
              · simp [SE.throw]
              · split
                · simp [SE.throw]
                · exact ih' _
  have hloop : ∀ (l : List (Nat × FacPlacement ℝ RVar)) (J : Mat ℝ), (∀ it ∈ l, it.2.factor ∈ g.facs) →
      (SE.forEach l (denseOne g h) J).2 ≠ .ub := by
    intro l
    induction l with
    | nil => intro J _; simp [SE.forEach, SE.ret]
    | cons it l ih =>
      intro J hit
      rw [SE.forEach_cons]
      have hf := hit it (by simp)
      have h1 : (denseOne g h it J).2 ≠ .ub := by
        unfold denseOne
        cases e : it.2.factor.computeJacobians h [] with
        | ub => exact absurd e (hdef _ hf).1
        | threw => simp [SE.bind, SE.lift]
        | ok js =>
          refine hv _ _ js J fun p o ho => ?_
          obtain ⟨r, rfl, _⟩ := hl.wp.1 _ hf o (List.mem_of_getElem? ho)
          obtain ⟨M, hM, _⟩ := (hdef _ hf).2 js e p r ho
          exact ⟨r, M, rfl, hM⟩
      unfold SE.bind
      split
      · exact ih _ fun it h => hit it (by simp [h])
      · simp
      · rename_i s' hs; rw [hs] at h1; exact absurd rfl h1
  have := hloop (env.order g.facPl) (if g.jacValid then g.cachedJac else ⟨g.numResiduals, g.numValues, fun _ _ => 0⟩) fun it hit => by
    have := (env.order_perm g.facPl).mem_iff.1 hit
    rw [hl.fpl] at this
    obtain ⟨f, hf, e, _⟩ := mem_placedList this
    exact e ▸ List.mem_of_getElem? hf
  unfold computeDense
  rw [if_neg (by simp [hl.fin])]
  dsimp only
  split
  · simp
  · simp
  · rename_i heq; rw [heq] at this; exact absurd rfl this

/-- Writing all values. -/
theorem C140.setVector {h0 : Heap RVar} {vars : List VRef} {facs : List (Factor ℝ RVar)} (x : List ℝ) (rs : List VRef) (hsub : ∀ r ∈ rs, r ∈ vars)
    (off : Nat) (h : Heap RVar) (hI : C140.Inv h0 vars facs h) (hx : off + freeTotal (F := ℝ) h0 rs ≤ x.length) :
    (setVectorLoop x rs off h).2 ≠ .ub ∧ C140.Inv h0 vars facs (setVectorLoop x rs off h).1 := by
  induction rs generalizing off h with
  | nil => exact ⟨by simp [setVectorLoop, SE.ret], hI⟩
  | cons r rs ih =>
    have hsub' : ∀ r ∈ rs, r ∈ vars := fun r' h' => hsub r' (by simp [h'])
    have hsh := hI.2.1 r
    have e0 : freeTotal (F := ℝ) h0 (r :: rs) = freeSize (F := ℝ) (h0 r) + freeTotal (F := ℝ) h0 rs := by simp [freeTotal]
    simp only [setVectorLoop, SE.bind_get]
    by_cases hc : VarLike.isConst (F := ℝ) (h r) = true
    · rw [if_pos hc]
      exact ih hsub' off h hI (by omega)
    · rw [if_neg hc]
      have hc' : VarLike.isConst (F := ℝ) (h0 r) = false := by rw [← hsh.2.1]; simpa using hc
      rw [freeSize_of_nonconst hc', ← hsh.2.2] at e0
      have hseg : Graph.segment x off (VarLike.size (F := ℝ) (h r)) = .ok ((x.drop off).take (VarLike.size (F := ℝ) (h r))) := by
        rw [Graph.segment, if_pos (by omega)]
      have hl : ((x.drop off).take (VarLike.size (F := ℝ) (h r))).length = VarLike.size (F := ℝ) (h r) := by
        rw [List.length_take, List.length_drop]; omega
      obtain ⟨v', e, hv', hcls⟩ := (C140_variables (hI.2.2 r (.inl (hsub r (by simp)))) hl).1
      have em : (mutate r fun v => VarLike.setValue v ((x.drop off).take (VarLike.size (F := ℝ) (h r)))) h = (h.set r v', .ok ()) := by
        simp [mutate, e]
      have hsz := LawfulVar.size_setValue _ _ _ e
      have hI' := hI.set hcls ⟨LawfulVar.id_setValue _ _ _ e, LawfulVar.isConst_setValue _ _ _ e, hsz⟩ hv'
      rw [SE.bind_ok (show SE.lift (Graph.segment x off (VarLike.size (F := ℝ) (h r))) h = (h, .ok _) by rw [hseg]; rfl), SE.bind_ok em, SE.bind_get]
      refine ih hsub' _ _ hI' ?_
      simp only [Heap.set, if_true]
      omega

/-- Adding an increment to all free variables. -/
theorem C140.increment {h0 : Heap RVar} {vars : List VRef} {facs : List (Factor ℝ RVar)} {g : Graph ℝ RVar} (hgv : g.varsVec = vars)
    (hplane : ∀ r ∈ vars, VarLike.isConst (F := ℝ) (h0 r) = false → (h0 r).cls ≠ .plane) (dx : List ℝ) (rs : List VRef)
    (hsub : ∀ r ∈ rs, r ∈ vars) (h : Heap RVar) (hl : Layout h g) (hI : C140.Inv h0 vars facs h) :
    (SE.forEach rs (applyIncrementOne g dx) h).2 ≠ .ub ∧ C140.Inv h0 vars facs (SE.forEach rs (applyIncrementOne g dx) h).1 := by
  induction rs generalizing h with
  | nil => exact ⟨by simp [SE.forEach, SE.ret], hI⟩
  | cons r rs ih =>
    rw [SE.forEach_cons]
    have hrm := hsub r (by simp)
    have hsub' : ∀ r ∈ rs, r ∈ vars := fun r' h' => hsub r' (by simp [h'])
    by_cases hc : VarLike.isConst (F := ℝ) (h r) = true
    · rw [SE.bind_ok (show applyIncrementOne g dx r h = (h, .ok ()) by simp [applyIncrementOne, SE.bind_get, hc, SE.ret])]
      exact ih hsub' h hl hI
    · have hc' : VarLike.isConst (F := ℝ) (h r) = false := by simpa using hc
      have hrv : r ∈ g.varsVec := hgv ▸ hrm
      by_cases hend : colStart (F := ℝ) h g.varsVec r + VarLike.size (F := ℝ) (h r) > dx.length
      · have e : applyIncrementOne g dx r h = (h, .threw) := by
          simp only [applyIncrementOne, SE.bind_get, hc', hl.placement hrv, freeSize_of_nonconst hc', if_pos hend]
          rfl
        rw [SE.bind_threw e]
        exact ⟨by simp, hI⟩
      · have hx : (partOf (F := ℝ) h g.varsVec dx r).length = VarLike.size (F := ℝ) (h r) := by
          simp only [partOf, List.length_take, List.length_drop]
          omega
        obtain ⟨v', e, hv', hcls⟩ := (C140_variables (hI.2.2 r (.inl hrm)) hx).2.1 (by
          rw [hI.1 r]
          exact hplane r hrm ((hI.2.1 r).2.1.symm.trans hc'))
        have e1 : applyIncrementOne g dx r h = (h.set r v', .ok ()) := by
          simp only [applyIncrementOne, SE.bind_get, hc', hl.placement hrv, freeSize_of_nonconst hc', if_neg hend]
          rw [if_neg (by simp), SE.bind_ok (show SE.lift (Graph.segment dx (colStart (F := ℝ) h g.varsVec r) (VarLike.size (F := ℝ) (h r))) h =
            (h, .ok (partOf (F := ℝ) h g.varsVec dx r)) by simp only [Graph.segment, if_pos (Nat.le_of_not_lt hend), SE.lift, partOf])]
          simp [mutate, e]
        rw [SE.bind_ok e1]
        have hs : VarLike.id (F := ℝ) v' = VarLike.id (F := ℝ) (h r) ∧ VarLike.isConst (F := ℝ) v' = VarLike.isConst (F := ℝ) (h r) ∧
            VarLike.size (F := ℝ) v' = VarLike.size (F := ℝ) (h r) :=
          ⟨LawfulVar.id_applyIncr _ _ _ e, LawfulVar.isConst_applyIncr _ _ _ e, LawfulVar.size_applyIncr _ _ _ e⟩
        refine ih hsub' _ (hl.kept (Kept.refl g) fun r' => ?_) (hI.set hcls hs hv')
        by_cases hrr : r' = r
        · subst hrr
          simp only [Heap.set, if_true]
          exact hs
        · simp [Heap.set, hrr]

/-- Preparing for covariances. -/
theorem C140.prepare (A : Arith ℝ) {L : LinAlg ℝ Fact} (hL : SizesRight L) (s : OptWorld ℝ RVar Fact) (hn : 0 < s.graph.sparse.columns.length) :
    (prepare A L s).2 ≠ .ub ∧ (prepare A L s).1.heap = s.heap ∧ (prepare A L s).1.opt.hasGraph = s.opt.hasGraph := by
  unfold Opt.prepare
  rw [SE.bind_get]
  split
  · exact ⟨by simp [SE.ret], rfl, rfl⟩
  split
  · exact ⟨by simp [SE.ret], rfl, rfl⟩
  unfold sparseJacobian
  split
  · rw [SE.bind_ok (show SE.lift (.ok s.graph.sparse) s = (s, .ok s.graph.sparse) from rfl)]
    cases hf : L.factorize (L.gram s.graph.sparse) with
    | none => exact ⟨by simp [Opt.modOpt, SE.modify], rfl, rfl⟩
    | some f =>
      have hlen := (hL.diagonal _ _ hf).trans (hL.gram _)
      have hE : ¬ ((L.vectorD f).map A.abs).isEmpty = true := fun h => by
        have : (L.vectorD f).length = 0 := by simpa using h
        omega
      simp only [if_neg hE]
      exact ⟨by simp [Opt.modOpt, SE.modify], rfl, rfl⟩
  · exact ⟨by simp [SE.bind, SE.lift], rfl, rfl⟩

/-! ### The program -/

theorem C140.inv {s : OptWorld ℝ RVar Fact} (hi : Intended s) : C140.Inv s.heap s.graph.getAllVariables s.graph.getAllFactors s.heap :=
  ⟨fun _ => rfl, fun _ => ⟨rfl, rfl, rfl⟩, hi.sound⟩

theorem C140.healthy {s : OptWorld ℝ RVar Fact} (hi : Intended s) :
    Healthy (C140.Inv s.heap s.graph.getAllVariables s.graph.getAllFactors) s.graph.getAllVariables s.graph.getAllFactors s.graph.numValues s := by
  obtain ⟨h0, pre, post, hw, hpre⟩ := hi.history
  exact ⟨C140.inv hi, finalizedAfter_layout hw, finalizedAfter_ready (good := ownBuffers s.graph.facs) hw hpre hi.ids hi.noRepeats
    (fun _ _ _ => .nil) (fun k f hf h buf js hb hj f' hf' => by
      obtain rfl : f = f' := Option.some.inj (hf.symm.trans hf')
      exact .out (hb f hf) hj), rfl, rfl, rfl⟩

/-- What is reached by value calls in heaps that a run can reach is as intended, if the optimizer still has its graph. -/
theorem C140.keep {s t : OptWorld ℝ RVar Fact} (hi : Intended s) (hr : Reach (OptWorld.world s) (OptWorld.world t))
    (hI : C140.Inv s.heap s.graph.getAllVariables s.graph.getAllFactors t.heap) (hg : t.opt.hasGraph = true) :
    Intended t ∧ ∀ c, GoodCall s c → GoodCall t c := by
  obtain ⟨h0, pre, post, hw, hpre⟩ := hi.history
  obtain ⟨evs, hv, hrun⟩ := hr
  obtain ⟨hk, hs⟩ := kept_runs hrun hv
  have hv' : t.graph.getAllVariables = s.graph.getAllVariables := hk.varsVec
  have hf' : t.graph.getAllFactors = s.graph.getAllFactors := hk.facs
  have htot : freeTotal (F := ℝ) t.heap t.graph.getAllVariables = freeTotal (F := ℝ) s.heap s.graph.getAllVariables := by
    rw [hv']; exact hs.freeTotal_eq _
  refine ⟨⟨⟨h0, pre, post ++ evs, ⟨?_, ?_⟩, hpre⟩, ?_, ?_, hg, ?_, ?_, ?_, htot ▸ hi.free⟩, fun c hc => ?_⟩
  · have := runs_trans hw.1 hrun
    rw [List.append_assoc] at this
    exact this
  · intro ev hev
    rcases List.mem_append.1 hev with h | h
    · exact hw.2 ev h
    · exact hv ev h
  · rw [hv', hf']
    intro f hf v hv r hr e
    exact hi.ids f hf v hv r hr ((hs r).1.symm.trans (e.trans (hs v).1))
  · rw [hf']; exact hi.noRepeats
  · rw [hv', hf']; exact hI.2.2
  · rw [hf']
    intro f hf
    obtain ⟨hm, id, a, ha, hd, hsz, hrest⟩ := hi.made f hf
    exact ⟨hm, id, a, ha, hd.kinds hI.1, fun r hr => (hI.2.1 r).2.2.trans (hsz r hr), hrest⟩
  · rw [hv']
    intro r hr hc
    rw [hI.1 r]
    exact hi.planes r hr ((hI.2.1 r).2.1.symm.trans hc)
  · cases c with
    | user op =>
      cases op with
      | setValue r x => exact ⟨by rw [hv', hf']; exact hc.1, hc.2.trans (hI.2.1 r).2.2.symm⟩
      | incrOne r x => exact ⟨by rw [hv', hf']; exact hc.1, hc.2.1.trans (hI.2.1 r).2.2.symm, by rw [hI.1 r]; exact hc.2.2⟩
      | setVector x => exact Eq.trans hc htot.symm
      | _ => exact hc
    | _ => exact hc

/-- **C140, the run.** If the library is used as intended, the residual can be evaluated and `optimize()` returns, with every setting,
arithmetic and solver, and in every order in which the factors are visited; and afterwards everything is as intended again. -/
theorem C140 (A : Arith ℝ) {L : LinAlg ℝ Fact} (hL : SizesRight L) (env : Env ℝ RVar) {s : OptWorld ℝ RVar Fact} (hi : Intended s) :
    (∃ r0, (computeResidual env s.heap s.graph).2 = .ok r0) ∧ (optimize A L env s).2 = .ok () ∧ Intended (optimize A L env s).1 ∧
    ∀ c, GoodCall s c → GoodCall (optimize A L env s).1 c := by
  have hh := C140.healthy hi
  obtain ⟨hub, hh'⟩ := optimize_defined (C140.defined hi.made hi.planes) hL (by rw [hh.layout.nv]; exact hi.free) A env s hh
  obtain ⟨h0, pre, post, hw, hpre⟩ := hi.history
  obtain ⟨r0, segs, hlen, hseg, rfl⟩ := exists_isResidual (h := s.heap) (facs := s.graph.getAllFactors)
    fun f hf => (C140.factor (C140.inv hi) hf (hi.made f hf)).1
  obtain ⟨⟨g', e, _⟩, _⟩ := C05_residual hw segs hlen hseg env
  have hr : (computeResidual env s.heap s.graph).2 = .ok segs.flatten := by rw [e]
  have ht := (C17_returns A L env s hi.graph _ hr).1
  refine ⟨⟨_, hr⟩, ?_, C140.keep hi (Traced.optimize A L env s hub) hh'.inv ((optimize_flags A L env s hub).2.1.trans hi.graph)⟩
  cases h : (optimize A L env s).2 with
  | ok u => rfl
  | threw => exact absurd h ht
  | ub => exact absurd h hub

/-- **C140, any call** that does not change the structure and is given vectors of the right size is defined, and leaves everything as
intended. -/
theorem C140_call (A : Arith ℝ) {L : LinAlg ℝ Fact} (hL : SizesRight L) (env : Env ℝ RVar) {s : OptWorld ℝ RVar Fact} (hi : Intended s)
    {c : Opt.Call ℝ RVar} (hc : GoodCall s c) : 
    (step A L env c s).2 ≠ .ub ∧ Intended (step A L env c s).1 ∧ ∀ c', GoodCall s c' → GoodCall (step A L env c s).1 c' := by
  have hI := C140.inv hi
  have hh := C140.healthy hi
  have hres : ∀ f ∈ s.graph.facs, f.computeResidual s.heap = .threw ∨ ∃ x, f.computeResidual s.heap = .ok x ∧ x.length = f.residualSize :=
    fun f hf => .inr (C140.factor hI hf (hi.made f hf)).1
  have hdense := C140.dense (env := env) hh.layout fun f hf => (C140.factor hI hf (hi.made f hf)).2.2
  have hresidual := residual_defined (env := env) hh.layout hres
  have key : ∀ op : Op ℝ RVar, ¬ changesStructure (.user op : Opt.Call ℝ RVar) → (World.step env op ⟨s.heap, s.graph⟩).2 ≠ .ub →
      C140.Inv s.heap s.graph.getAllVariables s.graph.getAllFactors (World.step env op ⟨s.heap, s.graph⟩).1.heap →
      (step A L env (.user op) s).2 ≠ .ub ∧ Intended (step A L env (.user op) s).1 ∧
        ∀ c', GoodCall s c' → GoodCall (step A L env (.user op) s).1 c' := fun op hop hne hinv =>
    ⟨hne, C140.keep hi (reach_call hop (rfl : step A L env (.user op) s = _) hne) hinv hi.graph⟩
  cases c with
  | user op =>
    cases op with
    | addVariable _ | addFactor _ | finalize | setConstant _ _ => exact hc.elim
    | setValue r x =>
      obtain ⟨v', e, hv', hcls⟩ := (C140_variables (hi.sound r hc.1) hc.2).1
      have em : (mutate r fun v => VarLike.setValue v x) s.heap = (s.heap.set r v', .ok ()) := by simp [mutate, e]
      refine key _ (fun h => h) ?_ ?_ <;> simp only [World.step, World.onHeap, em]
      · simp [Res.void]
      · exact hI.set hcls ⟨LawfulVar.id_setValue _ _ _ e, LawfulVar.isConst_setValue _ _ _ e, LawfulVar.size_setValue _ _ _ e⟩ hv'
    | incrOne r x =>
      obtain ⟨v', e, hv', hcls⟩ := (C140_variables (hi.sound r hc.1) hc.2.1).2.1 hc.2.2
      have em : (mutate r fun v => VarLike.applyIncr v x) s.heap = (s.heap.set r v', .ok ()) := by simp [mutate, e]
      refine key _ (fun h => h) ?_ ?_ <;> simp only [World.step, World.onHeap, em]
      · simp [Res.void]
      · exact hI.set hcls ⟨LawfulVar.id_applyIncr _ _ _ e, LawfulVar.isConst_applyIncr _ _ _ e, LawfulVar.size_applyIncr _ _ _ e⟩ hv'
    | setVector x =>
      have := C140.setVector x s.graph.varsVec (fun _ h => h) 0 s.heap hI (by rw [show x.length = _ from hc, Nat.zero_add]; exact Nat.le_refl _)
      exact key _ (fun h => h) (void_ne_ub this.1) this.2
    | applyIncrement x =>
      have := C140.increment (facs := s.graph.getAllFactors) rfl hi.planes x s.graph.varsVec (fun _ h => h) s.heap hh.layout hI
      have h2 : (applyIncrement s.graph x s.heap).2 ≠ .ub ∧
          C140.Inv s.heap s.graph.getAllVariables s.graph.getAllFactors (applyIncrement s.graph x s.heap).1 := by
        unfold applyIncrement
        split
        · exact ⟨by simp [SE.throw], hI⟩
        · split
          · exact ⟨by simp [SE.throw], hI⟩
          · exact this
      exact key _ (fun h => h) (void_ne_ub h2.1) h2.2
    | residual => exact key _ (fun h => h) (void_ne_ub hresidual) hI
    | residualInto buf => exact key _ (fun h => h) (residualInto_defined hh.layout hres buf) hI
    | dense => exact key _ (fun h => h) (void_ne_ub hdense) hI
    | denseAndResidual =>
      refine key _ (fun h => h) (void_ne_ub ?_) hI
      unfold computeDenseAndResidual
      dsimp only
      split
      · simp
      · rcases hd : computeDense env s.heap s.graph with ⟨g1, r1⟩
        rw [hd] at hdense
        cases r1 with
        | ub => exact absurd rfl hdense
        | threw => rw [SE.bind_threw hd]; simp
        | ok J =>
          rw [SE.bind_ok hd]
          have hk := (kept_step (env := env) (w := ⟨s.heap, s.graph⟩) (op := .dense) trivial).1
          have hg1 : (World.step env .dense ⟨s.heap, s.graph⟩).1.graph = g1 := by
            show (computeDense env s.heap s.graph).1 = g1
            rw [hd]
          rw [hg1] at hk
          have h2 := residual_defined (env := env) (hh.layout.kept hk fun _ => ⟨rfl, rfl, rfl⟩) fun f hf => hres f (by rw [← hk.facs]; exact hf)
          rcases he : computeResidual env s.heap g1 with ⟨g2, r2⟩
          rw [he] at h2
          cases r2 with
          | ub => exact absurd rfl h2
          | threw => rw [SE.bind_threw he]; simp
          | ok x => rw [SE.bind_ok he]; simp [SE.ret]
    | sparse =>
      have h1 := computeSparse_defined hh.ready fun k f hf buf hb =>
        (C140.defined hi.made hi.planes).jacobians _ hI f (List.mem_of_getElem? hf) buf (hb f hf)
      exact key _ (fun h => h) (void_ne_ub h1.1) hI
    | copy => exact key _ (fun h => h) (by simp [World.step, World.onGraph, SE.modify, Res.void]) hI
  | setup b st =>
    have hb : b = true := hc
    subst hb
    refine ⟨by simp [step, setup, Opt.modOpt, SE.modify], C140.keep hi (Reach.refl _) hI ?_⟩
    simp [step, setup, Opt.modOpt, SE.modify]
  | optimize =>
    obtain ⟨_, h1, h2⟩ := C140 A hL env hi
    exact ⟨by rw [show (step A L env .optimize s).2 = _ from h1]; simp, h2⟩
  | prepare =>
    obtain ⟨hne, hheap, hg⟩ := C140.prepare A hL s (by rw [hh.ready.laid.spLen, hh.layout.nv]; exact hi.free)
    exact ⟨hne, C140.keep hi (Traced.prepare A L s hne) (by rw [show (step A L env .prepare s).1.heap = s.heap from hheap]; exact hI)
      (hg.trans hi.graph)⟩

/-- **C140, whole programs.** From a state as intended on, a program of such calls never runs into undefined behaviour, and every
`optimize()` in it returns. -/
theorem C140_program (A : Arith ℝ) {L : LinAlg ℝ Fact} (hL : SizesRight L) {s : OptWorld ℝ RVar Fact} (hi : Intended s)
    (cs : List (Env ℝ RVar × Opt.Call ℝ RVar)) (hc : ∀ c ∈ cs, GoodCall s c.2) :
    ∀ ev ∈ outcomes A L s cs, ev.2 ≠ .ub ∧ (ev.1 = .optimize → ev.2 = .ok ()) := by
  induction cs generalizing s with
  | nil => intro ev hev; simp [outcomes] at hev
  | cons c cs ih =>
    obtain ⟨env, c⟩ := c
    have h1 := C140_call A hL env hi (hc (env, c) (by simp))
    intro ev hev
    rcases List.mem_cons.1 hev with rfl | hev
    · refine ⟨h1.1, fun e => ?_⟩
      dsimp only at e ⊢
      subst e
      exact (C140 A hL env hi).2.1
    · exact ih h1.2.1 (fun c' hc' => h1.2.2 _ (hc c' (by simp [hc']))) ev hev

/-! ### An example -/

/-- Two poses with the way and rotation between them, and the position and orientation of the first. -/
noncomputable def C140.route (p q z m : V3) (σ : ℝ) (l : Bool) (st : Settings ℝ) : OptWorld ℝ RVar (Ldlt.Fact ℝ) :=
  ⟨(RouteWorld.world true true p q z m σ l).heap, (RouteWorld.world true true p q z m σ l).graph,
    { Optimizer.init realArith with hasGraph := true, settings := st }⟩

section
variable (p q z m : V3) {σ : ℝ} (hσ : 0 < σ) (l : Bool) (st : Settings ℝ)

theorem C140.route_sound (r : VRef) : Sound (RouteWorld.heap p q z r) := by
  match r with
  | 0 => simp [RouteWorld.heap, Sound, PoseVar.value, length_toList]
  | 1 => simp [RouteWorld.heap, Sound, PoseVar.value, length_toList]
  | 2 => simp [RouteWorld.heap, Sound, toList]
  | _ + 3 => trivial

include hσ in
theorem C140.route_made : ∀ f ∈ RouteWorld.facs true true m σ l, FromConstructor (RouteWorld.heap p q z) f := by
  intro f hf
  simp only [RouteWorld.facs, RouteWorld.leadP, RouteWorld.leadO, if_true, List.mem_cons, List.not_mem_nil, or_false] at hf
  rcases hf with rfl | rfl | rfl | rfl
  · refine ⟨RouteWorld.heap p q z, 11, .posePositionPrior (some 0) m σ, ?_, ?_, fun _ _ => rfl, trivial, by simp, by simp [classOf]⟩
    · simp [construct, C130.check_made, hσ, Construct.finish, hσ.ne]
    · simp [Declared, RouteWorld.heap]
  · refine ⟨RouteWorld.heap p q z, 12, .poseOrientationPrior (some 0) 1 σ, ?_, ?_, fun _ _ => rfl, trivial, by simp, by simp [classOf]⟩
    · simp [construct, C130.check_made, hσ, Construct.finish, hσ.ne]
    · simp [Declared, RouteWorld.heap]
  · refine ⟨RouteWorld.heap p q z, 13, .posePositionBetween (some 0) (some 1) (some 2) σ l, ?_, ?_, fun _ _ => rfl, trivial, by simp, by simp [classOf]⟩
    · simp [construct, C130.check_made, C130.checkAt_made, hσ, Construct.finish, Construct.sizeAt, RouteWorld.heap, VarLike.size, length_toList, hσ.ne]
    · simp [Declared, RouteWorld.heap]
  · refine ⟨RouteWorld.heap p q z, 14, .poseOrientationBetween (some 0) (some 1) (some 3) σ, ?_, ?_, fun _ _ => rfl, trivial, by simp, by simp [classOf]⟩
    · simp [construct, C130.check_made, hσ, Construct.finish, hσ.ne]
    · simp [Declared, RouteWorld.heap]

include hσ in
theorem C140.route_intended : Intended (C140.route p q z m σ l st) where
  history := ⟨_, _, _, RouteWorld.finalizedAfter .., RouteWorld.noJacobianYet ..⟩
  ids := RouteWorld.identify _ _ _ _ _ _ _ _
  noRepeats := RouteWorld.noRepeats _ _ _ _ _ _ _ _
  graph := rfl
  sound r _ := by
    rw [show (C140.route p q z m σ l st).heap = RouteWorld.heap p q z from RouteWorld.heap_eq ..]
    exact C140.route_sound p q z r
  made := by
    rw [show (C140.route p q z m σ l st).heap = RouteWorld.heap p q z from RouteWorld.heap_eq ..,
      show (C140.route p q z m σ l st).graph.getAllFactors = _ from RouteWorld.facs_eq ..]
    exact C140.route_made p q z m hσ l
  planes := by
    rw [show (C140.route p q z m σ l st).heap = RouteWorld.heap p q z from RouteWorld.heap_eq ..,
      show (C140.route p q z m σ l st).graph.getAllVariables = [0, 1, 2, 3] from RouteWorld.vars_eq ..]
    intro r hr _
    simp only [List.mem_cons, List.not_mem_nil, or_false] at hr
    rcases hr with rfl | rfl | rfl | rfl <;> simp [RouteWorld.heap, RVar.cls]
  free := by
    rw [show (C140.route p q z m σ l st).heap = RouteWorld.heap p q z from RouteWorld.heap_eq ..,
      show (C140.route p q z m σ l st).graph.getAllVariables = [0, 1, 2, 3] from RouteWorld.vars_eq ..]
    simp [freeTotal, freeSize, RouteWorld.heap, VarLike.isConst, VarLike.size]

/-- Two poses are optimized, the first is turned and shifted, the Jacobian is evaluated, and with other settings they are optimized again. -/
example (env : Env ℝ RVar) (st' : Settings ℝ) :
    ∀ ev ∈ outcomes realArith Ldlt.linAlg (C140.route p q z m σ l st)
      [(env, .optimize), (env, .user (.incrOne 0 [1, 2, 3, 0, 1, 0])), (env, .user .dense), (env, .setup true st'), (env, .optimize), (env, .prepare)],
      ev.2 ≠ .ub ∧ (ev.1 = .optimize → ev.2 = .ok ()) := by
  refine C140_program realArith Ldlt.sizesRight (C140.route_intended p q z m hσ l st) _ fun c hc => ?_
  simp only [List.mem_cons, List.not_mem_nil, or_false] at hc
  rcases hc with rfl | rfl | rfl | rfl | rfl | rfl
  · trivial
  · refine ⟨.inl ?_, ?_, ?_⟩
    · rw [show (C140.route p q z m σ l st).graph.getAllVariables = [0, 1, 2, 3] from RouteWorld.vars_eq ..]
      simp
    · rw [show (C140.route p q z m σ l st).heap = RouteWorld.heap p q z from RouteWorld.heap_eq ..]
      rfl
    · rw [show (C140.route p q z m σ l st).heap = RouteWorld.heap p q z from RouteWorld.heap_eq ..]
      simp [RouteWorld.heap, RVar.cls]
  · trivial
  · exact rfl
  · trivial
  · trivial

example (env : Env ℝ RVar) : (optimize realArith Ldlt.linAlg env (C140.route p q z m σ l st)).2 = .ok () :=
  (C140 realArith Ldlt.sizesRight env (C140.route_intended p q z m hσ l st)).2.1

end

end Factorama.Props
