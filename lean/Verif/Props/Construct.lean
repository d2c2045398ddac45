import Verif.Spec.Construct
import Verif.Lemmas.Factors

/-!
# Property C130: what the constructors of the factors accept, and what accepted factors do
-/

namespace Factorama.Props
open Spec Matrix Construct

theorem C130.check_made {c : Prop} {k : Made} {f : Factor ℝ RVar} : check .debug c k = .made f ↔ c ∧ k = .made f := by
  unfold check
  by_cases h : c <;> simp [h]

theorem C130.checkAt_made {ps : List (Option VRef)} {c : Prop} {k : Made} {f : Factor ℝ RVar} :
    checkAt .debug ps c k = .made f ↔ none ∉ ps ∧ c ∧ k = .made f := by
  unfold checkAt
  by_cases h : none ∈ ps <;> simp [h, C130.check_made]

theorem C130.check_stops {c : Prop} {k : Made} (h : c → k = .aborted ∨ ∃ f, k = .made f) :
    check .debug c k = .aborted ∨ ∃ f, check .debug c k = .made f := by
  unfold check
  by_cases hc : c
  · simpa [hc] using h hc
  · simp [hc]

theorem C130.checkAt_stops {ps : List (Option VRef)} {c : Prop} {k : Made} (hn : none ∉ ps)
    (h : c → k = .aborted ∨ ∃ f, k = .made f) : checkAt .debug ps c k = .aborted ∨ ∃ f, checkAt .debug ps c k = .made f := by
  simpa [checkAt, hn] using C130.check_stops h

theorem C130.check_release {c : Prop} {k : Made} : check .release c k = k := by simp [check]

theorem C130.checkAt_release {ps : List (Option VRef)} {c : Prop} {k : Made} : checkAt .release ps c k = k := by
  simp [checkAt, check]

theorem C130.check_true {t : BuildType} {c : Prop} {k : Made} (h : c) : check t c k = k := by simp [check, h]

theorem C130.finish_made (id : Int) (size : Nat) (ptrs : List (Option VRef)) (ss : List ℝ) (k : (Nat → VRef) → Factor ℝ RVar) :
    ∃ f, finish id size ptrs ss k = .made f := ⟨_, rfl⟩

theorem C130.finish_ok {id : Int} {size : Nat} {ptrs : List (Option VRef)} {ss : List ℝ} {k : (Nat → VRef) → Factor ℝ RVar}
    (h1 : none ∉ ptrs) (h2 : ∀ s ∈ ss, 0 < s) : finish id size ptrs ss k = .made (k fun i => (ptrs.getD i none).getD 0) := by
  unfold finish
  rw [if_neg]
  rintro (h | h)
  · exact h1 h
  · exact lt_irrefl _ (h2 0 h)

theorem C130.acceptable_iff {h : Heap RVar} {a : FactorArgs} : Acceptable h a ↔ none ∉ pointers a ∧ (∀ s ∈ deviations a, 0 < s) ∧
    SizesAgree h a ∧ (∀ p l r o s s', a = .rangeBearing2D p l r o s s' → 0 ≤ r) ∧ ∀ l n d s s', a = .planePrior l n d s s' → n ≠ 0 :=
  ⟨fun ⟨h1, h2, h3, h4, h5⟩ => ⟨h1, h2, h3, h4, h5⟩, fun ⟨h1, h2, h3, h4, h5⟩ => ⟨h1, h2, h3, h4, h5⟩⟩

theorem C130.normal_pos (n : V3) : 0 < n ⬝ᵥ n ↔ n ≠ 0 := by
  constructor
  · rintro h rfl
    simp at h
  · intro h
    refine lt_of_le_of_ne (Finset.sum_nonneg fun i _ => mul_self_nonneg _) fun h0 => h ?_
    funext i
    have := (Finset.sum_eq_zero_iff_of_nonneg fun i _ => mul_self_nonneg (n i)).1 h0.symm i (Finset.mem_univ i)
    simpa using this

/-- A pose in the plane, a point in the plane, and three variables with two, two and one entries. -/
noncomputable def C130.heap (x y : ℝ) : Heap RVar
  | 0 => .pose2d ⟨0, false, ![x, y], 0⟩
  | 1 => .generic ⟨1, false, [x + 3, y + 4]⟩
  | 2 => .generic ⟨2, false, [x, y]⟩
  | 3 => .generic ⟨3, false, [x]⟩
  | r => .generic ⟨r, false, [0, 0]⟩

theorem C130.range_acceptable (x y : ℝ) : Acceptable (C130.heap x y) (.rangeBearing2D (some 0) (some 1) 5 0 2 3) where
  notNull := by simp [pointers]
  positive := by simp [deviations]
  sizes := rfl
  range := by
    intro p l r o s s' e
    injection e with _ _ e
    rw [← e]
    norm_num
  normal := by simp

theorem C130.velocity_acceptable (x y : ℝ) : Acceptable (C130.heap x y) (.linearVelocity (some 1) (some 2) (some 3) 1 2 0) where
  notNull := by simp [pointers]
  positive := by simp [deviations]
  sizes := ⟨rfl, Nat.le_succ 1⟩
  range := by simp
  normal := by simp

/-- **C130, acceptance**. In a debug build a constructor returns exactly if the arguments are acceptable. -/
theorem C130_accepts (h : Heap RVar) (id : Int) (a : FactorArgs) : (∃ f, construct .debug h id a = .made f) ↔ Acceptable h a := by
  rw [C130.acceptable_iff]
  cases a with
  | genericPrior v =>
    rcases v with _ | v <;> simp [construct, C130.check_made, C130.checkAt_made, C130.finish_made, pointers, deviations, SizesAgree, sizeAt]
    tauto
  | genericBetween a b m =>
    rcases a with _ | a <;> rcases b with _ | b <;> rcases m with _ | m <;>
      simp [construct, C130.check_made, C130.checkAt_made, C130.finish_made, pointers, deviations, SizesAgree, sizeAt] <;> tauto
  | posePositionPrior p => rcases p with _ | p <;> simp [construct, C130.check_made, C130.finish_made, pointers, deviations, SizesAgree]
  | poseOrientationPrior p => rcases p with _ | p <;> simp [construct, C130.check_made, C130.finish_made, pointers, deviations, SizesAgree]
  | rotationPrior p => rcases p with _ | p <;> simp [construct, C130.check_made, C130.finish_made, pointers, deviations, SizesAgree]
  | posePositionBetween a b m =>
    rcases a with _ | a <;> rcases b with _ | b <;> rcases m with _ | m <;>
      simp [construct, C130.check_made, C130.checkAt_made, C130.finish_made, pointers, deviations, SizesAgree, sizeAt] <;> tauto
  | poseOrientationBetween a b m =>
    rcases a with _ | a <;> rcases b with _ | b <;> rcases m with _ | m <;>
      simp [construct, C130.check_made, C130.finish_made, pointers, deviations, SizesAgree]
  | bearingObservation p l =>
    rcases p with _ | p <;> rcases l with _ | l <;> simp [construct, C130.check_made, C130.finish_made, pointers, deviations, SizesAgree]
  | inverseRangeBearing p l =>
    rcases p with _ | p <;> rcases l with _ | l <;> simp [construct, C130.check_made, C130.finish_made, pointers, deviations, SizesAgree]
  | bearingProjection p l =>
    rcases p with _ | p <;> rcases l with _ | l <;> simp [construct, C130.check_made, C130.finish_made, pointers, deviations, SizesAgree]
  | bearing2D p l =>
    rcases p with _ | p <;> rcases l with _ | l <;>
      simp [construct, C130.check_made, C130.checkAt_made, C130.finish_made, pointers, deviations, SizesAgree, sizeAt] <;> tauto
  | rangeBearing2D p l =>
    rcases p with _ | p <;> rcases l with _ | l <;>
      simp [construct, C130.check_made, C130.checkAt_made, C130.finish_made, pointers, deviations, SizesAgree, sizeAt] <;> grind
  | pose2DPrior p => rcases p with _ | p <;> simp [construct, C130.check_made, C130.finish_made, pointers, deviations, SizesAgree]
  | pose2DBetween a b m =>
    rcases a with _ | a <;> rcases b with _ | b <;> rcases m with _ | m <;>
      simp [construct, C130.check_made, C130.checkAt_made, C130.finish_made, pointers, deviations, SizesAgree, sizeAt] <;> tauto
  | plane p l =>
    rcases p with _ | p <;> rcases l with _ | l <;>
      simp [construct, C130.check_made, C130.checkAt_made, C130.finish_made, pointers, deviations, SizesAgree, sizeAt] <;> tauto
  | planePrior l =>
    rcases l with _ | l <;> simp [construct, C130.check_made, C130.finish_made, pointers, deviations, SizesAgree, C130.normal_pos] <;> grind
  | linearVelocity v1 v2 vel dt sigma i =>
    rcases v1 with _ | v1 <;> rcases v2 with _ | v2 <;> rcases vel with _ | vel <;>
      simp [construct, C130.check_made, C130.checkAt_made, pointers, deviations, SizesAgree, sizeAt]
    split <;> simp [C130.finish_made] <;> tauto
  | coordinateTransform rot org sc la lb =>
    rcases rot with _ | rot <;> rcases org with _ | org <;> rcases sc with _ | sc <;> rcases la with _ | la <;>
      rcases lb with _ | lb <;> simp [construct, C130.check_made, C130.checkAt_made, C130.finish_made, pointers, deviations, SizesAgree, sizeAt] <;> tauto

example : ∃ f, construct .debug (C130.heap 0 0) 7 (.rangeBearing2D (some 0) (some 1) 5 0 2 3) = .made f :=
  (C130_accepts _ _ _).2 (C130.range_acceptable 0 0)

example : ¬ ∃ f, construct .debug (C130.heap 0 0) 7 (.rangeBearing2D (some 0) (some 1) (-5) 0 2 3) = .made f := fun h => by
  have := ((C130_accepts _ _ _).1 h).range _ _ _ _ _ _ rfl
  norm_num at this

/-- **C130, refusal**. With other arguments it stops the program, except that a missing velocity is not noticed. -/
theorem C130_stops_partial (h : Heap RVar) (id : Int) (a : FactorArgs) (ha : ¬ Acceptable h a)
    (hv : ∀ v1 v2 dt s i, a ≠ .linearVelocity v1 v2 none dt s i) : construct .debug h id a = .aborted := by
  refine Or.resolve_right ?_ fun h1 => ha ((C130_accepts h id a).1 h1)
  cases a with
  | linearVelocity v1 v2 vel dt sigma i =>
    cases vel with
    | none => exact absurd rfl (hv _ _ _ _ _)
    | some r =>
      repeat' first | refine C130.check_stops fun _ => ?_ | refine C130.checkAt_stops (by simp_all [eq_comm]) fun _ => ?_
      split
      · exact .inr ⟨_, rfl⟩
      · exact .inr (C130.finish_made ..)
  | genericBetween a b m s =>
    by_cases hm : m = none
    · subst hm
      refine C130.check_stops fun _ => C130.check_stops fun _ => .inl ?_
      simp [check]
    · obtain ⟨r, rfl⟩ := Option.ne_none_iff_exists'.1 hm
      repeat' first | refine C130.check_stops fun _ => ?_ | refine C130.checkAt_stops (by simp_all [eq_comm]) fun _ => ?_
      exact .inr (C130.finish_made ..)
  | _ => repeat' first | refine C130.check_stops fun _ => ?_ | refine C130.checkAt_stops (by simp_all [eq_comm]) fun _ => ?_
         exact .inr (C130.finish_made ..)

example : construct .debug (C130.heap 0 0) 7 (.rangeBearing2D (some 0) (some 3) 5 0 2 3) = .aborted :=
  C130_stops_partial _ _ _ (fun h => absurd (show (1 : Nat) = 2 from h.sizes) (by norm_num)) (by simp)

example : construct .debug (C130.heap 0 0) 7 (.linearVelocity (some 1) none (some 3) 1 2 0) = .aborted :=
  C130_stops_partial _ _ _ (fun h => absurd h.notNull (by simp [pointers])) (by simp)

/-- **C130 is false** of `LinearVelocityFactor`: a null pointer in place of the velocity is dereferenced before it is checked. -/
theorem C130_null_velocity_false (t : BuildType) (h : Heap RVar) (id : Int) (v1 v2 : Option VRef) (dt s : ℝ) (i : Int) :
    construct t h id (.linearVelocity v1 v2 none dt s i) = .ub ∧ ¬ Acceptable h (.linearVelocity v1 v2 none dt s i) :=
  ⟨rfl, fun h => h.notNull (by simp [pointers])⟩

/-- **C130, release builds**: for acceptable arguments the constructor does the same as in a debug build. -/
theorem C130_release (h : Heap RVar) (id : Int) (a : FactorArgs) (ha : Acceptable h a) :
    construct .release h id a = construct .debug h id a := by
  obtain ⟨f, hf⟩ := (C130_accepts h id a).2 ha
  rw [hf]
  cases a with
  | linearVelocity v1 v2 vel dt sigma i =>
    cases vel with
    | none => exact absurd ha.notNull (by simp [pointers])
    | some r =>
      simp only [construct, C130.check_made, C130.checkAt_made] at hf
      simp only [construct, C130.check_release, C130.checkAt_release]
      exact hf.2.2.2.2.2.2.2
  | genericPrior => simp only [construct, C130.check_made, C130.checkAt_made, C130.check_release, C130.checkAt_release] at hf ⊢; exact hf.2.2.2.2
  | _ => simp only [construct, C130.check_made, C130.checkAt_made, C130.check_release, C130.checkAt_release] at hf ⊢; tauto

example : ∃ f, construct .release (C130.heap 0 0) 7 (.rangeBearing2D (some 0) (some 1) 5 0 2 3) = .made f := by
  rw [C130_release _ _ _ (C130.range_acceptable 0 0)]
  exact (C130_accepts _ _ _).2 (C130.range_acceptable 0 0)

theorem C130.some_of {p : Option VRef} (h : p ≠ none) : ∃ r, p = some r := Option.ne_none_iff_exists'.1 h

theorem C130.vecSub_ok {x y : List ℝ} (h : x.length = y.length) : ∃ d, vecSub x y = .ok d ∧ d.length = x.length := by
  unfold vecSub
  rw [if_pos h]
  exact ⟨_, rfl, by simp [h]⟩

theorem C130.vec3_ok {x : List ℝ} (h : x.length = 3) : Fac.vec3 x = .ok (read3 x 0) := if_pos h

/-- **C130, evaluation**. A factor that a debug build makes can be evaluated whatever the values its variables have later: the
residual has as many entries as announced. Missing: a velocity factor with an `initial_index` that is too large or negative, a
plane factor with a distance `dist_scaling_r0` that is not positive (both are accepted), and inverse ranges that are nearly 0. -/
theorem C130_evaluates_partial {h h' : Heap RVar} {id : Int} {a : FactorArgs} {f : Factor ℝ RVar}
    (hf : construct .debug h id a = .made f) (hd : Declared h' a)
    (hfull : ∀ r, some r ∈ pointers a → Full (h' r) ∧ VarLike.size (h' r) = VarLike.size (h r)) (hi : IndexFits h a)
    (hscale : ∀ p l s r0 p0, a = .plane p l s (some (r0, p0)) → 0 < r0)
    (hrange : ∀ r v, some r ∈ pointers a → h' r = .invRange v → 1e-9 ≤ |v.inv|) :
    f.id = id ∧ f.variables = pointers a ∧ ∃ r, f.computeResidual h' = .ok r ∧ r.length = f.residualSize := by
  have ha := (C130_accepts h id a).1 ⟨f, hf⟩
  rw [← C130_release h id a ha] at hf
  have hn := ha.notNull
  have hp := ha.positive
  have hsz := ha.sizes
  cases a with
  | genericPrior v prior sigma =>
    obtain ⟨v, rfl⟩ := C130.some_of (p := v) (by rintro rfl; simp [pointers] at hn)
    simp only [construct, C130.check_release, C130.checkAt_release] at hf
    obtain rfl : f = Factorama.genericPrior id v prior (1 / sigma) :=
      (Made.made.inj ((C130.finish_ok hn hp).symm.trans hf)).symm
    obtain ⟨h1, h2⟩ := hfull v (by simp [pointers])
    obtain ⟨d, e, hl⟩ := C130.vecSub_ok (x := VarLike.value (h' v)) (y := prior) (by rw [h1, h2]; exact hsz.symm)
    refine ⟨rfl, rfl, d.map (1 / sigma * ·), ?_, ?_⟩
    · simp only [genericPrior, e]
    · rw [List.length_map, hl, h1, h2]; exact hsz.symm
  | genericBetween a b m sigma =>
    obtain ⟨a, rfl⟩ := C130.some_of (p := a) (by rintro rfl; simp [pointers] at hn)
    obtain ⟨b, rfl⟩ := C130.some_of (p := b) (by rintro rfl; simp [pointers] at hn)
    obtain ⟨m, rfl⟩ := C130.some_of (p := m) (by rintro rfl; simp [pointers] at hn)
    simp only [construct, C130.check_release, C130.checkAt_release] at hf
    obtain rfl : f = Factorama.genericBetween id a b m (VarLike.size (h m)) (1 / sigma) :=
      (Made.made.inj ((C130.finish_ok hn hp).symm.trans hf)).symm
    obtain ⟨a1, a2⟩ := hfull a (by simp [pointers])
    obtain ⟨b1, b2⟩ := hfull b (by simp [pointers])
    obtain ⟨m1, m2⟩ := hfull m (by simp [pointers])
    obtain ⟨s1, s2⟩ := hsz
    obtain ⟨d, e, hl⟩ := C130.vecSub_ok (x := VarLike.value (h' b)) (y := VarLike.value (h' a)) (by rw [a1, b1, a2, b2, s1])
    obtain ⟨d', e', hl'⟩ := C130.vecSub_ok (x := d) (y := VarLike.value (h' m)) (by rw [hl, m1, b1, b2, m2, ← s1, s2])
    refine ⟨rfl, rfl, d'.map (1 / sigma * ·), ?_, ?_⟩
    · simp only [genericBetween, e, e']
    · rw [List.length_map, hl', hl, b1, b2, ← s1]; exact s2
  | posePositionPrior p prior sigma =>
    obtain ⟨p, rfl⟩ := C130.some_of (p := p) (by rintro rfl; simp [pointers] at hn)
    simp only [construct, C130.check_release] at hf
    obtain rfl : f = Fac.posePositionPrior id p prior sigma :=
      (Made.made.inj ((C130.finish_ok hn hp).symm.trans hf)).symm
    obtain ⟨v, e⟩ := hd p rfl
    exact ⟨rfl, rfl, _, by simp [Fac.posePositionPrior, e]; rfl, by simp [toList, Fac.posePositionPrior]⟩
  | poseOrientationPrior p prior sigma =>
    obtain ⟨p, rfl⟩ := C130.some_of (p := p) (by rintro rfl; simp [pointers] at hn)
    simp only [construct, C130.check_release] at hf
    obtain rfl : f = Fac.poseOrientationPrior id p prior sigma :=
      (Made.made.inj ((C130.finish_ok hn hp).symm.trans hf)).symm
    obtain ⟨v, e⟩ := hd p rfl
    exact ⟨rfl, rfl, _, by simp [Fac.poseOrientationPrior, e]; rfl, by simp [toList, Fac.poseOrientationPrior]⟩
  | rotationPrior p prior sigma =>
    obtain ⟨p, rfl⟩ := C130.some_of (p := p) (by rintro rfl; simp [pointers] at hn)
    simp only [construct, C130.check_release] at hf
    obtain rfl : f = Fac.rotationPrior id p prior sigma :=
      (Made.made.inj ((C130.finish_ok hn hp).symm.trans hf)).symm
    obtain ⟨v, e⟩ := hd p rfl
    exact ⟨rfl, rfl, _, by simp [Fac.rotationPrior, e]; rfl, by simp [toList, Fac.rotationPrior]⟩
  | posePositionBetween a b m sigma localFrame =>
    obtain ⟨a, rfl⟩ := C130.some_of (p := a) (by rintro rfl; simp [pointers] at hn)
    obtain ⟨b, rfl⟩ := C130.some_of (p := b) (by rintro rfl; simp [pointers] at hn)
    obtain ⟨m, rfl⟩ := C130.some_of (p := m) (by rintro rfl; simp [pointers] at hn)
    simp only [construct, C130.check_release, C130.checkAt_release] at hf
    obtain rfl : f = Fac.posePositionBetween id a b m sigma localFrame :=
      (Made.made.inj ((C130.finish_ok hn hp).symm.trans hf)).symm
    obtain ⟨va, ea⟩ := hd.1 a rfl
    obtain ⟨vb, eb⟩ := hd.2 b rfl
    obtain ⟨m1, m2⟩ := hfull m (by simp [pointers])
    have hm := C130.vec3_ok (m1.trans (m2.trans hsz))
    exact ⟨rfl, rfl, _, by simp [Fac.posePositionBetween, ea, eb, hm, Res.map]; rfl, by simp [toList, Fac.posePositionBetween]⟩
  | poseOrientationBetween a b c sigma =>
    obtain ⟨a, rfl⟩ := C130.some_of (p := a) (by rintro rfl; simp [pointers] at hn)
    obtain ⟨b, rfl⟩ := C130.some_of (p := b) (by rintro rfl; simp [pointers] at hn)
    obtain ⟨c, rfl⟩ := C130.some_of (p := c) (by rintro rfl; simp [pointers] at hn)
    simp only [construct, C130.check_release] at hf
    obtain rfl : f = Fac.poseOrientationBetween id a b c sigma :=
      (Made.made.inj ((C130.finish_ok hn hp).symm.trans hf)).symm
    obtain ⟨va, ea⟩ := hd.1 a rfl
    obtain ⟨vb, eb⟩ := hd.2.1 b rfl
    obtain ⟨vc, ec⟩ := hd.2.2 c rfl
    exact ⟨rfl, rfl, _, by simp [Fac.poseOrientationBetween, ea, eb, ec]; rfl, by simp [toList, Fac.poseOrientationBetween]⟩
  | bearingObservation p l bearing sigma =>
    obtain ⟨p, rfl⟩ := C130.some_of (p := p) (by rintro rfl; simp [pointers] at hn)
    obtain ⟨l, rfl⟩ := C130.some_of (p := l) (by rintro rfl; simp [pointers] at hn)
    simp only [construct, C130.check_release] at hf
    obtain rfl : f = Fac.bearingObservation id p l bearing sigma :=
      (Made.made.inj ((C130.finish_ok hn hp).symm.trans hf)).symm
    obtain ⟨vp, ep⟩ := hd.1 p rfl
    obtain ⟨vl, el⟩ := hd.2 l rfl
    have hl : vl.posW = .ok (read3 vl.value 0) := if_pos (by have := (hfull l (by simp [pointers])).1; rw [Full, el] at this; exact this)
    exact ⟨rfl, rfl, _, by simp [Fac.bearingObservation, ep, el, hl, Res.map]; rfl, by simp [toList, Fac.bearingObservation]⟩
  | bearingProjection p l bearing sigma tol =>
    obtain ⟨p, rfl⟩ := C130.some_of (p := p) (by rintro rfl; simp [pointers] at hn)
    obtain ⟨l, rfl⟩ := C130.some_of (p := l) (by rintro rfl; simp [pointers] at hn)
    simp only [construct, C130.check_release] at hf
    obtain rfl : f = Fac.bearingProjection id p l bearing sigma tol :=
      (Made.made.inj ((C130.finish_ok hn hp).symm.trans hf)).symm
    obtain ⟨vp, ep⟩ := hd.1 p rfl
    obtain ⟨vl, el⟩ := hd.2 l rfl
    have hl : vl.posW = .ok (read3 vl.value 0) := if_pos (by have := (hfull l (by simp [pointers])).1; rw [Full, el] at this; exact this)
    exact ⟨rfl, rfl, _, by simp [Fac.bearingProjection, ep, el, hl, Res.map]; rfl,
      by split <;> simp [toList, Fac.bearingProjection]⟩
  | inverseRangeBearing p r bearing sigma =>
    obtain ⟨p, rfl⟩ := C130.some_of (p := p) (by rintro rfl; simp [pointers] at hn)
    obtain ⟨r, rfl⟩ := C130.some_of (p := r) (by rintro rfl; simp [pointers] at hn)
    simp only [construct, C130.check_release] at hf
    obtain rfl : f = Fac.inverseRangeBearing id p r bearing sigma :=
      (Made.made.inj ((C130.finish_ok hn hp).symm.trans hf)).symm
    obtain ⟨vp, ep⟩ := hd.1 p rfl
    obtain ⟨vr, er⟩ := hd.2 r rfl
    have hl : vr.posW = some (vr.origin + (1 / vr.inv) • vr.bearing) := if_neg (not_lt.2 (hrange r vr (by simp [pointers]) er))
    exact ⟨rfl, rfl, _, by simp [Fac.inverseRangeBearing, ep, er, hl]; rfl, by simp [toList, Fac.inverseRangeBearing]⟩
  | bearing2D p l obs sigma =>
    obtain ⟨p, rfl⟩ := C130.some_of (p := p) (by rintro rfl; simp [pointers] at hn)
    obtain ⟨l, rfl⟩ := C130.some_of (p := l) (by rintro rfl; simp [pointers] at hn)
    simp only [construct, C130.check_release, C130.checkAt_release] at hf
    obtain rfl : f = Fac.bearing2D id p l obs sigma :=
      (Made.made.inj ((C130.finish_ok hn hp).symm.trans hf)).symm
    obtain ⟨vp, ep⟩ := hd p rfl
    obtain ⟨l1, l2⟩ := hfull l (by simp [pointers])
    have hl : 2 ≤ (VarLike.value (h' l)).length := (l1.trans (l2.trans hsz)).ge
    exact ⟨rfl, rfl, _, by simp [Fac.bearing2D, ep, Fac.head2, hl, Res.map]; rfl, by simp [Fac.bearing2D]⟩
  | rangeBearing2D p l range obs rs bs =>
    obtain ⟨p, rfl⟩ := C130.some_of (p := p) (by rintro rfl; simp [pointers] at hn)
    obtain ⟨l, rfl⟩ := C130.some_of (p := l) (by rintro rfl; simp [pointers] at hn)
    simp only [construct, C130.check_release, C130.checkAt_release] at hf
    obtain rfl : f = Fac.rangeBearing2D id p l range obs rs bs :=
      (Made.made.inj ((C130.finish_ok hn hp).symm.trans hf)).symm
    obtain ⟨vp, ep⟩ := hd p rfl
    obtain ⟨l1, l2⟩ := hfull l (by simp [pointers])
    have hl : 2 ≤ (VarLike.value (h' l)).length := (l1.trans (l2.trans hsz)).ge
    exact ⟨rfl, rfl, _, by simp [Fac.rangeBearing2D, ep, Fac.head2, hl, Res.map]; rfl, by simp [Fac.rangeBearing2D]⟩
  | pose2DPrior p prior ps as =>
    obtain ⟨p, rfl⟩ := C130.some_of (p := p) (by rintro rfl; simp [pointers] at hn)
    simp only [construct, C130.check_release] at hf
    obtain rfl : f = Fac.pose2DPrior id p prior ps as :=
      (Made.made.inj ((C130.finish_ok hn hp).symm.trans hf)).symm
    obtain ⟨v, e⟩ := hd p rfl
    exact ⟨rfl, rfl, _, by simp [Fac.pose2DPrior, e]; rfl, by simp [Fac.pose2DPrior]⟩
  | pose2DBetween a b m ps as localFrame =>
    obtain ⟨a, rfl⟩ := C130.some_of (p := a) (by rintro rfl; simp [pointers] at hn)
    obtain ⟨b, rfl⟩ := C130.some_of (p := b) (by rintro rfl; simp [pointers] at hn)
    obtain ⟨m, rfl⟩ := C130.some_of (p := m) (by rintro rfl; simp [pointers] at hn)
    simp only [construct, C130.check_release, C130.checkAt_release] at hf
    obtain rfl : f = Fac.pose2DBetween id a b m ps as localFrame :=
      (Made.made.inj ((C130.finish_ok hn hp).symm.trans hf)).symm
    obtain ⟨va, ea⟩ := hd.1 a rfl
    obtain ⟨vb, eb⟩ := hd.2 b rfl
    obtain ⟨m1, m2⟩ := hfull m (by simp [pointers])
    have hm : ¬ (VarLike.value (h' m)).length < 3 := not_lt.2 (m1.trans (m2.trans hsz)).ge
    exact ⟨rfl, rfl, _, by simp [Fac.pose2DBetween, ea, eb, hm]; rfl, by simp [Fac.pose2DBetween]⟩
  | plane p l sigma scaling =>
    obtain ⟨p, rfl⟩ := C130.some_of (p := p) (by rintro rfl; simp [pointers] at hn)
    obtain ⟨l, rfl⟩ := C130.some_of (p := l) (by rintro rfl; simp [pointers] at hn)
    simp only [construct, C130.check_release, C130.checkAt_release] at hf
    obtain rfl : f = Fac.planeFactor id p l sigma scaling := (Made.made.inj ((C130.finish_ok hn (fun s hs => by
      rcases List.mem_cons.1 hs with rfl | hs
      · exact hp _ (by simp [deviations])
      · cases scaling with
        | none => simp at hs
        | some x =>
          obtain rfl : s = x.1 := by simpa using hs
          exact hscale _ _ _ _ x.2 rfl)).symm.trans hf)).symm
    obtain ⟨v, e⟩ := hd l rfl
    obtain ⟨p1, p2⟩ := hfull p (by simp [pointers])
    have hp3 := C130.vec3_ok (p1.trans (p2.trans hsz))
    refine ⟨rfl, rfl, ?_⟩
    cases scaling with
    | none => exact ⟨_, by simp [Fac.planeFactor, e, hp3, Res.map]; rfl, by simp [Fac.planeFactor]⟩
    | some x => exact ⟨_, by simp [Fac.planeFactor, e, hp3, Res.map]; rfl, by simp [Fac.planeFactor]⟩
  | planePrior l n0 d0 ns ds =>
    obtain ⟨l, rfl⟩ := C130.some_of (p := l) (by rintro rfl; simp [pointers] at hn)
    simp only [construct, C130.check_release] at hf
    obtain rfl : f = Fac.planePrior id l n0 d0 ns ds :=
      (Made.made.inj ((C130.finish_ok hn hp).symm.trans hf)).symm
    obtain ⟨v, e⟩ := hd l rfl
    exact ⟨rfl, rfl, _, by simp [Fac.planePrior, e]; rfl, by simp [toList, Fac.planePrior]⟩
  | linearVelocity v1 v2 vel dt sigma i =>
    obtain ⟨v1, rfl⟩ := C130.some_of (p := v1) (by rintro rfl; simp [pointers] at hn)
    obtain ⟨v2, rfl⟩ := C130.some_of (p := v2) (by rintro rfl; simp [pointers] at hn)
    obtain ⟨vel, rfl⟩ := C130.some_of (p := vel) (by rintro rfl; simp [pointers] at hn)
    obtain ⟨i0, i1⟩ := hi
    simp only [construct, C130.check_release, C130.checkAt_release, if_neg (not_lt.2 i0)] at hf
    obtain rfl : f = Fac.linearVelocity id v1 v2 vel (VarLike.size (h vel)) dt sigma i.toNat :=
      (Made.made.inj ((C130.finish_ok hn hp).symm.trans hf)).symm
    obtain ⟨a1, a2⟩ := hfull v1 (by simp [pointers])
    obtain ⟨b1, b2⟩ := hfull v2 (by simp [pointers])
    obtain ⟨m1, m2⟩ := hfull vel (by simp [pointers])
    obtain ⟨s1, s2⟩ := hsz
    have hseg : ∀ r, Full (h' r) → VarLike.size (h' r) = VarLike.size (h v1) →
        ∃ x, Fac.segmentOf (VarLike.value (h' r)) i.toNat (VarLike.size (h vel)) = .ok x ∧ x.length = VarLike.size (h vel) := by
      intro r hr1 hr2
      unfold Fac.segmentOf
      rw [if_pos (by rw [hr1, hr2]; omega)]
      exact ⟨_, rfl, by rw [List.length_take, List.length_drop, hr1, hr2]; omega⟩
    obtain ⟨x2, e2, l2⟩ := hseg v2 b1 (b2.trans s1.symm)
    obtain ⟨x1, e1, l1⟩ := hseg v1 a1 a2
    obtain ⟨d, e3, l3⟩ := C130.vecSub_ok (l2.trans l1.symm)
    obtain ⟨d', e4, l4⟩ := C130.vecSub_ok (x := d) (y := (VarLike.value (h' vel)).map (· * dt))
      (by rw [l3, l2, List.length_map, m1, m2])
    refine ⟨rfl, rfl, d'.map ((1 / sigma) * ·), ?_, by rw [List.length_map, l4, l3, l2]; rfl⟩
    show ((Fac.segmentOf (VarLike.value (h' v2)) i.toNat (VarLike.size (h vel))).andThen fun x2 =>
      (Fac.segmentOf (VarLike.value (h' v1)) i.toNat (VarLike.size (h vel))).andThen fun x1 => (vecSub x2 x1).andThen fun d =>
      (vecSub d ((VarLike.value (h' vel)).map (· * dt))).map fun e => e.map ((1 / sigma) * ·)) = _
    simp only [e2, e1, e3, e4, Res.andThen, Res.map]
  | coordinateTransform rot org sc la lb sigma =>
    obtain ⟨rot, rfl⟩ := C130.some_of (p := rot) (by rintro rfl; simp [pointers] at hn)
    obtain ⟨org, rfl⟩ := C130.some_of (p := org) (by rintro rfl; simp [pointers] at hn)
    obtain ⟨sc, rfl⟩ := C130.some_of (p := sc) (by rintro rfl; simp [pointers] at hn)
    obtain ⟨la, rfl⟩ := C130.some_of (p := la) (by rintro rfl; simp [pointers] at hn)
    obtain ⟨lb, rfl⟩ := C130.some_of (p := lb) (by rintro rfl; simp [pointers] at hn)
    simp only [construct, C130.check_release, C130.checkAt_release] at hf
    obtain rfl : f = Fac.coordinateTransform id rot org sc la lb sigma :=
      (Made.made.inj ((C130.finish_ok hn hp).symm.trans hf)).symm
    obtain ⟨vr, er⟩ := hd.1 rot rfl
    obtain ⟨vo, eo⟩ := hd.2.1 org rfl
    obtain ⟨vs, es⟩ := hd.2.2.1 sc rfl
    obtain ⟨va, ea⟩ := hd.2.2.2.1 la rfl
    obtain ⟨vb, eb⟩ := hd.2.2.2.2 lb rfl
    obtain ⟨o1, o2⟩ := hfull org (by simp [pointers])
    obtain ⟨s1, s2⟩ := hfull sc (by simp [pointers])
    have a1 := (hfull la (by simp [pointers])).1
    have b1 := (hfull lb (by simp [pointers])).1
    rw [Full, ea] at a1
    rw [Full, eb] at b1
    have ho : vo.value.length = 3 := by have := o2.trans hsz.1; rw [eo] at this; exact this
    have hs : vs.value.length = 1 := by have := s2.trans hsz.2; rw [es] at this; exact this
    have h1 := C130.vec3_ok (x := va.value) a1
    have h2 := C130.vec3_ok (x := vb.value) b1
    have h3 := C130.vec3_ok ho
    have h4 : vs.value ≠ [] := by rintro h; rw [h] at hs; simp at hs
    exact ⟨rfl, rfl, _, by simp [Fac.coordinateTransform, er, eo, es, ea, eb, h1, h2, h3, h4, Res.map, Res.andThen]; rfl,
      by simp [toList, Fac.coordinateTransform]⟩

theorem C130.range_kept (x y : ℝ) : Declared (C130.heap x y) (.rangeBearing2D (some 0) (some 1) 5 0 2 3) ∧
    ∀ r, some r ∈ pointers (.rangeBearing2D (some 0) (some 1) 5 0 2 3) →
      Full (C130.heap x y r) ∧ VarLike.size (C130.heap x y r) = VarLike.size (C130.heap 0 0 r) := by
  refine ⟨fun r e => ?_, fun r hr => ?_⟩
  · obtain rfl := Option.some.inj e
    exact ⟨_, rfl⟩
  · simp [pointers] at hr
    rcases hr with rfl | rfl <;> exact ⟨rfl, rfl⟩

/-- A range-bearing factor is made where the values are zero and evaluated at all values. -/
example (x y : ℝ) : ∃ f r, construct .debug (C130.heap 0 0) 7 (.rangeBearing2D (some 0) (some 1) 5 0 2 3) = .made f ∧
    f.computeResidual (C130.heap x y) = .ok r ∧ r.length = f.residualSize := by
  obtain ⟨f, hf⟩ := (C130_accepts _ 7 _).2 (C130.range_acceptable 0 0)
  obtain ⟨-, -, r, hr, hl⟩ := C130_evaluates_partial hf (C130.range_kept x y).1 (C130.range_kept x y).2 trivial (by simp)
    fun r v hr e => by
      simp [pointers] at hr
      rcases hr with rfl | rfl <;> simp [C130.heap] at e
  exact ⟨f, r, hf, hr, hl⟩

/-- **C130, what is made**: a factor of the class, with these variables, which is what the theorems about the classes are about. -/
theorem C130_built_partial {h h' : Heap RVar} {id : Int} {a : FactorArgs} {f : Factor ℝ RVar}
    (hf : construct .debug h id a = .made f) (hd : Declared h' a)
    (hsize : ∀ r, some r ∈ pointers a → VarLike.size (h' r) = VarLike.size (h r)) (hi : IndexFits h a)
    (hscale : ∀ p l s r0 p0, a = .plane p l s (some (r0, p0)) → 0 < r0) : Built h' (classOf a) f := by
  have ha := (C130_accepts h id a).1 ⟨f, hf⟩
  rw [← C130_release h id a ha] at hf
  have hn := ha.notNull
  have hp := ha.positive
  have hsz := ha.sizes
  cases a with
  | genericPrior v prior sigma =>
    obtain ⟨v, rfl⟩ := C130.some_of (p := v) (by rintro rfl; simp [pointers] at hn)
    simp only [construct, C130.check_release, C130.checkAt_release] at hf
    obtain rfl : f = Factorama.genericPrior id v prior (1 / sigma) :=
      (Made.made.inj ((C130.finish_ok hn hp).symm.trans hf)).symm
    exact .genericPrior id v prior sigma (hsz.trans (hsize v (by simp [pointers])).symm)
  | genericBetween a b m sigma =>
    obtain ⟨a, rfl⟩ := C130.some_of (p := a) (by rintro rfl; simp [pointers] at hn)
    obtain ⟨b, rfl⟩ := C130.some_of (p := b) (by rintro rfl; simp [pointers] at hn)
    obtain ⟨m, rfl⟩ := C130.some_of (p := m) (by rintro rfl; simp [pointers] at hn)
    simp only [construct, C130.check_release, C130.checkAt_release] at hf
    obtain rfl : f = Factorama.genericBetween id a b m (VarLike.size (h m)) (1 / sigma) :=
      (Made.made.inj ((C130.finish_ok hn hp).symm.trans hf)).symm
    have ea := hsize a (by simp [pointers])
    have eb := hsize b (by simp [pointers])
    have em := hsize m (by simp [pointers])
    exact .genericBetween id a b m _ sigma (ea.trans hsz.2) (eb.trans (hsz.1.symm.trans hsz.2)) em
  | posePositionPrior p prior sigma =>
    obtain ⟨p, rfl⟩ := C130.some_of (p := p) (by rintro rfl; simp [pointers] at hn)
    simp only [construct, C130.check_release] at hf
    obtain rfl : f = Fac.posePositionPrior id p prior sigma :=
      (Made.made.inj ((C130.finish_ok hn hp).symm.trans hf)).symm
    obtain ⟨v, e⟩ := hd p rfl
    exact .posePositionPrior id p prior sigma e
  | poseOrientationPrior p prior sigma =>
    obtain ⟨p, rfl⟩ := C130.some_of (p := p) (by rintro rfl; simp [pointers] at hn)
    simp only [construct, C130.check_release] at hf
    obtain rfl : f = Fac.poseOrientationPrior id p prior sigma :=
      (Made.made.inj ((C130.finish_ok hn hp).symm.trans hf)).symm
    obtain ⟨v, e⟩ := hd p rfl
    exact .poseOrientationPrior id p prior sigma e
  | rotationPrior p prior sigma =>
    obtain ⟨p, rfl⟩ := C130.some_of (p := p) (by rintro rfl; simp [pointers] at hn)
    simp only [construct, C130.check_release] at hf
    obtain rfl : f = Fac.rotationPrior id p prior sigma :=
      (Made.made.inj ((C130.finish_ok hn hp).symm.trans hf)).symm
    obtain ⟨v, e⟩ := hd p rfl
    exact .rotationPrior id p prior sigma e
  | posePositionBetween a b m sigma localFrame =>
    obtain ⟨a, rfl⟩ := C130.some_of (p := a) (by rintro rfl; simp [pointers] at hn)
    obtain ⟨b, rfl⟩ := C130.some_of (p := b) (by rintro rfl; simp [pointers] at hn)
    obtain ⟨m, rfl⟩ := C130.some_of (p := m) (by rintro rfl; simp [pointers] at hn)
    simp only [construct, C130.check_release, C130.checkAt_release] at hf
    obtain rfl : f = Fac.posePositionBetween id a b m sigma localFrame :=
      (Made.made.inj ((C130.finish_ok hn hp).symm.trans hf)).symm
    obtain ⟨va, ea⟩ := hd.1 a rfl
    obtain ⟨vb, eb⟩ := hd.2 b rfl
    exact .posePositionBetween id a b m sigma localFrame ea eb ((hsize m (by simp [pointers])).trans hsz)
  | poseOrientationBetween a b c sigma =>
    obtain ⟨a, rfl⟩ := C130.some_of (p := a) (by rintro rfl; simp [pointers] at hn)
    obtain ⟨b, rfl⟩ := C130.some_of (p := b) (by rintro rfl; simp [pointers] at hn)
    obtain ⟨c, rfl⟩ := C130.some_of (p := c) (by rintro rfl; simp [pointers] at hn)
    simp only [construct, C130.check_release] at hf
    obtain rfl : f = Fac.poseOrientationBetween id a b c sigma :=
      (Made.made.inj ((C130.finish_ok hn hp).symm.trans hf)).symm
    obtain ⟨va, ea⟩ := hd.1 a rfl
    obtain ⟨vb, eb⟩ := hd.2.1 b rfl
    obtain ⟨vc, ec⟩ := hd.2.2 c rfl
    exact .poseOrientationBetween id a b c sigma ea eb ec
  | bearingObservation p l bearing sigma =>
    obtain ⟨p, rfl⟩ := C130.some_of (p := p) (by rintro rfl; simp [pointers] at hn)
    obtain ⟨l, rfl⟩ := C130.some_of (p := l) (by rintro rfl; simp [pointers] at hn)
    simp only [construct, C130.check_release] at hf
    obtain rfl : f = Fac.bearingObservation id p l bearing sigma :=
      (Made.made.inj ((C130.finish_ok hn hp).symm.trans hf)).symm
    obtain ⟨vp, ep⟩ := hd.1 p rfl
    obtain ⟨vl, el⟩ := hd.2 l rfl
    exact .bearingObservation id p l bearing sigma ep el
  | bearingProjection p l bearing sigma tol =>
    obtain ⟨p, rfl⟩ := C130.some_of (p := p) (by rintro rfl; simp [pointers] at hn)
    obtain ⟨l, rfl⟩ := C130.some_of (p := l) (by rintro rfl; simp [pointers] at hn)
    simp only [construct, C130.check_release] at hf
    obtain rfl : f = Fac.bearingProjection id p l bearing sigma tol :=
      (Made.made.inj ((C130.finish_ok hn hp).symm.trans hf)).symm
    obtain ⟨vp, ep⟩ := hd.1 p rfl
    obtain ⟨vl, el⟩ := hd.2 l rfl
    exact .bearingProjection id p l bearing sigma tol ep el
  | inverseRangeBearing p r bearing sigma =>
    obtain ⟨p, rfl⟩ := C130.some_of (p := p) (by rintro rfl; simp [pointers] at hn)
    obtain ⟨r, rfl⟩ := C130.some_of (p := r) (by rintro rfl; simp [pointers] at hn)
    simp only [construct, C130.check_release] at hf
    obtain rfl : f = Fac.inverseRangeBearing id p r bearing sigma :=
      (Made.made.inj ((C130.finish_ok hn hp).symm.trans hf)).symm
    obtain ⟨vp, ep⟩ := hd.1 p rfl
    obtain ⟨vr, er⟩ := hd.2 r rfl
    exact .inverseRangeBearing id p r bearing sigma ep er
  | bearing2D p l obs sigma =>
    obtain ⟨p, rfl⟩ := C130.some_of (p := p) (by rintro rfl; simp [pointers] at hn)
    obtain ⟨l, rfl⟩ := C130.some_of (p := l) (by rintro rfl; simp [pointers] at hn)
    simp only [construct, C130.check_release, C130.checkAt_release] at hf
    obtain rfl : f = Fac.bearing2D id p l obs sigma :=
      (Made.made.inj ((C130.finish_ok hn hp).symm.trans hf)).symm
    obtain ⟨vp, ep⟩ := hd p rfl
    exact .bearing2D id p l obs sigma ep ((hsize l (by simp [pointers])).trans hsz)
  | rangeBearing2D p l range obs rs bs =>
    obtain ⟨p, rfl⟩ := C130.some_of (p := p) (by rintro rfl; simp [pointers] at hn)
    obtain ⟨l, rfl⟩ := C130.some_of (p := l) (by rintro rfl; simp [pointers] at hn)
    simp only [construct, C130.check_release, C130.checkAt_release] at hf
    obtain rfl : f = Fac.rangeBearing2D id p l range obs rs bs :=
      (Made.made.inj ((C130.finish_ok hn hp).symm.trans hf)).symm
    obtain ⟨vp, ep⟩ := hd p rfl
    exact .rangeBearing2D id p l range obs rs bs ep ((hsize l (by simp [pointers])).trans hsz)
  | pose2DPrior p prior ps as =>
    obtain ⟨p, rfl⟩ := C130.some_of (p := p) (by rintro rfl; simp [pointers] at hn)
    simp only [construct, C130.check_release] at hf
    obtain rfl : f = Fac.pose2DPrior id p prior ps as :=
      (Made.made.inj ((C130.finish_ok hn hp).symm.trans hf)).symm
    obtain ⟨v, e⟩ := hd p rfl
    exact .pose2DPrior id p prior ps as e
  | pose2DBetween a b m ps as localFrame =>
    obtain ⟨a, rfl⟩ := C130.some_of (p := a) (by rintro rfl; simp [pointers] at hn)
    obtain ⟨b, rfl⟩ := C130.some_of (p := b) (by rintro rfl; simp [pointers] at hn)
    obtain ⟨m, rfl⟩ := C130.some_of (p := m) (by rintro rfl; simp [pointers] at hn)
    simp only [construct, C130.check_release, C130.checkAt_release] at hf
    obtain rfl : f = Fac.pose2DBetween id a b m ps as localFrame :=
      (Made.made.inj ((C130.finish_ok hn hp).symm.trans hf)).symm
    obtain ⟨va, ea⟩ := hd.1 a rfl
    obtain ⟨vb, eb⟩ := hd.2 b rfl
    exact .pose2DBetween id a b m ps as localFrame ea eb ((hsize m (by simp [pointers])).trans hsz)
  | plane p l sigma scaling =>
    obtain ⟨p, rfl⟩ := C130.some_of (p := p) (by rintro rfl; simp [pointers] at hn)
    obtain ⟨l, rfl⟩ := C130.some_of (p := l) (by rintro rfl; simp [pointers] at hn)
    simp only [construct, C130.check_release, C130.checkAt_release] at hf
    obtain rfl : f = Fac.planeFactor id p l sigma scaling := (Made.made.inj ((C130.finish_ok hn (fun s hs => by
      rcases List.mem_cons.1 hs with rfl | hs
      · exact hp _ (by simp [deviations])
      · cases scaling with
        | none => simp at hs
        | some x =>
          obtain rfl : s = x.1 := by simpa using hs
          exact hscale _ _ _ _ x.2 rfl)).symm.trans hf)).symm
    obtain ⟨v, e⟩ := hd l rfl
    exact .plane id p l sigma scaling ((hsize p (by simp [pointers])).trans hsz) e
  | planePrior l n0 d0 ns ds =>
    obtain ⟨l, rfl⟩ := C130.some_of (p := l) (by rintro rfl; simp [pointers] at hn)
    simp only [construct, C130.check_release] at hf
    obtain rfl : f = Fac.planePrior id l n0 d0 ns ds :=
      (Made.made.inj ((C130.finish_ok hn hp).symm.trans hf)).symm
    obtain ⟨v, e⟩ := hd l rfl
    exact .planePrior id l n0 d0 ns ds e
  | linearVelocity v1 v2 vel dt sigma i =>
    obtain ⟨v1, rfl⟩ := C130.some_of (p := v1) (by rintro rfl; simp [pointers] at hn)
    obtain ⟨v2, rfl⟩ := C130.some_of (p := v2) (by rintro rfl; simp [pointers] at hn)
    obtain ⟨vel, rfl⟩ := C130.some_of (p := vel) (by rintro rfl; simp [pointers] at hn)
    obtain ⟨i0, i1⟩ := hi
    simp only [construct, C130.check_release, C130.checkAt_release, if_neg (not_lt.2 i0)] at hf
    obtain rfl : f = Fac.linearVelocity id v1 v2 vel (VarLike.size (h vel)) dt sigma i.toNat :=
      (Made.made.inj ((C130.finish_ok hn hp).symm.trans hf)).symm
    exact .linearVelocity id v1 v2 vel _ dt sigma i.toNat (hsize vel (by simp [pointers]))
  | coordinateTransform rot org sc la lb sigma =>
    obtain ⟨rot, rfl⟩ := C130.some_of (p := rot) (by rintro rfl; simp [pointers] at hn)
    obtain ⟨org, rfl⟩ := C130.some_of (p := org) (by rintro rfl; simp [pointers] at hn)
    obtain ⟨sc, rfl⟩ := C130.some_of (p := sc) (by rintro rfl; simp [pointers] at hn)
    obtain ⟨la, rfl⟩ := C130.some_of (p := la) (by rintro rfl; simp [pointers] at hn)
    obtain ⟨lb, rfl⟩ := C130.some_of (p := lb) (by rintro rfl; simp [pointers] at hn)
    simp only [construct, C130.check_release, C130.checkAt_release] at hf
    obtain rfl : f = Fac.coordinateTransform id rot org sc la lb sigma :=
      (Made.made.inj ((C130.finish_ok hn hp).symm.trans hf)).symm
    obtain ⟨vr, er⟩ := hd.1 rot rfl
    obtain ⟨vo, eo⟩ := hd.2.1 org rfl
    obtain ⟨vs, es⟩ := hd.2.2.1 sc rfl
    obtain ⟨va, ea⟩ := hd.2.2.2.1 la rfl
    obtain ⟨vb, eb⟩ := hd.2.2.2.2 lb rfl
    have ho := (hsize org (by simp [pointers])).trans hsz.1
    have hs := (hsize sc (by simp [pointers])).trans hsz.2
    rw [eo] at ho
    rw [es] at hs
    exact .coordinateTransform id rot org sc la lb sigma er eo es ea eb ho hs

example (x y : ℝ) : ∃ f, construct .debug (C130.heap 0 0) 7 (.rangeBearing2D (some 0) (some 1) 5 0 2 3) = .made f ∧
    Built (C130.heap x y) .rangeBearing2D f := by
  obtain ⟨f, hf⟩ := (C130_accepts _ 7 _).2 (C130.range_acceptable 0 0)
  exact ⟨f, hf, C130_built_partial hf (C130.range_kept x y).1 (fun r hr => ((C130.range_kept x y).2 r hr).2) trivial (by simp)⟩

theorem C130.andThen_ne {α β : Type} {r : Res α} {k : α → Res β} (h1 : r ≠ .ub) (h2 : ∀ x, r = .ok x → k x ≠ .ub) :
    r.andThen k ≠ .ub := by
  cases r with
  | ok x => exact h2 x rfl
  | threw => simp [Res.andThen]
  | ub => exact absurd rfl h1

theorem C130.fill_ne {n : Nat} {old bs : List (Mat ℝ)} (h : bs.length = n) : Fac.fillBlocks n old bs ≠ .ub := by
  rw [Geo.fillBlocks_ok h]
  simp

theorem C130.inv_ne (w : V3) : Geo.invJacSO3 w ≠ .ub := by
  unfold Geo.invJacSO3
  simp only
  split
  · simp
  · split <;> simp

theorem C130.posW_ne {v : LandmarkVar} (h : Full (.landmark v)) : v.posW ≠ .ub := by
  have h3 : v.value.length = 3 := h
  simp [LandmarkVar.posW, h3]

/-- **C130, derivatives**. `compute_jacobians` of a factor that a debug build makes, with an output vector that is empty or has one
element per variable, returns or throws. Missing, apart from the cases of `C130_evaluates_partial`: a projected bearing to a
landmark at the camera, where it divides by zero. -/
theorem C130_jacobians_partial {h h' : Heap RVar} {id : Int} {a : FactorArgs} {f : Factor ℝ RVar} {old : List (Mat ℝ)}
    (hf : construct .debug h id a = .made f) (hd : Declared h' a)
    (hfull : ∀ r, some r ∈ pointers a → Full (h' r) ∧ VarLike.size (h' r) = VarLike.size (h r)) (hi : IndexFits h a)
    (hscale : ∀ p l s r0 p0, a = .plane p l s (some (r0, p0)) → 0 < r0)
    (hsee : ∀ p l b s t vp vl pw, a = .bearingProjection (some p) (some l) b s t → h' p = .pose vp → h' l = .landmark vl →
      vl.posW = .ok pw → vp.dcm *ᵥ (pw - vp.pos) ≠ 0)
    (hold : old = [] ∨ old.length = (pointers a).length) : f.computeJacobians h' old ≠ .ub := by
  have ha := (C130_accepts h id a).1 ⟨f, hf⟩
  rw [← C130_release h id a ha] at hf
  have hn := ha.notNull
  have hp := ha.positive
  have hsz := ha.sizes
  cases a with
  | genericPrior v prior sigma =>
    obtain ⟨v, rfl⟩ := C130.some_of (p := v) (by rintro rfl; simp [pointers] at hn)
    simp only [construct, C130.check_release, C130.checkAt_release] at hf
    obtain rfl : f = Factorama.genericPrior id v prior (1 / sigma) :=
      (Made.made.inj ((C130.finish_ok hn hp).symm.trans hf)).symm
    simp only [Factorama.genericPrior]
    split <;> simp
  | genericBetween a b m sigma =>
    obtain ⟨a, rfl⟩ := C130.some_of (p := a) (by rintro rfl; simp [pointers] at hn)
    obtain ⟨b, rfl⟩ := C130.some_of (p := b) (by rintro rfl; simp [pointers] at hn)
    obtain ⟨m, rfl⟩ := C130.some_of (p := m) (by rintro rfl; simp [pointers] at hn)
    simp only [construct, C130.check_release, C130.checkAt_release] at hf
    obtain rfl : f = Factorama.genericBetween id a b m (VarLike.size (h m)) (1 / sigma) :=
      (Made.made.inj ((C130.finish_ok hn hp).symm.trans hf)).symm
    simp [Factorama.genericBetween]
  | posePositionPrior p prior sigma =>
    obtain ⟨p, rfl⟩ := C130.some_of (p := p) (by rintro rfl; simp [pointers] at hn)
    simp only [construct, C130.check_release] at hf
    obtain rfl : f = Fac.posePositionPrior id p prior sigma :=
      (Made.made.inj ((C130.finish_ok hn hp).symm.trans hf)).symm
    obtain ⟨v, e⟩ := hd p rfl
    simp only [Fac.posePositionPrior, e]
    exact C130.fill_ne rfl
  | poseOrientationPrior p prior sigma =>
    obtain ⟨p, rfl⟩ := C130.some_of (p := p) (by rintro rfl; simp [pointers] at hn)
    simp only [construct, C130.check_release] at hf
    obtain rfl : f = Fac.poseOrientationPrior id p prior sigma :=
      (Made.made.inj ((C130.finish_ok hn hp).symm.trans hf)).symm
    obtain ⟨v, e⟩ := hd p rfl
    simp only [Fac.poseOrientationPrior, e]
    split
    · exact C130.fill_ne rfl
    · exact C130.andThen_ne (C130.inv_ne _) fun _ _ => C130.fill_ne rfl
  | rotationPrior p prior sigma =>
    obtain ⟨p, rfl⟩ := C130.some_of (p := p) (by rintro rfl; simp [pointers] at hn)
    simp only [construct, C130.check_release] at hf
    obtain rfl : f = Fac.rotationPrior id p prior sigma :=
      (Made.made.inj ((C130.finish_ok hn hp).symm.trans hf)).symm
    obtain ⟨v, e⟩ := hd p rfl
    simp only [Fac.rotationPrior, e]
    split
    · exact C130.fill_ne rfl
    · exact C130.andThen_ne (C130.inv_ne _) fun _ _ => C130.fill_ne rfl
  | posePositionBetween a b m sigma localFrame =>
    obtain ⟨a, rfl⟩ := C130.some_of (p := a) (by rintro rfl; simp [pointers] at hn)
    obtain ⟨b, rfl⟩ := C130.some_of (p := b) (by rintro rfl; simp [pointers] at hn)
    obtain ⟨m, rfl⟩ := C130.some_of (p := m) (by rintro rfl; simp [pointers] at hn)
    simp only [construct, C130.check_release, C130.checkAt_release] at hf
    obtain rfl : f = Fac.posePositionBetween id a b m sigma localFrame :=
      (Made.made.inj ((C130.finish_ok hn hp).symm.trans hf)).symm
    obtain ⟨va, ea⟩ := hd.1 a rfl
    obtain ⟨vb, eb⟩ := hd.2 b rfl
    simp only [Fac.posePositionBetween, ea, eb]
    exact C130.fill_ne rfl
  | poseOrientationBetween a b c sigma =>
    obtain ⟨a, rfl⟩ := C130.some_of (p := a) (by rintro rfl; simp [pointers] at hn)
    obtain ⟨b, rfl⟩ := C130.some_of (p := b) (by rintro rfl; simp [pointers] at hn)
    obtain ⟨c, rfl⟩ := C130.some_of (p := c) (by rintro rfl; simp [pointers] at hn)
    simp only [construct, C130.check_release] at hf
    obtain rfl : f = Fac.poseOrientationBetween id a b c sigma :=
      (Made.made.inj ((C130.finish_ok hn hp).symm.trans hf)).symm
    obtain ⟨va, ea⟩ := hd.1 a rfl
    obtain ⟨vb, eb⟩ := hd.2.1 b rfl
    obtain ⟨vc, ec⟩ := hd.2.2 c rfl
    simp only [Fac.poseOrientationBetween, ea, eb, ec]
    exact C130.andThen_ne (C130.inv_ne _) fun _ _ => C130.fill_ne rfl
  | bearingObservation p l bearing sigma =>
    obtain ⟨p, rfl⟩ := C130.some_of (p := p) (by rintro rfl; simp [pointers] at hn)
    obtain ⟨l, rfl⟩ := C130.some_of (p := l) (by rintro rfl; simp [pointers] at hn)
    simp only [construct, C130.check_release] at hf
    obtain rfl : f = Fac.bearingObservation id p l bearing sigma :=
      (Made.made.inj ((C130.finish_ok hn hp).symm.trans hf)).symm
    obtain ⟨vp, ep⟩ := hd.1 p rfl
    obtain ⟨vl, el⟩ := hd.2 l rfl
    have hl := (hfull l (by simp [pointers])).1
    rw [el] at hl
    simp only [Fac.bearingObservation, ep, el]
    refine C130.andThen_ne (C130.posW_ne hl) fun pw _ => ?_
    split
    · simp
    · exact C130.fill_ne rfl
  | bearingProjection p l bearing sigma tol =>
    obtain ⟨p, rfl⟩ := C130.some_of (p := p) (by rintro rfl; simp [pointers] at hn)
    obtain ⟨l, rfl⟩ := C130.some_of (p := l) (by rintro rfl; simp [pointers] at hn)
    simp only [construct, C130.check_release] at hf
    obtain rfl : f = Fac.bearingProjection id p l bearing sigma tol :=
      (Made.made.inj ((C130.finish_ok hn hp).symm.trans hf)).symm
    obtain ⟨vp, ep⟩ := hd.1 p rfl
    obtain ⟨vl, el⟩ := hd.2 l rfl
    have hl := (hfull l (by simp [pointers])).1
    rw [el] at hl
    simp only [Fac.bearingProjection, ep, el]
    refine C130.andThen_ne (C130.posW_ne hl) fun pw hw => ?_
    rw [if_neg fun h0 => hsee p l _ _ _ vp vl pw rfl ep el hw (Geo.vnorm_eq_zero.1 h0)]
    split
    · exact C130.fill_ne rfl
    · exact C130.fill_ne rfl
  | inverseRangeBearing p r bearing sigma =>
    obtain ⟨p, rfl⟩ := C130.some_of (p := p) (by rintro rfl; simp [pointers] at hn)
    obtain ⟨r, rfl⟩ := C130.some_of (p := r) (by rintro rfl; simp [pointers] at hn)
    simp only [construct, C130.check_release] at hf
    obtain rfl : f = Fac.inverseRangeBearing id p r bearing sigma :=
      (Made.made.inj ((C130.finish_ok hn hp).symm.trans hf)).symm
    obtain ⟨vp, ep⟩ := hd.1 p rfl
    obtain ⟨vr, er⟩ := hd.2 r rfl
    simp only [Fac.inverseRangeBearing, ep, er]
    cases vr.posW with
    | none => simp
    | some pw =>
      simp only
      split
      · simp
      · exact C130.fill_ne rfl
  | bearing2D p l obs sigma =>
    obtain ⟨p, rfl⟩ := C130.some_of (p := p) (by rintro rfl; simp [pointers] at hn)
    obtain ⟨l, rfl⟩ := C130.some_of (p := l) (by rintro rfl; simp [pointers] at hn)
    simp only [construct, C130.check_release, C130.checkAt_release] at hf
    obtain rfl : f = Fac.bearing2D id p l obs sigma :=
      (Made.made.inj ((C130.finish_ok hn hp).symm.trans hf)).symm
    obtain ⟨vp, ep⟩ := hd p rfl
    obtain ⟨hl, hs⟩ := hfull l (by simp [pointers])
    have h2 : (VarLike.value (h' l)).length = 2 := hl.trans (hs.trans hsz)
    simp only [Fac.bearing2D, ep]
    refine C130.andThen_ne (by simp [Fac.head2, h2]) fun _ _ => ?_
    split
    · simp
    · exact C130.fill_ne rfl
  | rangeBearing2D p l range obs rs bs =>
    obtain ⟨p, rfl⟩ := C130.some_of (p := p) (by rintro rfl; simp [pointers] at hn)
    obtain ⟨l, rfl⟩ := C130.some_of (p := l) (by rintro rfl; simp [pointers] at hn)
    simp only [construct, C130.check_release, C130.checkAt_release] at hf
    obtain rfl : f = Fac.rangeBearing2D id p l range obs rs bs :=
      (Made.made.inj ((C130.finish_ok hn hp).symm.trans hf)).symm
    obtain ⟨vp, ep⟩ := hd p rfl
    obtain ⟨hl, hs⟩ := hfull l (by simp [pointers])
    have h2 : (VarLike.value (h' l)).length = 2 := hl.trans (hs.trans hsz)
    simp only [Fac.rangeBearing2D, ep]
    refine C130.andThen_ne (by simp [Fac.head2, h2]) fun _ _ => ?_
    split
    · simp
    · exact C130.fill_ne rfl
  | pose2DPrior p prior ps as =>
    obtain ⟨p, rfl⟩ := C130.some_of (p := p) (by rintro rfl; simp [pointers] at hn)
    simp only [construct, C130.check_release] at hf
    obtain rfl : f = Fac.pose2DPrior id p prior ps as :=
      (Made.made.inj ((C130.finish_ok hn hp).symm.trans hf)).symm
    obtain ⟨v, e⟩ := hd p rfl
    simp only [Fac.pose2DPrior, e]
    exact C130.fill_ne rfl
  | pose2DBetween a b m ps as localFrame =>
    obtain ⟨a, rfl⟩ := C130.some_of (p := a) (by rintro rfl; simp [pointers] at hn)
    obtain ⟨b, rfl⟩ := C130.some_of (p := b) (by rintro rfl; simp [pointers] at hn)
    obtain ⟨m, rfl⟩ := C130.some_of (p := m) (by rintro rfl; simp [pointers] at hn)
    simp only [construct, C130.check_release, C130.checkAt_release] at hf
    obtain rfl : f = Fac.pose2DBetween id a b m ps as localFrame :=
      (Made.made.inj ((C130.finish_ok hn hp).symm.trans hf)).symm
    obtain ⟨va, ea⟩ := hd.1 a rfl
    obtain ⟨vb, eb⟩ := hd.2 b rfl
    simp only [Fac.pose2DBetween, ea, eb]
    exact C130.fill_ne rfl
  | plane p l sigma scaling =>
    obtain ⟨p, rfl⟩ := C130.some_of (p := p) (by rintro rfl; simp [pointers] at hn)
    obtain ⟨l, rfl⟩ := C130.some_of (p := l) (by rintro rfl; simp [pointers] at hn)
    simp only [construct, C130.check_release, C130.checkAt_release] at hf
    obtain rfl : f = Fac.planeFactor id p l sigma scaling := (Made.made.inj ((C130.finish_ok hn (fun s hs => by
      rcases List.mem_cons.1 hs with rfl | hs
      · exact hp _ (by simp [deviations])
      · cases scaling with
        | none => simp at hs
        | some x =>
          obtain rfl : s = x.1 := by simpa using hs
          exact hscale _ _ _ _ x.2 rfl)).symm.trans hf)).symm
    obtain ⟨v, e⟩ := hd l rfl
    obtain ⟨hl, hs⟩ := hfull p (by simp [pointers])
    have h3 : (VarLike.value (h' p)).length = 3 := hl.trans (hs.trans hsz)
    simp only [Fac.planeFactor, e]
    refine C130.andThen_ne (by simp [Fac.vec3, h3]) fun _ _ => ?_
    split
    · exact C130.fill_ne rfl
    · exact C130.fill_ne rfl
  | planePrior l n0 d0 ns ds =>
    obtain ⟨l, rfl⟩ := C130.some_of (p := l) (by rintro rfl; simp [pointers] at hn)
    simp only [construct, C130.check_release] at hf
    obtain rfl : f = Fac.planePrior id l n0 d0 ns ds :=
      (Made.made.inj ((C130.finish_ok hn hp).symm.trans hf)).symm
    obtain ⟨v, e⟩ := hd l rfl
    simp only [Fac.planePrior, e]
    exact C130.fill_ne rfl
  | linearVelocity v1 v2 vel dt sigma i =>
    obtain ⟨v1, rfl⟩ := C130.some_of (p := v1) (by rintro rfl; simp [pointers] at hn)
    obtain ⟨v2, rfl⟩ := C130.some_of (p := v2) (by rintro rfl; simp [pointers] at hn)
    obtain ⟨vel, rfl⟩ := C130.some_of (p := vel) (by rintro rfl; simp [pointers] at hn)
    obtain ⟨i0, i1⟩ := hi
    simp only [construct, C130.check_release, C130.checkAt_release, if_neg (not_lt.2 i0)] at hf
    obtain rfl : f = Fac.linearVelocity id v1 v2 vel (VarLike.size (h vel)) dt sigma i.toNat :=
      (Made.made.inj ((C130.finish_ok hn hp).symm.trans hf)).symm
    have s1 := (hfull v1 (by simp [pointers])).2
    have s2 := (hfull v2 (by simp [pointers])).2
    have e12 : VarLike.size (h v1) = VarLike.size (h v2) := hsz.1
    have seg : ∀ (r : VRef) (c : ℝ), VarLike.size (h' r) = VarLike.size (h v1) →
        (if VarLike.isConst (h' r) then Res.ok Mat.empty else Fac.offsetDiag (VarLike.size (h vel)) (VarLike.size (h' r)) i.toNat c) ≠ .ub := by
      intro r c e
      split
      · simp
      · rw [Fac.offsetDiag, if_pos (by omega)]
        simp
    simp only [Fac.linearVelocity]
    exact C130.andThen_ne (seg v1 _ s1) fun _ _ => C130.andThen_ne (seg v2 _ (s2.trans e12.symm)) fun _ _ => C130.fill_ne rfl
  | coordinateTransform rot org sc la lb sigma =>
    obtain ⟨rot, rfl⟩ := C130.some_of (p := rot) (by rintro rfl; simp [pointers] at hn)
    obtain ⟨org, rfl⟩ := C130.some_of (p := org) (by rintro rfl; simp [pointers] at hn)
    obtain ⟨sc, rfl⟩ := C130.some_of (p := sc) (by rintro rfl; simp [pointers] at hn)
    obtain ⟨la, rfl⟩ := C130.some_of (p := la) (by rintro rfl; simp [pointers] at hn)
    obtain ⟨lb, rfl⟩ := C130.some_of (p := lb) (by rintro rfl; simp [pointers] at hn)
    simp only [construct, C130.check_release, C130.checkAt_release] at hf
    obtain rfl : f = Fac.coordinateTransform id rot org sc la lb sigma :=
      (Made.made.inj ((C130.finish_ok hn hp).symm.trans hf)).symm
    obtain ⟨vr, er⟩ := hd.1 rot rfl
    obtain ⟨vo, eo⟩ := hd.2.1 org rfl
    obtain ⟨vs, es⟩ := hd.2.2.1 sc rfl
    obtain ⟨va, ea⟩ := hd.2.2.2.1 la rfl
    obtain ⟨vb, eb⟩ := hd.2.2.2.2 lb rfl
    have hs := (hfull sc (by simp [pointers])).2.trans hsz.2
    have hb := (hfull lb (by simp [pointers])).1
    rw [es] at hs
    rw [eb] at hb
    have hs1 : vs.value.length = 1 := hs
    have hb3 : vb.value.length = 3 := hb
    have hbuf : (Fac.coordBuffer old).length = 5 := by
      rcases hold with rfl | e
      · rfl
      · have e5 : old.length = 5 := e
        simp [Fac.coordBuffer, e5]
    simp only [Fac.coordinateTransform, er, eo, es, ea, eb, if_neg (by omega : ¬ vs.value.length = 0)]
    refine C130.andThen_ne (by simp [Fac.vec3, hb3]) fun _ _ => ?_
    simp [Fac.writeBlocks, hbuf]

example (x y : ℝ) : ∃ f, construct .debug (C130.heap 0 0) 7 (.rangeBearing2D (some 0) (some 1) 5 0 2 3) = .made f ∧
    f.computeJacobians (C130.heap x y) [] ≠ .ub := by
  obtain ⟨f, hf⟩ := (C130_accepts _ 7 _).2 (C130.range_acceptable 0 0)
  exact ⟨f, hf, C130_jacobians_partial hf (C130.range_kept x y).1 (C130.range_kept x y).2 trivial (by simp) (by simp) (.inl rfl)⟩

/-- **C130 is false** of `LinearVelocityFactor` for a second reason: an `initial_index` beyond the variables is accepted. The
residual then reads outside of them. -/
theorem C130_index_false : ∃ (h : Heap RVar) (f : Factor ℝ RVar),
    construct .debug h 9 (.linearVelocity (some 0) (some 1) (some 2) 1 1 1) = .made f ∧ (∀ r, Full (h r)) ∧
      f.computeResidual h = .ub := by
  refine ⟨fun r => .generic ⟨r, false, [0, 0]⟩, Fac.linearVelocity 9 0 1 2 2 1 1 1, ?_, fun _ => rfl, ?_⟩
  · simp only [construct, C130.check_made, C130.checkAt_made]
    refine ⟨by simp, by simp, by simp, rfl, by simp, le_refl 2, one_pos, ?_⟩
    rw [if_neg (by norm_num), C130.finish_ok (by simp) (by simp)]
    rfl
  · simp [Fac.linearVelocity, Fac.segmentOf, VarLike.value, Res.andThen]

/-- **C130 is false** of `PlaneFactor`: 0 is accepted as the distance by which the residual is scaled. -/
theorem C130_scaling_false : ∃ (h : Heap RVar) (f : Factor ℝ RVar),
    construct .debug h 9 (.plane (some 0) (some 1) 1 (some (0, 0))) = .made f ∧ (∀ r, Full (h r)) ∧ f.computeResidual h = .ub := by
  refine ⟨fun r => if r = 1 then .plane ⟨1, false, ![0, 0, 1], 0⟩ else .landmark ⟨0, false, [0, 0, 0]⟩,
    broken 9 1 [some 0, some 1], ?_, fun r => ?_, rfl⟩
  · simp only [construct, C130.check_made, C130.checkAt_made]
    exact ⟨by simp, by simp, by simp, rfl, one_pos, by simp [finish]⟩
  · by_cases hr : r = 1
    · simp [hr, Full, VarLike.value, VarLike.size, PlaneVar.value, toList]
    · simp [hr, Full, VarLike.value, VarLike.size]

/-- **C130 is false** of release builds: null pointers are accepted, and the evaluation dereferences them. -/
theorem C130_release_false (h : Heap RVar) (id : Int) (prior : V3) (sigma : ℝ) :
    ∃ f, construct .release h id (.posePositionPrior none prior sigma) = .made f ∧ ∀ h', f.computeResidual h' = .ub := by
  refine ⟨broken id 3 [none], ?_, fun _ => rfl⟩
  simp only [construct, C130.check_release]
  simp [finish]

/-- A velocity factor made from Python, which has no argument `initial_index`, has the index 0, and that fits. -/
theorem C130.index_zero {h : Heap RVar} {v1 v2 vel : Option VRef} {dt s : ℝ} (ha : Acceptable h (.linearVelocity v1 v2 vel dt s 0)) :
    IndexFits h (.linearVelocity v1 v2 vel dt s 0) := by
  have hn := ha.notNull
  have hs := ha.sizes
  obtain ⟨v1, rfl⟩ := C130.some_of (p := v1) (by rintro rfl; simp [pointers] at hn)
  obtain ⟨v2, rfl⟩ := C130.some_of (p := v2) (by rintro rfl; simp [pointers] at hn)
  obtain ⟨vel, rfl⟩ := C130.some_of (p := vel) (by rintro rfl; simp [pointers] at hn)
  refine ⟨le_refl _, ?_⟩
  have := hs.2
  push_cast
  omega

/-- A velocity factor is made where the values are zero and evaluated at all values. -/
example (x y : ℝ) : ∃ f r, construct .debug (C130.heap 0 0) 7 (.linearVelocity (some 1) (some 2) (some 3) 1 2 0) = .made f ∧
    f.computeResidual (C130.heap x y) = .ok r ∧ r.length = f.residualSize := by
  obtain ⟨f, hf⟩ := (C130_accepts _ 7 _).2 (C130.velocity_acceptable 0 0)
  have hsize : ∀ r, some r ∈ pointers (.linearVelocity (some 1) (some 2) (some 3) 1 2 0) →
      Full (C130.heap x y r) ∧ VarLike.size (C130.heap x y r) = VarLike.size (C130.heap 0 0 r) := by
    intro r hr
    simp [pointers] at hr
    rcases hr with rfl | rfl | rfl <;> exact ⟨rfl, rfl⟩
  obtain ⟨-, -, r, hr, hl⟩ := C130_evaluates_partial hf trivial hsize (C130.index_zero (C130.velocity_acceptable 0 0)) (by simp)
    fun r v hr e => by
      simp [pointers] at hr
      rcases hr with rfl | rfl | rfl <;> simp [C130.heap] at e
  exact ⟨f, r, hf, hr, hl⟩

end Factorama.Props
