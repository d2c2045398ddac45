import Verif.Lemmas.Shift
import Verif.Props.Undetermined

/-!
# Property C78: problems without an absolute measurement
-/

namespace Factorama.Props
open Spec Graph Opt Geo Matrix
variable {Fact : Type} {L : LinAlg ℝ Fact}

theorem C78.sub {x1 x1' x2 x2' : List ℝ} {e : Nat → ℝ} (l1 : x1'.length = x1.length) (l2 : x2'.length = x2.length)
    (s1 : ∀ k, k < x1.length → x1'.getD k 0 = x1.getD k 0 + e k)
    (s2 : ∀ k, k < x2.length → x2'.getD k 0 = x2.getD k 0 + e k) : vecSub x2' x1' = vecSub x2 x1 := by
  unfold vecSub
  rw [l1, l2]
  split
  · congr 1
    apply List.ext_getElem (by simp [l1, l2])
    intro k h1 h2
    simp only [List.length_zipWith] at h1 h2
    have a1 := s1 k (by omega)
    have a2 := s2 k (by omega)
    simp only [List.getD_eq_getElem?_getD] at a1 a2
    rw [List.getElem?_eq_getElem (by omega), List.getElem?_eq_getElem (by omega)] at a1 a2
    simp only [Option.getD_some] at a1 a2
    simp only [List.getElem_zipWith, a1, a2]
    ring
  · rfl

theorem C78.segment {x x' : List ℝ} {e : Nat → ℝ} (l : x'.length = x.length)
    (s : ∀ k, k < x.length → x'.getD k 0 = x.getD k 0 + e k) (i n : Nat) :
    (Fac.segmentOf x' i n = .ub ∧ Fac.segmentOf x i n = .ub) ∨ ∃ y y', Fac.segmentOf x' i n = .ok y' ∧ Fac.segmentOf x i n = .ok y ∧
      y'.length = y.length ∧ ∀ k, k < y.length → y'.getD k 0 = y.getD k 0 + e (i + k) := by
  unfold Fac.segmentOf
  by_cases h : i + n ≤ x.length
  · refine .inr ⟨_, _, if_pos (by omega), if_pos h, by simp [l], fun k hk => ?_⟩
    simp only [List.length_take, List.length_drop] at hk
    have := s (i + k) (by omega)
    simp only [List.getD_eq_getElem?_getD] at this ⊢
    rw [List.getElem?_take_of_lt (by omega), List.getElem?_take_of_lt (by omega), List.getElem?_drop, List.getElem?_drop, this]
  · exact .inl ⟨if_neg (by omega), if_neg h⟩

theorem C78.kind {point : VRef → Bool} {h : Heap RVar} {r r' : VRef} (hk : SameKind point h r r') (a : V3) :
    shiftBy a (point r) (h r) = shiftBy a (point r') (h r') := by
  cases hk with
  | poses e e' | landmarks e e' | planarPoses e e' => rw [e, e']; rfl
  | points e e' hl p p' =>
    rw [e, e', p, p']
    simp only [shiftBy, if_true]
    rw [hl]

theorem C78.head2 {a : V3} {v : GenVar ℝ} {v' : RVar} (h : Shifted a true (.generic v) v') :
    ∃ x, Fac.head2 (VarLike.value (RVar.generic v)) = .ok x ∧ Fac.head2 (VarLike.value v') = .ok (x + ![a 0, a 1]) := by
  have key : ∀ {n : Nat} (x : Fin (n + 2) → ℝ), Fac.head2 (toList x) = .ok ![x 0, x 1] := fun x => by
    rw [Fac.head2, if_pos (by simp [length_toList])]
    congr 1; funext i; fin_cases i <;> simp [toList]
  cases h with
  | still hn => simp [HasPlace] at hn
  | point2 x h1 h2 =>
    refine ⟨![x 0, x 1], by simp only [VarLike.value, h1, key], ?_⟩
    simp only [VarLike.value, h2, key]
    congr 1; funext i; fin_cases i <;> simp
  | point3 x h1 h2 =>
    refine ⟨![x 0, x 1], by simp only [VarLike.value, h1, key], ?_⟩
    simp only [VarLike.value, h2, key]
    congr 1; funext i; fin_cases i <;> simp

/-- **C78**, one factor. A factor that does not measure where things are does not notice that everything with a place in the
world was shifted. -/
theorem C78_shift {a : V3} {point : VRef → Bool} {h h' : Heap RVar} {f : Factor ℝ RVar} (hf : Floating point h f)
    (hs : ∀ r, some r ∈ f.variables → Shifted a (point r) (h r) (h' r)) : f.computeResidual h' = f.computeResidual h := by
  cases hf with
  | genericPrior id r prior w hp =>
    have h1 := hs r (by simp [Factorama.genericPrior])
    simp only [Factorama.genericPrior, shifted_still h1 hp]
  | genericBetween id x y m n w hk hp =>
    have h1 := hs x (by simp [Factorama.genericBetween])
    have h2 := hs y (by simp [Factorama.genericBetween])
    have h3 := hs m (by simp [Factorama.genericBetween])
    obtain ⟨l1, s1⟩ := shifted_value h1
    obtain ⟨l2, s2⟩ := shifted_value h2
    rw [← C78.kind hk] at s2
    simp only [Factorama.genericBetween, shifted_still h3 hp]
    rw [C78.sub l1 l2 s1 s2]
  | poseOrientationPrior id p prior sigma =>
    have h1 := hs p (by simp [Fac.poseOrientationPrior])
    simp only [Fac.poseOrientationPrior]
    generalize h p = v, h' p = v', point p = b at h1
    cases v <;> cases h1 <;> first | rfl | simp_all
  | rotationPrior id r prior sigma =>
    have h1 := hs r (by simp [Fac.rotationPrior])
    simp only [Fac.rotationPrior]
    generalize h r = v, h' r = v', point r = b at h1
    cases v <;> cases h1 <;> rfl
  | posePositionBetween id x y m sigma lf hp =>
    have h1 := hs x (by simp [Fac.posePositionBetween])
    have h2 := hs y (by simp [Fac.posePositionBetween])
    have h3 := hs m (by simp [Fac.posePositionBetween])
    simp only [Fac.posePositionBetween]
    rw [shifted_still h3 hp]
    generalize h x = vx, h' x = vx', point x = bx at h1
    generalize h y = vy, h' y = vy', point y = by' at h2
    cases vx <;> cases h1 <;> try rfl
    · cases vy <;> cases h2 <;> first | rfl | skip
      · rename_i e1 e2 _ _ _ _ e3 _ _ _
        dsimp only
        rw [e1, e2, e3, add_sub_add_right_eq_sub]
      · rename_i hn
        exact absurd trivial hn
    · rename_i hn
      exact absurd trivial hn
  | poseOrientationBetween id p1 p2 c sigma =>
    have h1 := hs p1 (by simp [Fac.poseOrientationBetween])
    have h2 := hs p2 (by simp [Fac.poseOrientationBetween])
    have h3 := hs c (by simp [Fac.poseOrientationBetween])
    simp only [Fac.poseOrientationBetween]
    generalize h p1 = vx, h' p1 = vx', point p1 = bx at h1
    generalize h p2 = vy, h' p2 = vy', point p2 = by' at h2
    generalize h c = vc, h' c = vc', point c = bc at h3
    cases vx <;> cases h1 <;> try rfl
    · cases vy <;> cases h2 <;> first | rfl | skip
      · rename_i e1 _ _ _ _ _ e2 _ _
        cases vc <;> cases h3 <;> first | rfl | skip
        dsimp only
        rw [e1, e2]
      · rename_i hn
        exact absurd trivial hn
    · rename_i hn
      exact absurd trivial hn
  | bearingObservation id p l bearing sigma =>
    have h1 := hs p (by simp [Fac.bearingObservation])
    have h2 := hs l (by simp [Fac.bearingObservation])
    simp only [Fac.bearingObservation]
    generalize h p = vx, h' p = vx', point p = bx at h1
    generalize h l = vy, h' l = vy', point l = by' at h2
    cases vx <;> cases h1 <;> try rfl
    · cases vy <;> cases h2 <;> first | rfl | skip
      · rename_i e1 e2 _ _ _ _ y e3 e4
        dsimp only
        rw [C77.posW e3, C77.posW e4, e1, e2]
        simp only [Res.map, add_sub_add_right_eq_sub]
      · rename_i hn
        exact absurd trivial hn
    · rename_i hn
      exact absurd trivial hn
  | bearingProjection id p l bearing sigma tol =>
    have h1 := hs p (by simp [Fac.bearingProjection])
    have h2 := hs l (by simp [Fac.bearingProjection])
    simp only [Fac.bearingProjection]
    generalize h p = vx, h' p = vx', point p = bx at h1
    generalize h l = vy, h' l = vy', point l = by' at h2
    cases vx <;> cases h1 <;> try rfl
    · cases vy <;> cases h2 <;> first | rfl | skip
      · rename_i e1 e2 _ _ _ _ y e3 e4
        dsimp only
        rw [C77.posW e3, C77.posW e4, e1, e2]
        simp only [Res.map, add_sub_add_right_eq_sub]
      · rename_i hn
        exact absurd trivial hn
    · rename_i hn
      exact absurd trivial hn
  | bearing2D id p l obs sigma hg hl =>
    have h1 := hs p (by simp [Fac.bearing2D])
    have h2 := hs l (by simp [Fac.bearing2D])
    simp only [Fac.bearing2D]
    rw [hl, hg] at h2
    rw [hg]
    generalize h p = vx, h' p = vx', point p = bx at h1
    cases vx <;> cases h1 <;> try rfl
    · rename_i e1 e2
      dsimp only
      obtain ⟨x, e3, e4⟩ := C78.head2 h2
      rw [e3, e4]
      simp only [Res.map, Fac.deltaLocal, Pose2DVar.dcm, e1, e2, add_sub_add_right_eq_sub]
    · rename_i hn
      exact absurd trivial hn
  | rangeBearing2D id p l range obs rs bs hg hl =>
    have h1 := hs p (by simp [Fac.rangeBearing2D])
    have h2 := hs l (by simp [Fac.rangeBearing2D])
    simp only [Fac.rangeBearing2D]
    rw [hl, hg] at h2
    rw [hg]
    generalize h p = vx, h' p = vx', point p = bx at h1
    cases vx <;> cases h1 <;> try rfl
    · rename_i e1 e2
      dsimp only
      obtain ⟨x, e3, e4⟩ := C78.head2 h2
      rw [e3, e4]
      simp only [Res.map, Fac.deltaLocal, Pose2DVar.dcm, e1, e2, add_sub_add_right_eq_sub]
    · rename_i hn
      exact absurd trivial hn
  | pose2DBetween id x y m ps as lf hp =>
    have h1 := hs x (by simp [Fac.pose2DBetween])
    have h2 := hs y (by simp [Fac.pose2DBetween])
    have h3 := hs m (by simp [Fac.pose2DBetween])
    simp only [Fac.pose2DBetween]
    rw [shifted_still h3 hp]
    generalize h x = vx, h' x = vx', point x = bx at h1
    generalize h y = vy, h' y = vy', point y = by' at h2
    cases vx <;> cases h1 <;> try rfl
    · cases vy <;> cases h2 <;> first | rfl | skip
      · rename_i e1 e2 _ _ e3 e4
        simp only [Pose2DVar.dcm, e1, e2, e3, e4, add_sub_add_right_eq_sub]
      · rename_i hn
        exact absurd trivial hn
    · rename_i hn
      exact absurd trivial hn
  | plane id p l sigma hp =>
    have h1 := hs p (by simp [Fac.planeFactor])
    have h2 := hs l (by simp [Fac.planeFactor])
    simp only [Fac.planeFactor]
    rw [hp] at h1 ⊢
    generalize h' p = vx', point p = bx at h1
    generalize h l = vy, h' l = vy', point l = by' at h2
    cases h1 with
    | still hn => exact absurd trivial hn
    | landmark _ x e1 e2 =>
      cases vy <;> cases h2 <;> first | rfl | skip
      · rename_i e3 e4
        dsimp only [VarLike.value]
        rw [e1, e2, C77.vec3, C77.vec3]
        simp only [Res.map, PlaneVar.distanceFromPoint, e3, e4]
        rw [dotProduct_add]
        congr 3
        ring
      · rename_i hn
        exact absurd trivial hn
  | linearVelocity id v1 v2 vel n dt sigma i hk hp =>
    have h1 := hs v1 (by simp [Fac.linearVelocity])
    have h2 := hs v2 (by simp [Fac.linearVelocity])
    have h3 := hs vel (by simp [Fac.linearVelocity])
    obtain ⟨l1, s1⟩ := shifted_value h1
    obtain ⟨l2, s2⟩ := shifted_value h2
    rw [← C78.kind hk] at s2
    simp only [Fac.linearVelocity, shifted_still h3 hp]
    rcases C78.segment l2 s2 i n with ⟨e1, e2⟩ | ⟨y, y', e1, e2, e3, e4⟩
    · rw [e1, e2]; rfl
    · rw [e1, e2]
      simp only [Res.andThen]
      rcases C78.segment l1 s1 i n with ⟨e5, e6⟩ | ⟨z, z', e5, e6, e7, e8⟩
      · rw [e5, e6]
      · rw [e5, e6]
        simp only [Res.andThen]
        rw [C78.sub e7 e3 e8 e4]

theorem C78.moves {point : Bool} {v : RVar} (hr : Reachable v ∨ ∃ w, v = .rotation w) (hv : HasPlace point v)
    (hp : ∀ g, v = .generic g → point = true → g.value.length = 2 ∨ g.value.length = 3) :
    ∃ a : V3, ∃ x ∈ shiftBy a point v, x ≠ 0 := by
  cases v with
  | pose v => exact ⟨![1, 1, 1], 1, by simp [shiftBy], one_ne_zero⟩
  | landmark v => exact ⟨![1, 1, 1], 1, by simp [shiftBy], one_ne_zero⟩
  | pose2d v => exact ⟨![1, 1, 1], 1, by simp [shiftBy], one_ne_zero⟩
  | plane v =>
    obtain h | ⟨_, h⟩ := hr
    · cases h with | plane h => exact ⟨v.normal, -1, by simp [shiftBy, plane_unit h], by norm_num⟩
    · simp at h
  | generic v =>
    have hv : point = true := hv
    refine ⟨![1, 1, 1], 1, ?_, one_ne_zero⟩
    rw [shiftBy, if_pos hv, List.mem_ofFn]
    have := hp v rfl hv
    exact ⟨⟨0, by omega⟩, by simp [toList]⟩
  | rotation v => cases hv
  | invRange v => cases hv

/-- The direction that shifts everything by `a`. -/
noncomputable def shiftAll (h : Heap RVar) (vars : List VRef) (point : VRef → Bool) (a : V3) : List ℝ :=
  allFree h vars fun r => shiftBy a (point r) (h r)

theorem shiftAll_length (h : Heap RVar) (vars : List VRef) (point : VRef → Bool) (a : V3) :
    (shiftAll h vars point a).length = freeTotal h vars := allFree_length h fun _ _ _ => shiftBy_length _ _ _

/-- The residual does not notice it. -/
theorem C78.kernel {h : Heap RVar} {vars : List VRef} {facs : List (Factor ℝ RVar)} (hc : Closed h vars facs)
    (hs : SmoothGraph h vars facs) (point : VRef → Bool)
    (hpoint : ∀ r g, h r = .generic g → point r = true → g.value.length = 2 ∨ g.value.length = 3)
    (hf : ∀ f ∈ facs, Floating point h f)
    (hfree : ∀ f ∈ facs, ∀ r, some r ∈ f.variables → HasPlace (point r) (h r) → VarLike.isConst (h r) = false)
    {r : List ℝ} {J : SpMat ℝ} (hlin : Linearised h vars facs r J) (a : V3) :
    jacobianMatrix J *ᵥ asVec J.columns.length (shiftAll h vars point a) = 0 := by
  have hlen : ∀ a : V3, ∀ r ∈ vars, VarLike.isConst (h r) = false → (shiftBy a (point r) (h r)).length = VarLike.size (h r) :=
    fun a r _ _ => shiftBy_length _ _ _
  have hU : (shiftAll h vars point a).length = J.columns.length := (shiftAll_length _ _ _ _).trans hlin.columns.symm
  generalize hu : asVec J.columns.length (shiftAll h vars point a) = u
  have hofn : ∀ t : ℝ, List.ofFn (t • u) = (shiftAll h vars point a).map (t * ·) := fun t => by
    apply List.ext_getElem (by simp [hU])
    intro k h1 h2
    simp only [List.length_map] at h2
    simp [← hu, asVec, List.getElem?_eq_getElem h2]
  refine flat_kernel hc hs hlin (fun t => t • u) u (zero_smul _ _) ?_ (.of_forall fun t h' hst => ?_)
  · simpa using (hasDerivAt_id (0 : ℝ)).smul_const u
  · have hsh : ∀ f ∈ facs, ∀ r, some r ∈ f.variables → Shifted (t • a) (point r) (h r) (h' r) := by
      intro f hf r hr
      cases hcr : VarLike.isConst (h r) with
      | true =>
        rw [(hst r).2 (by simp [hcr])]
        exact .still fun hn => by rw [hfree f hf r hr hn] at hcr; cases hcr
      | false =>
        have hmr := hc.mem f hf r hr hcr
        have := (hst r).1 ⟨hmr, hcr⟩
        have e : partOf h vars (List.ofFn (t • u)) r = shiftBy (t • a) (point r) (h r) := by
          rw [hofn, partOf, ← List.map_drop, ← List.map_take, shiftBy_smul]
          congr 1
          exact partOf_allFree h (hlen a) hmr hcr
        rw [e] at this
        exact shiftBy_shifts (hs.states r hmr hcr).1 (hs.states r hmr hcr).2 (hpoint r) this
    obtain ⟨parts, h1, h2, h3⟩ := hlin.residual
    refine ⟨parts, h1, fun k f hk => ?_, h3⟩
    obtain ⟨p, h4, h5, h6⟩ := h2 k f hk
    have hm := List.mem_of_getElem? hk
    exact ⟨p, h4, (C78_shift (hf f hm) (hsh f hm)).trans h5, h6⟩

/-- **C78**, the graph. If no factor measures where in the world things are, and no factor uses a constant object that has a
place in the world, then the problem is undetermined. -/
theorem C78_floating {h : Heap RVar} {vars : List VRef} {facs : List (Factor ℝ RVar)} (hc : Closed h vars facs)
    (hs : SmoothGraph h vars facs) (point : VRef → Bool)
    (hpoint : ∀ r g, h r = .generic g → point r = true → g.value.length = 2 ∨ g.value.length = 3)
    (hf : ∀ f ∈ facs, Floating point h f)
    (hfree : ∀ f ∈ facs, ∀ r, some r ∈ f.variables → HasPlace (point r) (h r) → VarLike.isConst (h r) = false)
    (hsome : ∃ f ∈ facs, ∃ r, some r ∈ f.variables ∧ HasPlace (point r) (h r))
    {r : List ℝ} {J : SpMat ℝ} (hlin : Linearised h vars facs r J) : Undetermined J := by
  obtain ⟨f0, hf0, r0, hr0, hp0⟩ := hsome
  have hc0 := hfree f0 hf0 r0 hr0 hp0
  have hm0 := hc.mem f0 hf0 r0 hr0 hc0
  obtain ⟨a, x, hx, hx0⟩ := C78.moves (hs.states r0 hm0 hc0).1 hp0 (hpoint r0)
  have hU : (shiftAll h vars point a).length = J.columns.length := (shiftAll_length _ _ _ _).trans hlin.columns.symm
  refine ⟨_, fun e => ?_, C78.kernel hc hs point hpoint hf hfree hlin a⟩
  have hmem : x ∈ shiftAll h vars point a := by
    rw [← partOf_allFree h (d := fun r => shiftBy a (point r) (h r)) (fun _ _ _ => shiftBy_length _ _ _) hm0 hc0] at hx
    exact List.mem_of_mem_drop (List.mem_of_mem_take hx)
  obtain ⟨k, hk, rfl⟩ := List.getElem_of_mem hmem
  refine hx0 ?_
  have := congrFun e ⟨k, by rw [← hU]; exact hk⟩
  simpa [asVec, List.getElem?_eq_getElem hk] using this

/-- **C78.** A Gauss-Newton run of at least one iteration on such a graph returns, leaves every variable as it was and
reports FAILED. -/
theorem C78_gauss_newton (hL : ExactLinAlg L) (env : Env ℝ RVar) (s : OptWorld ℝ RVar Fact)
    {h0 : Heap RVar} {pre post : List (Op ℝ RVar × Res Unit)} (hw : FinalizedAfter h0 pre post ⟨s.heap, s.graph⟩)
    (hpre : NoJacobianYet pre) (hid : IdsIdentify s.heap s.graph.getAllVariables s.graph.getAllFactors)
    (hnr : NoRepeats s.graph.getAllFactors) (hg : s.opt.hasGraph = true) (r : List ℝ)
    (hr : IsResidual s.heap s.graph.getAllFactors r)
    (hm : s.opt.settings.method = .gaussNewton) (hpos : 0 < s.opt.settings.maxIterations)
    (hs : SmoothGraph s.heap s.graph.getAllVariables s.graph.getAllFactors) (point : VRef → Bool)
    (hpoint : ∀ r g, s.heap r = .generic g → point r = true → g.value.length = 2 ∨ g.value.length = 3)
    (hf : ∀ f ∈ s.graph.getAllFactors, Floating point s.heap f)
    (hfree : ∀ f ∈ s.graph.getAllFactors, ∀ r, some r ∈ f.variables → HasPlace (point r) (s.heap r) →
      VarLike.isConst (s.heap r) = false)
    (hsome : ∃ f ∈ s.graph.getAllFactors, ∃ r, some r ∈ f.variables ∧ HasPlace (point r) (s.heap r)) :
    ∃ s', optimize realArith L env s = (s', .ok ()) ∧ s'.heap = s.heap ∧ s'.opt.stats.status = .failed ∧
      s'.opt.stats.valid = false ∧ s'.opt.stats.iteration = 0 ∧
      (s.opt.hessianValid = false → ∃ s'', prepare realArith L s' = (s'', .ok ()) ∧
        ∀ v, estimateCovariance realArith L s'' v = .ok none) := by
  obtain ⟨segs, h1, h2, rfl⟩ := hr
  obtain ⟨⟨g', hres, _⟩, _⟩ := C05_residual hw segs h1 h2 env
  have hres' : (computeResidual env s.heap s.graph).2 = .ok segs.flatten := by rw [hres]
  have hreach : Reaches L env s segs.flatten 0 (loopStart realArith env s segs.flatten) :=
    ⟨⟨h0, pre, post, hw, hpre⟩, hid, hnr, hg, hres', .zero _⟩
  have hc := closed_of_finalized hw hid
  have hsome' : ∃ f ∈ s.graph.getAllFactors, ∃ q, some q ∈ f.variables ∧ VarLike.isConst (s.heap q) = false := by
    obtain ⟨f, hf, q, hq, hpl⟩ := hsome
    exact ⟨f, hf, q, hq, hfree f hf q hq hpl⟩
  obtain ⟨J, hlin⟩ := smooth_linearised hw hpre hid hnr hs hsome' ⟨segs, h1, h2, rfl⟩
  exact C76_undetermined hL env s hw hpre hid hnr
    (fun f hf => (smooth_built (hs.factors f hf)).elim fun _ hb => C57_reuse _ _ _ hb) (hreach.proper hs.factors) hg hm hpos
    segs.flatten hres' J hlin hsome' (C78_floating hc hs point hpoint hf hfree hsome hlin)

/-! The planar pose that sees a point three times (`C76.adrift`). -/
namespace C78
noncomputable abbrev start : OptWorld ℝ RVar (Ldlt.Fact ℝ) :=
  ⟨C76.adrift.heap, C76.adrift.graph, { Optimizer.init realArith with hasGraph := true }⟩

theorem points (r : VRef) (g : GenVar ℝ) (h : start.heap r = .generic g) (_ : true = true) :
    g.value.length = 2 ∨ g.value.length = 3 := by
  rw [show start.heap = _ from C76.adrift_heap] at h
  match r with
  | 0 => simp [AdriftWorld.heap] at h
  | r + 1 => simp only [AdriftWorld.heap, RVar.generic.injEq] at h; subst h; exact .inl rfl

theorem floating : ∀ f ∈ start.graph.getAllFactors, Floating (fun _ => true) start.heap f := by
  rw [show start.graph.getAllFactors = _ from C76.adrift_facs, show start.heap = _ from C76.adrift_heap]
  intro f hf
  simp only [AdriftWorld.facs, List.mem_cons, List.not_mem_nil, or_false] at hf
  rcases hf with rfl | rfl | rfl
  all_goals exact .rangeBearing2D _ _ _ _ _ _ _ rfl rfl

theorem free : ∀ f ∈ start.graph.getAllFactors, ∀ r, some r ∈ f.variables → HasPlace true (start.heap r) →
    VarLike.isConst (F := ℝ) (start.heap r) = false := by
  rw [show start.heap = _ from C76.adrift_heap]
  intro _ _ r _ _
  match r with
  | 0 => rfl
  | _ + 1 => rfl

theorem placed : ∃ f ∈ start.graph.getAllFactors, ∃ r, some r ∈ f.variables ∧ HasPlace true (start.heap r) := by
  rw [show start.graph.getAllFactors = _ from C76.adrift_facs, show start.heap = _ from C76.adrift_heap]
  exact ⟨_, List.mem_cons_self, 0, List.mem_cons_self, trivial⟩
end C78

/-- Its problem is undetermined, and a Gauss-Newton run with default settings fails. -/
example (env : Env ℝ RVar) :
    (∃ J, Linearised C78.start.heap C78.start.graph.getAllVariables C78.start.graph.getAllFactors [0, 0, -1, 0, -2, 0] J ∧
      Undetermined J) ∧
    ∃ s', optimize realArith Ldlt.linAlg env C78.start = (s', .ok ()) ∧ s'.heap = C78.start.heap ∧
      s'.opt.stats.status = .failed := by
  have hw : FinalizedAfter _ _ _ ⟨C78.start.heap, C78.start.graph⟩ := AdriftWorld.finalizedAfter ![0, 0] 0 3 4 C70.bearing
  refine ⟨C76.adrift_linearised.imp fun J h => ⟨h, ?_⟩, ?_⟩
  · exact C78_floating (closed_of_finalized hw (AdriftWorld.identify _ _ _ _ _)) C76.adrift_smooth (fun _ => true) C78.points
      C78.floating C78.free C78.placed h
  · obtain ⟨s', e1, e2, e3, _⟩ := C78_gauss_newton Ldlt.exact env C78.start hw (AdriftWorld.noJacobianYet _ _ _ _ _)
      (AdriftWorld.identify _ _ _ _ _) (AdriftWorld.noRepeats _ _ _ _ _) rfl _ C76.adrift_start rfl (by decide) C76.adrift_smooth
      (fun _ => true) C78.points C78.floating C78.free C78.placed
    exact ⟨s', e1, e2, e3⟩

/-- A pose at the origin and a landmark, shifted by the same amount: the bearing is the same. -/
example (a : V3) (id : Int) (bearing : V3) (sigma : ℝ) :
    (Fac.bearingObservation id 0 1 bearing sigma).computeResidual
      (fun r => if r = 0 then .pose ⟨0, false, 0 + a, 0, [], 1⟩ else .landmark ⟨1, false, toList (![3, 2, 5] + a)⟩) =
    (Fac.bearingObservation id 0 1 bearing sigma).computeResidual
      (fun r => if r = 0 then .pose ⟨0, false, 0, 0, [], 1⟩ else .landmark ⟨1, false, toList ![3, 2, 5]⟩) := by
  refine C78_shift (a := a) (point := fun _ => false) (.bearingObservation id 0 1 bearing sigma) fun r hr => ?_
  obtain rfl | rfl : r = 0 ∨ r = 1 := by simpa [Fac.bearingObservation] using hr
  · exact .pose _ rfl rfl rfl rfl
  · exact .landmark _ ![3, 2, 5] rfl rfl

end Factorama.Props
