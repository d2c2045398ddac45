import Verif.Lemmas.SpaceMap
import Verif.Props.Optimum
import Verif.Props.Triangulation
import Verif.Examples.RouteWorld

/-!
# C138: maps in space

What can be oriented and positioned step by step is determined; for graphs of poses with shifts in frames of known orientation,
nothing else is.
-/

namespace Factorama.Props
open Spec Opt Graph Matrix Geo

/-! ### Two poses -/

/-- An optimizer on two poses with the way and rotation between them measured, and the position (`gp`) and orientation (`go`) of the
first, or the way and rotation once more. -/
noncomputable def routed (gp go : Bool) (p q z m : V3) (σ : ℝ) (l : Bool) (st : Settings ℝ) : OptWorld ℝ RVar (Ldlt.Fact ℝ) :=
  ⟨(RouteWorld.world gp go p q z m σ l).heap, (RouteWorld.world gp go p q z m σ l).graph,
    { Optimizer.init realArith with hasGraph := true, complete := true, settings := st }⟩

section
variable (gp go : Bool) (p q z m : V3) (σ : ℝ) (l : Bool) (st : Settings ℝ)

theorem routed_heap : (routed gp go p q z m σ l st).heap = RouteWorld.heap p q z := RouteWorld.heap_eq ..

theorem routed_vars : (routed gp go p q z m σ l st).graph.getAllVariables = [0, 1, 2, 3] := RouteWorld.vars_eq ..

theorem routed_facs : (routed gp go p q z m σ l st).graph.getAllFactors = RouteWorld.facs gp go m σ l := RouteWorld.facs_eq ..

theorem route_built : ∀ f ∈ RouteWorld.facs gp go m σ l, (∃ k, Built (RouteWorld.heap p q z) k f) ∧ 0 < f.residualSize ∧
    ∀ r, some r ∈ f.variables → 0 < VarLike.size (F := ℝ) (RouteWorld.heap p q z r) := by
  intro f hf
  have hsz : ∀ r, 0 < VarLike.size (F := ℝ) (RouteWorld.heap p q z r) := by
    intro r
    match r with
    | 0 => exact Nat.succ_pos 5
    | 1 => exact Nat.succ_pos 5
    | 2 => exact Nat.succ_pos 2
    | _ + 3 => exact Nat.succ_pos 2
  simp only [RouteWorld.facs, List.mem_cons, List.not_mem_nil, or_false] at hf
  rcases hf with rfl | rfl | rfl | rfl
  · cases gp
    · exact ⟨⟨_, .posePositionBetween _ _ _ _ _ _ rfl rfl rfl⟩, Nat.succ_pos 2, fun r _ => hsz r⟩
    · exact ⟨⟨_, .posePositionPrior _ _ _ _ rfl⟩, Nat.succ_pos 2, fun r _ => hsz r⟩
  · cases go
    · exact ⟨⟨_, .poseOrientationBetween _ _ _ _ _ rfl rfl rfl⟩, Nat.succ_pos 2, fun r _ => hsz r⟩
    · exact ⟨⟨_, .poseOrientationPrior _ _ _ _ rfl⟩, Nat.succ_pos 2, fun r _ => hsz r⟩
  · exact ⟨⟨_, .posePositionBetween _ _ _ _ _ _ rfl rfl rfl⟩, Nat.succ_pos 2, fun r _ => hsz r⟩
  · exact ⟨⟨_, .poseOrientationBetween _ _ _ _ _ rfl rfl rfl⟩, Nat.succ_pos 2, fun r _ => hsz r⟩

theorem routed_prepared : Prepared (routed gp go p q z m σ l st) := by
  refine ⟨⟨_, _, _, RouteWorld.finalizedAfter .., RouteWorld.noJacobianYet ..⟩, RouteWorld.identify _ _ _ _ _ _ _ _,
    RouteWorld.noRepeats _ _ _ _ _ _ _ _, ?_, ?_, rfl⟩
  · rw [routed_facs]
    intro f hf
    obtain ⟨⟨k, hk⟩, _⟩ := route_built gp go p q z m σ l f hf
    exact C57_reuse _ k f hk
  · rw [routed_facs, routed_heap]
    intro h hs f hf js hj
    obtain ⟨⟨k, hk⟩, hz⟩ := route_built gp go p q z m σ l f hf
    exact C57_proper hk hs hz hj

theorem position_jacobians {h : Heap RVar} {p : VRef} {v : PoseVar} (hv : h p = .pose v) (id : Int) (m : V3) (σ : ℝ) :
    ∃ js, (Fac.posePositionPrior id p m σ).computeJacobians h [] = .ok js := by
  simp only [Fac.posePositionPrior, hv]
  exact ⟨_, fillBlocks_ok rfl⟩

theorem orientation_jacobians {h : Heap RVar} {p : VRef} {v : PoseVar} (hv : h p = .pose v) (h1 : v.dcm = 1) (id : Int) (σ : ℝ) :
    ∃ js, (Fac.poseOrientationPrior id p 1 σ).computeJacobians h [] = .ok js := by
  have e : logSO3 (v.dcm * (expSO3 (logSO3 (1 : M3)))ᵀ) = 0 := by rw [h1, log_one, exp_zero, transpose_one, mul_one, log_one]
  simp only [Fac.poseOrientationPrior, hv, e, invJac_zero, Res.andThen]
  split
  · exact ⟨_, fillBlocks_ok rfl⟩
  · exact ⟨_, fillBlocks_ok rfl⟩

theorem shift_jacobians {h : Heap RVar} {a b : VRef} {va vb : PoseVar} (ha : h a = .pose va) (hb : h b = .pose vb) (id : Int) (m : VRef)
    (σ : ℝ) (l : Bool) : ∃ js, (Fac.posePositionBetween id a b m σ l).computeJacobians h [] = .ok js := by
  simp only [Fac.posePositionBetween, ha, hb]
  exact ⟨_, fillBlocks_ok rfl⟩

theorem turn_jacobians {h : Heap RVar} {a b c : VRef} {va vb : PoseVar} {vc : RotationVar} (ha : h a = .pose va) (hb : h b = .pose vb)
    (hc : h c = .rotation vc) (h1 : va.dcm = 1) (h2 : vb.dcm = 1) (h3 : vc.dcm = 1) (id : Int) (σ : ℝ) :
    ∃ js, (Fac.poseOrientationBetween id a b c σ).computeJacobians h [] = .ok js := by
  have e : logSO3 (vb.dcm * va.dcmᵀ * vc.dcm) = 0 := by rw [h1, h2, h3, transpose_one, mul_one, mul_one, log_one]
  simp only [Fac.poseOrientationBetween, ha, hb, hc, e, invJac_zero, Res.andThen]
  exact ⟨_, fillBlocks_ok rfl⟩

theorem shift_evaluates (id : Int) : ∃ r js, (Fac.posePositionBetween id 0 1 2 σ l).computeResidual (RouteWorld.heap p q z) = .ok r ∧
    r.length = 3 ∧ (Fac.posePositionBetween id 0 1 2 σ l).computeJacobians (RouteWorld.heap p q z) [] = .ok js := by
  obtain ⟨js, hj⟩ := shift_jacobians (h := RouteWorld.heap p q z) (a := 0) (b := 1) rfl rfl id 2 σ l
  exact ⟨_, js, rfl, rfl, hj⟩

theorem turn_evaluates (id : Int) : ∃ r js, (Fac.poseOrientationBetween id 0 1 3 σ).computeResidual (RouteWorld.heap p q z) = .ok r ∧
    r.length = 3 ∧ (Fac.poseOrientationBetween id 0 1 3 σ).computeJacobians (RouteWorld.heap p q z) [] = .ok js := by
  obtain ⟨js, hj⟩ := turn_jacobians (h := RouteWorld.heap p q z) (a := 0) (b := 1) (c := 3) rfl rfl rfl rfl rfl rfl id σ
  exact ⟨_, js, rfl, rfl, hj⟩

theorem orientation_evaluates (id : Int) : ∃ r js, (Fac.poseOrientationPrior id 0 1 σ).computeResidual (RouteWorld.heap p q z) = .ok r ∧
    r.length = 3 ∧ (Fac.poseOrientationPrior id 0 1 σ).computeJacobians (RouteWorld.heap p q z) [] = .ok js := by
  obtain ⟨js, hj⟩ := orientation_jacobians (h := RouteWorld.heap p q z) (p := 0) rfl rfl id σ
  exact ⟨_, js, rfl, rfl, hj⟩

theorem routed_linearised :
    ∃ r J, (∀ env : Env ℝ RVar, (computeResidual env (routed gp go p q z m σ l st).heap (routed gp go p q z m σ l st).graph).2 = .ok r) ∧
      Linearised (routed gp go p q z m σ l st).heap (routed gp go p q z m σ l st).graph.getAllVariables
        (routed gp go p q z m σ l st).graph.getAllFactors r J := by
  have hp := routed_prepared gp go p q z m σ l st
  have he : ∀ f ∈ RouteWorld.facs gp go m σ l, ∃ r js, f.computeResidual (RouteWorld.heap p q z) = .ok r ∧
      r.length = f.residualSize ∧ f.computeJacobians (RouteWorld.heap p q z) [] = .ok js := by
    intro f hf
    simp only [RouteWorld.facs, List.mem_cons, List.not_mem_nil, or_false] at hf
    rcases hf with rfl | rfl | rfl | rfl
    · cases gp
      · exact shift_evaluates ..
      · obtain ⟨js, hj⟩ := position_jacobians (h := RouteWorld.heap p q z) (p := 0) rfl 11 m σ
        exact ⟨_, js, rfl, rfl, hj⟩
    · cases go
      · exact turn_evaluates ..
      · exact orientation_evaluates ..
    · exact shift_evaluates ..
    · exact turn_evaluates ..
  obtain ⟨r, J, hlin⟩ := C26.linearised hp (fun f hf => by
    rw [routed_facs] at hf
    rw [routed_heap]
    obtain ⟨r, _, h1, h2, _⟩ := he f hf
    exact ⟨r, h1, h2⟩) (fun f hf => by
    rw [routed_facs] at hf
    rw [routed_heap]
    obtain ⟨_, js, _, _, h1⟩ := he f hf
    exact ⟨js, h1⟩) (by
    rw [routed_facs, routed_heap]
    exact ⟨Fac.posePositionBetween 13 0 1 2 σ l, by simp [RouteWorld.facs], 0, by simp [Fac.posePositionBetween], rfl⟩)
  refine ⟨r, J, fun env => ?_, hlin⟩
  obtain ⟨h0, pre, post, hw, hpre⟩ := hp.history
  obtain ⟨segs, g1, g2, rfl⟩ := hlin.residual
  obtain ⟨⟨g', e, _⟩, _⟩ := C05_residual hw segs g1 g2 env
  exact congrArg Prod.snd e

theorem routed_poses : ∀ r ∈ (routed gp go p q z m σ l st).graph.getAllVariables,
    VarLike.isConst (F := ℝ) ((routed gp go p q z m σ l st).heap r) = false →
    (r = 0 ∨ r = 1) ∧ ∃ v, (routed gp go p q z m σ l st).heap r = .pose v ∧ IsRotation v.dcm := by
  rw [routed_vars, routed_heap]
  intro r hr hc
  simp only [List.mem_cons, List.not_mem_nil, or_false] at hr
  rcases hr with rfl | rfl | rfl | rfl
  · exact ⟨.inl rfl, _, rfl, isRotation_one⟩
  · exact ⟨.inr rfl, _, rfl, isRotation_one⟩
  · cases hc
  · cases hc

theorem route_shift (hσ : σ ≠ 0) (id : Int) : GivesShift (RouteWorld.heap p q z) (Fac.posePositionBetween id 0 1 2 σ l) l 0 1 :=
  .mk hσ (by decide) rfl rfl rfl isRotation_one

theorem route_turn (hσ : σ ≠ 0) (id : Int) : GivesTurn (RouteWorld.heap p q z) (Fac.poseOrientationBetween id 0 1 3 σ) 0 1 :=
  .mk hσ (by decide) rfl rfl rfl rfl isRotation_one isRotation_one isRotation_one

theorem route_oriented (hσ : σ ≠ 0) (u : VRef) (hu : u = 0 ∨ u = 1) : Oriented (RouteWorld.heap p q z) (RouteWorld.facs gp true m σ l) u := by
  have h0 : Oriented (RouteWorld.heap p q z) (RouteWorld.facs gp true m σ l) 0 :=
    .given (f := Fac.poseOrientationPrior 12 0 1 σ) (by simp [RouteWorld.facs, RouteWorld.leadO]) (.mk hσ rfl)
  rcases hu with rfl | rfl
  · exact h0
  · exact .ahead (f := Fac.poseOrientationBetween 14 0 1 3 σ) (by simp [RouteWorld.facs]) (route_turn p q z σ hσ 14) h0

theorem route_positioned (hσ : σ ≠ 0) (hl : l = true → go = true) (u : VRef) (hu : u = 0 ∨ u = 1) :
    Positioned (RouteWorld.heap p q z) (RouteWorld.facs true go m σ l) u := by
  have h0 : Positioned (RouteWorld.heap p q z) (RouteWorld.facs true go m σ l) 0 :=
    .given (f := Fac.posePositionPrior 11 0 m σ) (by simp [RouteWorld.facs, RouteWorld.leadP]) (.mk hσ rfl)
  rcases hu with rfl | rfl
  · exact h0
  · refine .ahead (f := Fac.posePositionBetween 13 0 1 2 σ l) (by simp [RouteWorld.facs]) (route_shift p q z σ l hσ 13) (fun e => ?_) h0
    obtain rfl := hl e
    exact route_oriented true p q z m σ l hσ 0 (.inl rfl)

theorem routed_all (hσ : σ ≠ 0) (hl : l = true → go = true) : ∀ f ∈ (routed gp go p q z m σ l st).graph.getAllFactors,
    (∃ p', GivesPosition (routed gp go p q z m σ l st).heap f p') ∨ (∃ p', GivesOrientation (routed gp go p q z m σ l st).heap f p') ∨
    (∃ l' a b, GivesShift (routed gp go p q z m σ l st).heap f l' a b ∧ (l' = true →
      Oriented (routed gp go p q z m σ l st).heap (routed gp go p q z m σ l st).graph.getAllFactors a)) ∨
    ∃ a b, GivesTurn (routed gp go p q z m σ l st).heap f a b := by
  rw [routed_facs, routed_heap]
  have ho : l = true → Oriented (RouteWorld.heap p q z) (RouteWorld.facs gp go m σ l) 0 := fun e => by
    obtain rfl := hl e
    exact route_oriented gp p q z m σ l hσ 0 (.inl rfl)
  intro f hf
  simp only [RouteWorld.facs, List.mem_cons, List.not_mem_nil, or_false] at hf
  rcases hf with rfl | rfl | rfl | rfl
  · cases gp
    · exact .inr (.inr (.inl ⟨l, 0, 1, route_shift p q z σ l hσ 11, ho⟩))
    · exact .inl ⟨0, .mk hσ rfl⟩
  · cases go
    · exact .inr (.inr (.inr ⟨0, 1, route_turn p q z σ hσ 12⟩))
    · exact .inr (.inl ⟨0, .mk hσ rfl⟩)
  · exact .inr (.inr (.inl ⟨l, 0, 1, route_shift p q z σ l hσ 13, ho⟩))
  · exact .inr (.inr (.inr ⟨0, 1, route_turn p q z σ hσ 14⟩))

/-- Without a prior on the orientation, neither pose is oriented. -/
theorem routed_unoriented (hσ : σ ≠ 0) {r : VRef} (hr : Oriented (RouteWorld.heap p q z) (RouteWorld.facs gp false m σ l) r) : r ≠ 0 ∧ r ≠ 1 := by
  induction hr with
  | @known r hc =>
    match r with
    | 0 => cases hc
    | 1 => cases hc
    | r + 2 => exact ⟨nofun, fun e => Nat.noConfusion (Nat.succ.inj e)⟩
  | given hf hs =>
    exfalso
    cases hs with
    | mk =>
      simp only [RouteWorld.facs, RouteWorld.leadP, RouteWorld.leadO, List.mem_cons, List.not_mem_nil, or_false] at hf
      cases gp with
      | false => simp [Fac.posePositionBetween, Fac.poseOrientationPrior, Fac.poseOrientationBetween] at hf
      | true =>
        simp only [if_true, Bool.false_eq_true, if_false] at hf
        rcases hf with e | e | e | e
        · have e := congrArg Factor.computeResidual e
          have e1 := congrFun e fun _ => .pose ⟨0, false, m, 0, [], 1⟩
          have e2 := congrFun e fun _ => .pose ⟨0, false, m + ![1, 0, 0], 0, [], 1⟩
          have e3 := Res.ok.inj (e1.symm.trans e2)
          have e4 := congrFun (List.ofFn_injective e3) 0
          simp at e4
          exact hσ e4.symm
        all_goals exact absurd (congrArg (fun f => f.variables.length) e) (by simp [Fac.posePositionBetween, Fac.poseOrientationPrior, Fac.poseOrientationBetween])
  | ahead hf hs _ ih =>
    have := RouteWorld.mem_variables _ _ _ _ _ hf; cases hs
    simp [Fac.poseOrientationBetween] at this; rcases this with this | this <;> exact absurd this.1 ih.1
  | back hf hs _ ih =>
    have := RouteWorld.mem_variables _ _ _ _ _ hf; cases hs
    simp [Fac.poseOrientationBetween] at this; rcases this with this | this <;> exact absurd this.2.1 ih.2

end

section
variable {Fact : Type} {L : LinAlg ℝ Fact}

/-- **C138, sufficiency.** Whatever else is in the graph: if every free variable is a pose that can be oriented and positioned step by
step or a landmark that can be positioned, the problem is determined. -/
theorem C138_located {h : Heap RVar} {vars : List VRef} {facs : List (Factor ℝ RVar)} (hn : vars.Nodup)
    (hclosed : ∀ f ∈ facs, ∀ q, some q ∈ f.variables → VarLike.isConst (F := ℝ) (h q) = false → q ∈ vars) {r : List ℝ} {J : SpMat ℝ}
    (hlin : Linearised h vars facs r J)
    (hall : ∀ p ∈ vars, VarLike.isConst (F := ℝ) (h p) = false →
      (VarLike.size (F := ℝ) (h p) = 6 ∧ Oriented h facs p ∨ VarLike.size (F := ℝ) (h p) = 3) ∧ Positioned h facs p) : ¬ Undetermined J := by
  intro hu
  obtain ⟨x, hk, p, hp, hc, j, hj, hne⟩ := hu.kernel hn hlin
  obtain ⟨hs, hpos⟩ := hall p hp hc
  have h3 := hpos.part hn hlin hclosed hk
  rcases hs with ⟨hs, ho⟩ | hs
  · have hr := ho.part hn hlin hclosed hk
    rw [hs] at hj
    match j, hj with
    | 0, _ => exact hne (h3 0 (by omega))
    | 1, _ => exact hne (h3 1 (by omega))
    | 2, _ => exact hne (h3 2 (by omega))
    | 3, _ => exact hne (congrFun hr 0)
    | 4, _ => exact hne (congrFun hr 1)
    | 5, _ => exact hne (congrFun hr 2)
  · exact hne (h3 j (hs ▸ hj))

/-- A landmark seen from two known places. -/
example (b d : V3) {σ : ℝ} (hσ : σ ≠ 0) (st : Settings ℝ) :
    Positioned (viewed ![1, 0, 0] ![0, 1, 0] 0 b d σ st).heap (viewed ![1, 0, 0] ![0, 1, 0] 0 b d σ st).graph.getAllFactors 2 := by
  rw [viewed_heap, viewed_facs]
  refine .crossing (.head _) (.mk (v := { cameraAt ![1, 0, 0] with id := 1, isConst := true }) hσ rfl isRotation_one rfl rfl) (.known rfl) (.known rfl)
    (.tail _ (.head _)) (.mk (v := { cameraAt ![0, 1, 0] with id := 2, isConst := true }) hσ rfl isRotation_one rfl rfl) (.known rfl) (.known rfl) ?_
  rintro ⟨k, hk⟩
  have := congrFun hk 0
  simp [cameraAt] at this

/-- Two poses whose way and rotation are measured, the first with priors. -/
example (p q z m : V3) {σ : ℝ} (hσ : σ ≠ 0) (l : Bool) (st : Settings ℝ) :
    ∃ r J, Linearised (routed true true p q z m σ l st).heap (routed true true p q z m σ l st).graph.getAllVariables
      (routed true true p q z m σ l st).graph.getAllFactors r J ∧ ¬ Undetermined J := by
  obtain ⟨r, J, _, hlin⟩ := routed_linearised true true p q z m σ l st
  have hcl := C111.closed (routed_prepared true true p q z m σ l st)
  refine ⟨r, J, hlin, C138_located hcl.1 hcl.2 hlin fun u hu hc => ?_⟩
  obtain ⟨h01, v, hv, _⟩ := routed_poses _ _ _ _ _ _ _ _ _ u hu hc
  refine ⟨.inl ⟨by rw [hv]; rfl, ?_⟩, ?_⟩
  · rw [routed_facs, routed_heap]
    exact route_oriented true p q z m σ l hσ u h01
  · rw [routed_facs, routed_heap]
    exact route_positioned true p q z m σ l hσ (fun _ => rfl) u h01

/-- **C138.** A graph of poses in which positions, orientations, ways (in the frame of the world or of an oriented pose) and rotations
are measured is undetermined exactly if some free pose is not oriented or not positioned. -/
theorem C138 {h : Heap RVar} {vars : List VRef} {facs : List (Factor ℝ RVar)} (hn : vars.Nodup)
    (hclosed : ∀ f ∈ facs, ∀ q, some q ∈ f.variables → VarLike.isConst (F := ℝ) (h q) = false → q ∈ vars) {r : List ℝ} {J : SpMat ℝ}
    (hlin : Linearised h vars facs r J)
    (hposes : ∀ p ∈ vars, VarLike.isConst (F := ℝ) (h p) = false → ∃ v, h p = .pose v ∧ IsRotation v.dcm)
    (hall : ∀ f ∈ facs, (∃ p, GivesPosition h f p) ∨ (∃ p, GivesOrientation h f p) ∨
      (∃ l a b, GivesShift h f l a b ∧ (l = true → Oriented h facs a)) ∨ ∃ a b, GivesTurn h f a b) :
    Undetermined J ↔ ∃ p ∈ vars, VarLike.isConst (F := ℝ) (h p) = false ∧ (¬ Oriented h facs p ∨ ¬ Positioned h facs p) := by
  have hsz : ∀ q ∈ vars, VarLike.isConst (F := ℝ) (h q) = false → VarLike.size (F := ℝ) (h q) = 6 := by
    intro q hq hqc
    obtain ⟨v, hv, _⟩ := hposes q hq hqc
    rw [hv]; rfl
  constructor
  · intro hu
    refine Classical.byContradiction fun hno => C138_located hn hclosed hlin (fun p hp hc => ?_) hu
    exact ⟨.inl ⟨hsz p hp hc, Classical.byContradiction fun hb => hno ⟨p, hp, hc, .inl hb⟩⟩,
      Classical.byContradiction fun hb => hno ⟨p, hp, hc, .inr hb⟩⟩
  · rintro ⟨p, hp, hc, hb⟩
    classical
    have mem : ∀ {f : Factor ℝ RVar}, f ∈ facs → ∀ {q}, some q ∈ f.variables → VarLike.isConst (F := ℝ) (h q) = false → q ∈ vars :=
      fun hf _ hq => hclosed _ hf _ hq
    rcases hb with hb | hb
    · obtain ⟨x, hx⟩ := exists_pose_parts (h := h) (vars := vars) hsz (fun _ => 0) (fun q => if Oriented h facs q then 0 else
        match h q with | .pose v => v.dcm *ᵥ ![1, 0, 0] | _ => 0) (fun _ _ => rfl) (fun q hq => if_pos (.known hq))
      have hk : NullVector J x := null_of_parts hn hlin hclosed fun f hf => by
        rcases hall f hf with ⟨q, hs⟩ | ⟨q, hs⟩ | ⟨l, a, b, hs, ho⟩ | ⟨a, b, hs⟩
        · refine .inl ⟨q, hs, (hx q ?_).1⟩
          cases hs; exact mem hf (by simp [Fac.posePositionPrior])
        · refine .inr (.inl ⟨q, hs, (hx q ?_).2.trans (if_pos (.given hf hs))⟩)
          cases hs; exact mem hf (by simp [Fac.poseOrientationPrior])
        · have ma : VarLike.isConst (F := ℝ) (h a) = false → a ∈ vars := by cases hs; exact mem hf (by simp [Fac.posePositionBetween])
          have mb : VarLike.isConst (F := ℝ) (h b) = false → b ∈ vars := by cases hs; exact mem hf (by simp [Fac.posePositionBetween])
          exact .inr (.inr (.inl ⟨l, a, b, hs, (hx a ma).1.trans (hx b mb).1.symm, fun e => (hx a ma).2.trans (if_pos (ho e))⟩))
        · have ma : VarLike.isConst (F := ℝ) (h a) = false → a ∈ vars := by cases hs; exact mem hf (by simp [Fac.poseOrientationBetween])
          have mb : VarLike.isConst (F := ℝ) (h b) = false → b ∈ vars := by cases hs; exact mem hf (by simp [Fac.poseOrientationBetween])
          refine .inr (.inr (.inr ⟨a, b, hs, fun va vb hva hvb => ?_⟩))
          rw [(hx a ma).2, (hx b mb).2]
          by_cases hoa : Oriented h facs a
          · exact ⟨0, by rw [if_pos hoa, mulVec_zero], by rw [if_pos (.ahead hf hs hoa), mulVec_zero]⟩
          · exact ⟨![1, 0, 0], by rw [if_neg hoa, hva], by rw [if_neg fun hob => hoa (.back hf hs hob), hvb]⟩
      have hr := (hx p fun _ => hp).2
      obtain ⟨v, hv, hR⟩ := hposes p hp hc
      rw [if_neg hb, hv] at hr
      have hne : rotPart h vars x p ≠ 0 := by
        intro e
        rw [e] at hr
        have := congrArg (v.dcmᵀ *ᵥ ·) hr
        simp only [mulVec_zero, mulVec_mulVec, mul_eq_one_comm.1 hR.1, one_mulVec] at this
        exact one_ne_zero (congrFun this 0).symm
      obtain ⟨i, hi⟩ := Function.ne_iff.1 hne
      have hcol : columnPart h vars x p (3 + i) ≠ 0 := by
        match i with
        | 0 => exact hi
        | 1 => exact hi
        | 2 => exact hi
      have hlt := column_lt hp hc (j := 3 + i) (by rw [hsz p hp hc]; omega)
      rw [columnPart, hc, if_neg Bool.false_ne_true] at hcol
      exact undetermined_of_kernel hk (by rw [hlin.columns]; exact hlt) hcol
    · obtain ⟨x, hx⟩ := exists_pose_parts (h := h) (vars := vars) hsz (fun q => if Positioned h facs q then 0 else ![1, 0, 0]) (fun _ => 0)
        (fun q hq => if_pos (.known hq)) (fun _ _ => rfl)
      have hk : NullVector J x := null_of_parts hn hlin hclosed fun f hf => by
        rcases hall f hf with ⟨q, hs⟩ | ⟨q, hs⟩ | ⟨l, a, b, hs, ho⟩ | ⟨a, b, hs⟩
        · refine .inl ⟨q, hs, (hx q ?_).1.trans (if_pos (.given hf hs))⟩
          cases hs; exact mem hf (by simp [Fac.posePositionPrior])
        · refine .inr (.inl ⟨q, hs, (hx q ?_).2⟩)
          cases hs; exact mem hf (by simp [Fac.poseOrientationPrior])
        · have ma : VarLike.isConst (F := ℝ) (h a) = false → a ∈ vars := by cases hs; exact mem hf (by simp [Fac.posePositionBetween])
          have mb : VarLike.isConst (F := ℝ) (h b) = false → b ∈ vars := by cases hs; exact mem hf (by simp [Fac.posePositionBetween])
          refine .inr (.inr (.inl ⟨l, a, b, hs, ?_, fun e => (hx a ma).2⟩))
          rw [(hx a ma).1, (hx b mb).1]
          exact if_congr ⟨.ahead hf hs ho, .back hf hs ho⟩ rfl rfl
        · have ma : VarLike.isConst (F := ℝ) (h a) = false → a ∈ vars := by cases hs; exact mem hf (by simp [Fac.poseOrientationBetween])
          have mb : VarLike.isConst (F := ℝ) (h b) = false → b ∈ vars := by cases hs; exact mem hf (by simp [Fac.poseOrientationBetween])
          refine .inr (.inr (.inr ⟨a, b, hs, fun va vb hva hvb => ⟨0, ?_, ?_⟩⟩))
          · rw [(hx a ma).2, mulVec_zero]
          · rw [(hx b mb).2, mulVec_zero]
      have hr := congrFun (hx p fun _ => hp).1 0
      rw [if_neg hb] at hr
      have hlt := column_lt hp hc (j := 0) (by rw [hsz p hp hc]; omega)
      refine undetermined_of_kernel hk (c := colStart h vars p + 0) (by rw [hlin.columns]; exact hlt) ?_
      have hcol : columnPart h vars x p 0 = 1 := hr
      rw [columnPart, hc, if_neg Bool.false_ne_true] at hcol
      rw [hcol]
      exact one_ne_zero

/-- Two poses, ways in the frame of the world: undetermined if the orientation is not measured. -/
example (p q z m : V3) (go : Bool) {σ : ℝ} (hσ : σ ≠ 0) (st : Settings ℝ) :
    ∃ r J, Linearised (routed true go p q z m σ false st).heap (routed true go p q z m σ false st).graph.getAllVariables
      (routed true go p q z m σ false st).graph.getAllFactors r J ∧ (Undetermined J ↔ go = false) := by
  obtain ⟨r, J, _, hlin⟩ := routed_linearised true go p q z m σ false st
  have hcl := C111.closed (routed_prepared true go p q z m σ false st)
  refine ⟨r, J, hlin, ?_⟩
  rw [C138 hcl.1 hcl.2 hlin (fun r hr hc => (routed_poses _ _ _ _ _ _ _ _ _ r hr hc).2) (routed_all _ _ _ _ _ _ _ _ _ hσ (by simp))]
  constructor
  · rintro ⟨u, hu, hc, hr⟩
    cases go with
    | false => rfl
    | true =>
      exfalso
      have h01 := (routed_poses _ _ _ _ _ _ _ _ _ u hu hc).1
      rw [routed_facs, routed_heap] at hr
      exact hr.elim (fun h => h (route_oriented true p q z m σ false hσ u h01)) fun h =>
        h (route_positioned true p q z m σ false hσ (by simp) u h01)
  · rintro rfl
    refine ⟨0, by rw [routed_vars]; simp, by rw [routed_heap]; rfl, .inl ?_⟩
    rw [routed_facs, routed_heap]
    exact fun hr => (routed_unoriented true p q z m σ false hσ hr).1 rfl

/-- **C138, the solver.** Without rounding, the matrix of a Gauss-Newton step can be factorised exactly if every free pose is oriented
and positioned. -/
theorem C138_factorizes (hL : ExactLinAlg L) {h : Heap RVar} {vars : List VRef} {facs : List (Factor ℝ RVar)} (hn : vars.Nodup)
    (hclosed : ∀ f ∈ facs, ∀ q, some q ∈ f.variables → VarLike.isConst (F := ℝ) (h q) = false → q ∈ vars) {r : List ℝ} {J : SpMat ℝ}
    (hlin : Linearised h vars facs r J)
    (hposes : ∀ p ∈ vars, VarLike.isConst (F := ℝ) (h p) = false → ∃ v, h p = .pose v ∧ IsRotation v.dcm)
    (hall : ∀ f ∈ facs, (∃ p, GivesPosition h f p) ∨ (∃ p, GivesOrientation h f p) ∨
      (∃ l a b, GivesShift h f l a b ∧ (l = true → Oriented h facs a)) ∨ ∃ a b, GivesTurn h f a b) :
    (∃ F, L.factorize (L.gram J) = some F) ↔
      ∀ p ∈ vars, VarLike.isConst (F := ℝ) (h p) = false → Oriented h facs p ∧ Positioned h facs p := by
  rw [factorizes_iff hL, C138 hn hclosed hlin hposes hall]
  push Not
  rfl

example (p q z m : V3) {σ : ℝ} (hσ : σ ≠ 0) (l : Bool) (st : Settings ℝ) :
    ∃ r J, Linearised (routed true true p q z m σ l st).heap (routed true true p q z m σ l st).graph.getAllVariables
      (routed true true p q z m σ l st).graph.getAllFactors r J ∧
      ∃ F, (Ldlt.linAlg : LinAlg ℝ (Ldlt.Fact ℝ)).factorize ((Ldlt.linAlg : LinAlg ℝ (Ldlt.Fact ℝ)).gram J) = some F := by
  obtain ⟨r, J, _, hlin⟩ := routed_linearised true true p q z m σ l st
  have hcl := C111.closed (routed_prepared true true p q z m σ l st)
  refine ⟨r, J, hlin, (C138_factorizes Ldlt.exact hcl.1 hcl.2 hlin (fun r hr hc => (routed_poses _ _ _ _ _ _ _ _ _ r hr hc).2)
    (routed_all _ _ _ _ _ _ _ _ _ hσ (fun _ => rfl))).2 fun u hu hc => ?_⟩
  have h01 := (routed_poses _ _ _ _ _ _ _ _ _ u hu hc).1
  rw [routed_facs, routed_heap]
  exact ⟨route_oriented true p q z m σ l hσ u h01, route_positioned true p q z m σ l hσ (fun _ => rfl) u h01⟩

/-- **C138, the run.** If some free pose is not oriented or not positioned, a Gauss-Newton run moves nothing and reports FAILED, and no
covariance is reported. -/
theorem C138_run (hL : ExactLinAlg L) (env : Env ℝ RVar) (s : OptWorld ℝ RVar Fact) (hp : Prepared s)
    (hm : s.opt.settings.method = .gaussNewton) (hpos : 0 < s.opt.settings.maxIterations) (hv : s.opt.hessianValid = false)
    (r : List ℝ) (hr : (computeResidual env s.heap s.graph).2 = .ok r)
    (J : SpMat ℝ) (hlin : Linearised s.heap s.graph.getAllVariables s.graph.getAllFactors r J)
    (hposes : ∀ p ∈ s.graph.getAllVariables, VarLike.isConst (F := ℝ) (s.heap p) = false → ∃ v, s.heap p = .pose v ∧ IsRotation v.dcm)
    (hall : ∀ f ∈ s.graph.getAllFactors, (∃ p, GivesPosition s.heap f p) ∨ (∃ p, GivesOrientation s.heap f p) ∨
      (∃ l a b, GivesShift s.heap f l a b ∧ (l = true → Oriented s.heap s.graph.getAllFactors a)) ∨ ∃ a b, GivesTurn s.heap f a b)
    (hseen : ∃ f ∈ s.graph.getAllFactors, ∃ q, some q ∈ f.variables ∧ VarLike.isConst (F := ℝ) (s.heap q) = false)
    {p : VRef} (hpv : p ∈ s.graph.getAllVariables) (hc : VarLike.isConst (F := ℝ) (s.heap p) = false)
    (hno : ¬ Oriented s.heap s.graph.getAllFactors p ∨ ¬ Positioned s.heap s.graph.getAllFactors p) :
    ∃ s', optimize realArith L env s = (s', .ok ()) ∧ s'.heap = s.heap ∧ s'.opt.stats.status = .failed ∧
      ∃ s'', prepare realArith L s' = (s'', .ok ()) ∧ ∀ v, estimateCovariance realArith L s'' v = .ok none := by
  obtain ⟨h0, pre, post, hw, hpre⟩ := hp.history
  obtain ⟨s', h1, h2, h3, _, _, h4⟩ := C76_undetermined hL env s hw hpre hp.ids hp.noRepeats hp.safe hp.proper hp.graph hm hpos r hr J
    hlin hseen ((C138 (C111.closed hp).1 (C111.closed hp).2 hlin hposes hall).2 ⟨p, hpv, hc, hno⟩)
  exact ⟨s', h1, h2, h3, h4 hv⟩

example (gp : Bool) (p q z m : V3) {σ : ℝ} (hσ : σ ≠ 0) (st : Settings ℝ) (hm : st.method = .gaussNewton)
    (hpos : 0 < st.maxIterations) (env : Env ℝ RVar) :
    ∃ s', optimize realArith Ldlt.linAlg env (routed gp false p q z m σ false st) = (s', .ok ()) ∧
      s'.heap = (routed gp false p q z m σ false st).heap ∧ s'.opt.stats.status = .failed := by
  obtain ⟨r, J, hr, hlin⟩ := routed_linearised gp false p q z m σ false st
  obtain ⟨s', h1, h2, h3, _⟩ := C138_run Ldlt.exact env (routed gp false p q z m σ false st) (routed_prepared ..) hm hpos rfl r
    (hr env) J hlin (fun r hr hc => (routed_poses _ _ _ _ _ _ _ _ _ r hr hc).2) (routed_all _ _ _ _ _ _ _ _ _ hσ (by simp))
    (by
      rw [routed_facs, routed_heap]
      exact ⟨Fac.posePositionBetween 13 0 1 2 σ false, by simp [RouteWorld.facs], 0, by simp [Fac.posePositionBetween], rfl⟩)
    (p := 0) (by rw [routed_vars]; simp) (by rw [routed_heap]; rfl)
    (.inl (by rw [routed_facs, routed_heap]; exact fun hr => (routed_unoriented gp p q z m σ false hσ hr).1 rfl))
  exact ⟨s', h1, h2, h3⟩

end

end Factorama.Props
