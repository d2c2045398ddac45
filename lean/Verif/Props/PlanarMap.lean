import Verif.Lemmas.PlanarMap
import Verif.Props.Optimum
import Verif.Props.FactorsPlanar
import Verif.Props.Frame
import Verif.Props.Resection
import Verif.Examples.TrackWorld

/-!
# C137: maps of the plane

What can be located step by step is determined; for graphs of poses only, nothing else is.
-/

namespace Factorama.Props
open Spec Opt Graph Matrix Geo

/-! ### Two poses -/

/-- An optimizer on two poses whose relative pose is measured, and the first pose (`given`) or the relative pose once more. -/
noncomputable def tracked (given : Bool) (p q : V2) (θ φ : ℝ) (z m : V3) (σ : ℝ) (localFrame : Bool) (st : Settings ℝ) :
    OptWorld ℝ RVar (Ldlt.Fact ℝ) :=
  ⟨(TrackWorld.world given p q θ φ z m σ localFrame).heap, (TrackWorld.world given p q θ φ z m σ localFrame).graph,
    { Optimizer.init realArith with hasGraph := true, complete := true, settings := st }⟩

section
variable (given : Bool) (p q : V2) (θ φ : ℝ) (z m : V3) (σ : ℝ) (localFrame : Bool) (st : Settings ℝ)

theorem tracked_heap : (tracked given p q θ φ z m σ localFrame st).heap = TrackWorld.heap p q θ φ z := TrackWorld.heap_eq ..

theorem tracked_vars : (tracked given p q θ φ z m σ localFrame st).graph.getAllVariables = [0, 1, 2] := TrackWorld.vars_eq ..

theorem tracked_facs : (tracked given p q θ φ z m σ localFrame st).graph.getAllFactors = TrackWorld.facs given m σ localFrame :=
  TrackWorld.facs_eq ..

theorem track_built : ∀ f ∈ TrackWorld.facs given m σ localFrame, (∃ k, Built (TrackWorld.heap p q θ φ z) k f) ∧ 0 < f.residualSize ∧
    ∀ r, some r ∈ f.variables → 0 < VarLike.size (F := ℝ) (TrackWorld.heap p q θ φ z r) := by
  intro f hf
  have hsz : ∀ r, 0 < VarLike.size (F := ℝ) (TrackWorld.heap p q θ φ z r) := by
    intro r
    match r with
    | 0 => exact Nat.succ_pos 2
    | 1 => exact Nat.succ_pos 2
    | _ + 2 => exact Nat.succ_pos 2
  simp only [TrackWorld.facs, List.mem_cons, List.not_mem_nil, or_false] at hf
  rcases hf with rfl | rfl
  · cases given
    · exact ⟨⟨_, .pose2DBetween _ _ _ _ _ _ _ rfl rfl rfl⟩, Nat.succ_pos 2, fun r _ => hsz r⟩
    · exact ⟨⟨_, .pose2DPrior _ _ _ _ _ rfl⟩, Nat.succ_pos 2, fun r _ => hsz r⟩
  · exact ⟨⟨_, .pose2DBetween _ _ _ _ _ _ _ rfl rfl rfl⟩, Nat.succ_pos 2, fun r _ => hsz r⟩

theorem tracked_prepared : Prepared (tracked given p q θ φ z m σ localFrame st) := by
  refine ⟨⟨_, _, _, TrackWorld.finalizedAfter .., TrackWorld.noJacobianYet ..⟩, TrackWorld.identify _ _ _ _ _ _ _ _ _,
    TrackWorld.noRepeats _ _ _ _ _ _ _ _ _, ?_, ?_, rfl⟩
  · rw [tracked_facs]
    intro f hf
    obtain ⟨⟨k, hk⟩, _⟩ := track_built given p q θ φ z m σ localFrame f hf
    exact C57_reuse _ k f hk
  · rw [tracked_facs, tracked_heap]
    intro h hs f hf js hj
    obtain ⟨⟨k, hk⟩, hz⟩ := track_built given p q θ φ z m σ localFrame f hf
    exact C57_proper hk hs hz hj

theorem prior_jacobians {h : Heap RVar} {p : VRef} {v : Pose2DVar} (hv : h p = .pose2d v) (id : Int) (prior : V3) (ps as : ℝ) :
    ∃ js, (Fac.pose2DPrior id p prior ps as).computeJacobians h [] = .ok js := by
  simp only [Fac.pose2DPrior, hv]
  exact ⟨_, fillBlocks_ok rfl⟩

theorem between_jacobians {h : Heap RVar} {a b : VRef} {va vb : Pose2DVar} (ha : h a = .pose2d va) (hb : h b = .pose2d vb) (id : Int) (m : VRef)
    (ps as : ℝ) (localFrame : Bool) : ∃ js, (Fac.pose2DBetween id a b m ps as localFrame).computeJacobians h [] = .ok js := by
  simp only [Fac.pose2DBetween, ha, hb]
  exact ⟨_, fillBlocks_ok rfl⟩

theorem between_evaluates (id : Int) (ps as : ℝ) : ∃ r js, (Fac.pose2DBetween id 0 1 2 ps as localFrame).computeResidual (TrackWorld.heap p q θ φ z) = .ok r ∧
    r.length = 3 ∧ (Fac.pose2DBetween id 0 1 2 ps as localFrame).computeJacobians (TrackWorld.heap p q θ φ z) [] = .ok js := by
  obtain ⟨js, hj⟩ := between_jacobians (h := TrackWorld.heap p q θ φ z) (a := 0) (b := 1) rfl rfl id 2 ps as localFrame
  exact ⟨_, js, between2d_residual (va := ⟨1, false, p, θ⟩) (vb := ⟨2, false, q, φ⟩) (x := z) rfl rfl rfl id ps as localFrame, rfl, hj⟩

theorem tracked_linearised :
    ∃ r J, (∀ env : Env ℝ RVar, (computeResidual env (tracked given p q θ φ z m σ localFrame st).heap
        (tracked given p q θ φ z m σ localFrame st).graph).2 = .ok r) ∧
      Linearised (tracked given p q θ φ z m σ localFrame st).heap (tracked given p q θ φ z m σ localFrame st).graph.getAllVariables
        (tracked given p q θ φ z m σ localFrame st).graph.getAllFactors r J := by
  have hp := tracked_prepared given p q θ φ z m σ localFrame st
  have he : ∀ f ∈ TrackWorld.facs given m σ localFrame, ∃ r js, f.computeResidual (TrackWorld.heap p q θ φ z) = .ok r ∧
      r.length = f.residualSize ∧ f.computeJacobians (TrackWorld.heap p q θ φ z) [] = .ok js := by
    intro f hf
    simp only [TrackWorld.facs, List.mem_cons, List.not_mem_nil, or_false] at hf
    rcases hf with rfl | rfl
    · cases given
      · exact between_evaluates ..
      · obtain ⟨js, hj⟩ := prior_jacobians (h := TrackWorld.heap p q θ φ z) (p := 0) rfl 11 m σ σ
        exact ⟨_, js, rfl, rfl, hj⟩
    · exact between_evaluates ..
  obtain ⟨r, J, hlin⟩ := C26.linearised hp (fun f hf => by
    rw [tracked_facs] at hf
    rw [tracked_heap]
    obtain ⟨r, _, h1, h2, _⟩ := he f hf
    exact ⟨r, h1, h2⟩) (fun f hf => by
    rw [tracked_facs] at hf
    rw [tracked_heap]
    obtain ⟨_, js, _, _, h1⟩ := he f hf
    exact ⟨js, h1⟩) (by
    rw [tracked_facs, tracked_heap]
    exact ⟨_, .tail _ (.head _), 0, by simp [Fac.pose2DBetween], rfl⟩)
  refine ⟨r, J, fun env => ?_, hlin⟩
  obtain ⟨h0, pre, post, hw, hpre⟩ := hp.history
  obtain ⟨segs, g1, g2, rfl⟩ := hlin.residual
  obtain ⟨⟨g', e, _⟩, _⟩ := C05_residual hw segs g1 g2 env
  exact congrArg Prod.snd e

theorem tracked_poses : ∀ r ∈ (tracked given p q θ φ z m σ localFrame st).graph.getAllVariables,
    VarLike.isConst (F := ℝ) ((tracked given p q θ φ z m σ localFrame st).heap r) = false →
    (r = 0 ∨ r = 1) ∧ ∃ v, (tracked given p q θ φ z m σ localFrame st).heap r = .pose2d v := by
  rw [tracked_vars, tracked_heap]
  intro r hr hc
  simp only [List.mem_cons, List.not_mem_nil, or_false] at hr
  rcases hr with rfl | rfl | rfl
  · exact ⟨.inl rfl, _, rfl⟩
  · exact ⟨.inr rfl, _, rfl⟩
  · cases hc

theorem track_motion (hσ : σ ≠ 0) (id : Int) :
    GivesMotion (TrackWorld.heap p q θ φ z) (Fac.pose2DBetween id 0 1 2 σ σ localFrame) 0 1 :=
  .mk hσ hσ (by decide) rfl rfl rfl

theorem tracked_all (hσ : σ ≠ 0) : ∀ f ∈ (tracked given p q θ φ z m σ localFrame st).graph.getAllFactors,
    (∃ r, GivesPose (tracked given p q θ φ z m σ localFrame st).heap f r) ∨
    ∃ a b, GivesMotion (tracked given p q θ φ z m σ localFrame st).heap f a b := by
  rw [tracked_facs, tracked_heap]
  intro f hf
  simp only [TrackWorld.facs, List.mem_cons, List.not_mem_nil, or_false] at hf
  rcases hf with rfl | rfl
  · cases given
    · exact .inr ⟨0, 1, track_motion p q θ φ z σ localFrame hσ 11⟩
    · exact .inl ⟨0, .mk hσ hσ rfl⟩
  · exact .inr ⟨0, 1, track_motion p q θ φ z σ localFrame hσ 12⟩

/-- If nothing but the relative pose is measured, neither pose is reached. -/
theorem tracked_adrift {r : VRef} (hr : Reached (TrackWorld.heap p q θ φ z) (TrackWorld.facs false m σ localFrame) r) : r ≠ 0 ∧ r ≠ 1 := by
  have hv : ∀ {f}, f ∈ TrackWorld.facs false m σ localFrame → f.variables = [some 0, some 1, some 2] := by
    intro f hf
    simp only [TrackWorld.facs, List.mem_cons, List.not_mem_nil, or_false] at hf
    rcases hf with rfl | rfl <;> rfl
  induction hr with
  | @known r hc =>
    match r with
    | 0 => cases hc
    | 1 => cases hc
    | r + 2 => exact ⟨nofun, fun e => Nat.noConfusion (Nat.succ.inj e)⟩
  | given hf hs => have := hv hf; cases hs; simp [Fac.pose2DPrior] at this
  | ahead hf hs _ ih =>
    have := hv hf; cases hs
    simp only [Fac.pose2DBetween, List.cons.injEq, Option.some.injEq] at this; exact absurd this.1 ih.1
  | back hf hs _ ih =>
    have := hv hf; cases hs
    simp only [Fac.pose2DBetween, List.cons.injEq, Option.some.injEq] at this; exact absurd this.2.1 ih.2

end

theorem Spec.Reached.located {h : Heap RVar} {facs : List (Factor ℝ RVar)} {p : VRef} (hp : Reached h facs p) : Located h facs p := by
  induction hp with
  | known hc => exact .known hc
  | given hf hs => exact .given hf hs
  | ahead hf hs _ ih => exact .ahead hf hs ih
  | back hf hs _ ih => exact .back hf hs ih

section
variable {Fact : Type} {L : LinAlg ℝ Fact}

/-- **C137, sufficiency.** Whatever else is in the graph: if every free variable can be located step by step, the problem is
determined. -/
theorem C137_located {h : Heap RVar} {vars : List VRef} {facs : List (Factor ℝ RVar)} (hn : vars.Nodup)
    (hclosed : ∀ f ∈ facs, ∀ q, some q ∈ f.variables → VarLike.isConst (F := ℝ) (h q) = false → q ∈ vars) {r : List ℝ} {J : SpMat ℝ}
    (hlin : Linearised h vars facs r J)
    (hall : ∀ p ∈ vars, VarLike.isConst (F := ℝ) (h p) = false → Located h facs p) : ¬ Undetermined J := by
  intro hu
  obtain ⟨x, hk, p, hp, hc, j, hj, hne⟩ := hu.kernel hn hlin
  exact hne ((hall p hp hc).part hn hlin hclosed hk j hj)

/-- A pose that is given and a landmark that is seen from it, with its distance. -/
example {σ : ℝ} (hσ : σ ≠ 0) (θ range bearing : ℝ) (x : V2) (t : ℝ) (st : Settings ℝ) :
    ∃ r J, Linearised (C105.planar 0 θ ![1, 2] x t range bearing σ st).heap (C105.planar 0 θ ![1, 2] x t range bearing σ st).graph.getAllVariables
      (C105.planar 0 θ ![1, 2] x t range bearing σ st).graph.getAllFactors r J ∧ ¬ Undetermined J := by
  have hp := C105.planar_prepared 0 θ ![1, 2] x t range bearing σ st
  have eh : (C105.planar 0 θ ![1, 2] x t range bearing σ st).heap = PlanarWorld.heap 0 θ 1 2 := PlanarWorld.heap_eq ..
  have ef : (C105.planar 0 θ ![1, 2] x t range bearing σ st).graph.getAllFactors = PlanarWorld.facs ![x 0, x 1, t] range bearing σ :=
    PlanarWorld.facs_eq ..
  have ev : (C105.planar 0 θ ![1, 2] x t range bearing σ st).graph.getAllVariables = [0, 1] := PlanarWorld.vars_eq ..
  have hvec : IsVector (PlanarWorld.heap 0 θ 1 2 1) (![1, 2] : V2) := .inl ⟨_, rfl, by simp [toList]⟩
  obtain ⟨r, J, hlin⟩ := C26.linearised hp (fun f hf => by
    rw [ef] at hf
    rw [eh]
    simp only [PlanarWorld.facs, List.mem_cons, List.not_mem_nil, or_false] at hf
    rcases hf with rfl | rfl
    · exact ⟨_, rfl, rfl⟩
    · exact ⟨_, range_bearing_residual (v := ⟨1, false, 0, θ⟩) rfl hvec _ _ _ _ _, rfl⟩) (fun f hf => by
    rw [ef] at hf
    rw [eh]
    simp only [PlanarWorld.facs, List.mem_cons, List.not_mem_nil, or_false] at hf
    rcases hf with rfl | rfl
    · exact prior_jacobians (v := ⟨1, false, 0, θ⟩) rfl _ _ _ _
    · have e := (deltaLocal_back ⟨1, false, 0, θ⟩ ![1, 2]).2.2.2.2
      simp only [Fac.rangeBearing2D, show PlanarWorld.heap 0 θ 1 2 0 = .pose2d ⟨1, false, 0, θ⟩ from rfl, (vector_value hvec).1,
        head2_toList, Res.andThen]
      rw [if_neg (by
        rw [e, not_lt]
        refine le_trans (by norm_num) (Real.one_le_sqrt.2 ?_)
        norm_num)]
      exact ⟨_, fillBlocks_ok rfl⟩) (by
    rw [ef, eh]
    exact ⟨_, .head _, 0, by simp [Fac.pose2DPrior], rfl⟩)
  refine ⟨r, J, hlin, C137_located (C111.closed hp).1 (C111.closed hp).2 hlin ?_⟩
  rw [ev, ef, eh]
  have h0 : Located (PlanarWorld.heap 0 θ 1 2) (PlanarWorld.facs ![x 0, x 1, t] range bearing σ) 0 :=
    .given (.head _) (.mk hσ hσ (v := ⟨1, false, 0, θ⟩) rfl)
  intro p hp _
  simp only [List.mem_cons, List.not_mem_nil, or_false] at hp
  rcases hp with rfl | rfl
  · exact h0
  · exact .place (.tail _ (.head _)) (.mk hσ hσ (v := ⟨1, false, 0, θ⟩) rfl hvec) h0

/-- A pose that sees three known landmarks is located by their directions, without a prior. -/
example {σ : ℝ} (hσ : σ ≠ 0) (st : Settings ℝ) :
    Located (resected false ![1, 0] ![0, 1] ![-1, 0] σ st).heap (resected false ![1, 0] ![0, 1] ![-1, 0] σ st).graph.getAllFactors 0 := by
  rw [resected_heap, resected_facs]
  refine .resection (fun l => l = 1 ∨ l = 2 ∨ l = 3) ?_ ⟨_, rfl⟩ fun a n hne => ?_
  · rintro l (rfl | rfl | rfl) <;> exact .known rfl
  · refine Classical.byContradiction fun hno => ?_
    have hon : ∀ f ∈ ResectWorld.facs false σ, ∀ l c x, (l = 1 ∨ l = 2 ∨ l = 3) →
        GivesDirection (ResectWorld.heap ![1, 0] ![0, 1] ![-1, 0]) f 0 l c x → OnCurve a n c x := fun f hf l c x hl hs =>
      Classical.byContradiction fun h => hno ⟨f, hf, l, c, x, hl, .inl ⟨hs, h⟩⟩
    have e1 := hon _ (.head _) 1 _ ![1, 0] (.inl rfl) (GivesDirection.mk (v := ⟨1, false, 0, 0⟩) hσ rfl (.inl ⟨_, rfl, rfl⟩))
    have e2 := hon _ (.tail _ (.head _)) 2 _ ![0, 1] (.inr (.inl rfl)) (GivesDirection.mk (v := ⟨1, false, 0, 0⟩) hσ rfl (.inl ⟨_, rfl, rfl⟩))
    have e3 := hon _ (.tail _ (.tail _ (.head _))) 3 _ ![-1, 0] (.inr (.inr rfl))
      (GivesDirection.mk (v := ⟨1, false, 0, 0⟩) hσ rfl (.inl ⟨_, rfl, rfl⟩))
    norm_num [OnCurve] at e1 e2 e3
    have ha : a = 0 := by linarith
    refine hne.elim (fun h => h ha) fun h => h ?_
    funext i
    match i with
    | 0 => show n 0 = 0; linarith
    | 1 => show n 1 = 0; linarith

/-- **C137.** A graph of planar poses in which poses and relative poses are measured is undetermined exactly if some free pose
is not reached from a known or measured one. -/
theorem C137 {h : Heap RVar} {vars : List VRef} {facs : List (Factor ℝ RVar)} (hn : vars.Nodup)
    (hclosed : ∀ f ∈ facs, ∀ q, some q ∈ f.variables → VarLike.isConst (F := ℝ) (h q) = false → q ∈ vars) {r : List ℝ} {J : SpMat ℝ}
    (hlin : Linearised h vars facs r J)
    (hposes : ∀ p ∈ vars, VarLike.isConst (F := ℝ) (h p) = false → ∃ v, h p = .pose2d v)
    (hall : ∀ f ∈ facs, (∃ p, GivesPose h f p) ∨ ∃ a b, GivesMotion h f a b) :
    Undetermined J ↔ ∃ p ∈ vars, VarLike.isConst (F := ℝ) (h p) = false ∧ ¬ Reached h facs p := by
  constructor
  · intro hu
    refine Classical.byContradiction fun hno => C137_located hn hclosed hlin (fun p hp hc => ?_) hu
    exact Spec.Reached.located (Classical.byContradiction fun hr => hno ⟨p, hp, hc, hr⟩)
  · rintro ⟨p, hp, hc, hr⟩
    classical
    let x : Nat → ℝ := fun c => if ∃ q ∈ vars, VarLike.isConst (F := ℝ) (h q) = false ∧ ¬ Reached h facs q ∧ c = colStart h vars q then 1 else 0
    have hsz : ∀ q ∈ vars, VarLike.isConst (F := ℝ) (h q) = false → VarLike.size (F := ℝ) (h q) = 3 := by
      intro q hq hqc
      obtain ⟨v, hv⟩ := hposes q hq hqc
      rw [hv]; rfl
    have hpart : ∀ q, (VarLike.isConst (F := ℝ) (h q) = false → q ∈ vars) →
        (fun j : Fin 3 => columnPart h vars x q j) = if Reached h facs q then 0 else ![1, 0, 0] := by
      intro q hq
      cases hqc : VarLike.isConst (F := ℝ) (h q) with
      | true =>
        rw [if_pos (.known hqc)]
        funext j
        rw [columnPart, if_pos hqc]; rfl
      | false =>
        have hq := hq hqc
        have hj : ∀ j : Fin 3, columnPart h vars x q j = if j = 0 ∧ ¬ Reached h facs q then 1 else 0 := by
          intro j
          rw [columnPart, hqc, if_neg Bool.false_ne_true]
          refine if_congr ⟨?_, ?_⟩ rfl rfl
          · rintro ⟨q', hq', hqc', hr', e⟩
            obtain ⟨rfl, e0⟩ := column_inj hq hq' hqc hqc' (i := j) (j := 0) (by rw [hsz q hq hqc]; exact j.2)
              (by rw [hsz q' hq' hqc']; omega) e
            exact ⟨Fin.ext e0, hr'⟩
          · rintro ⟨rfl, hr'⟩
            exact ⟨q, hq, hqc, hr', rfl⟩
        by_cases hr' : Reached h facs q
        · rw [if_pos hr']
          funext j
          rw [hj, if_neg (fun e => e.2 hr')]; rfl
        · rw [if_neg hr']
          funext j
          rw [hj]
          match j with
          | 0 => exact if_pos ⟨rfl, hr'⟩
          | 1 => exact if_neg fun e => absurd e.1 (by decide)
          | 2 => exact if_neg fun e => absurd e.1 (by decide)
    have hlt := column_lt hp hc (j := 0) (by rw [hsz p hp hc]; omega)
    refine undetermined_of_kernel (x := x) (fun a ha => ?_) (c := colStart h vars p) (by rw [hlin.columns]; exact hlt) ?_
    swap
    · simp only [x]
      rw [if_pos ⟨p, hp, hc, hr, rfl⟩]
      exact one_ne_zero
    obtain ⟨k, f, i, hk, hi, rfl⟩ := exists_row (a := a) (by rw [← hlin.rows]; exact ha)
    have hf := List.mem_of_getElem? hk
    obtain ⟨B, hB, hS⟩ := hlin.jacobian
    have hbs := (hB k f hk).1
    rcases hall f hf with ⟨q, hs⟩ | ⟨a, b, hs⟩
    · have hq : Reached h facs q := .given hf hs
      cases hs with
      | @mk id _ prior ps as v h1 h2 hv =>
        rw [factor_row hn hlin hk (n := 1) (vr := fun _ => q) (M := fun s => (B k).getD s Mat.empty) rfl (fun s hs t ht _ _ => by omega)
          (fun s _ => hclosed _ hf q (by simp [Fac.pose2DPrior])) hbs (fun s hs hqc => ?_) hi x]
        · rw [Finset.sum_range_one]
          refine Finset.sum_eq_zero fun j hj => ?_
          have h3 : VarLike.size (F := ℝ) (h q) = 3 := by rw [hv]; rfl
          rw [h3, Finset.mem_range] at hj
          have := congrFun (hpart q (hclosed _ hf q (by simp [Fac.pose2DPrior]))) ⟨j, hj⟩
          rw [if_pos hq] at this
          exact mul_eq_zero_of_right _ this
        · have e := (hB k _ hk).1
          simp only [Fac.pose2DPrior, hv] at e
          obtain e := Res.ok.inj ((fillBlocks_ok rfl).symm.trans e)
          obtain rfl : s = 0 := by omega
          rw [← e]
          rfl
    · have hab : Reached h facs a ↔ Reached h facs b := ⟨.ahead hf hs, .back hf hs⟩
      cases hs with
      | @mk id _ _ m ps as localFrame va vb h1 h2 hne hm hva hvb =>
        have e := (hB k _ hk).1
        simp only [Fac.pose2DBetween, hva, hvb] at e
        obtain e := Res.ok.inj ((fillBlocks_ok rfl).symm.trans e)
        have key := two_rows hn hlin hk (a := a) (b := b) (others := [some m]) rfl (by simp [hm]) (by simp) hne (hclosed _ hf) (m := 3)
          (n1 := 3) (n2 := 3) rfl (by rw [hva]; rfl) (by rw [hvb]; rfl) (by rw [hva, hvb, (hB k _ hk).1, ← e]) x ⟨i, hi⟩
        refine key.trans ?_
        rw [hpart a (hclosed _ hf a (by simp [Fac.pose2DBetween])), hpart b (hclosed _ hf b (by simp [Fac.pose2DBetween]))]
        by_cases hra : Reached h facs a
        · rw [if_pos hra, if_pos (hab.1 hra), mulVec_zero, mulVec_zero]
          exact add_zero _
        · rw [if_neg hra, if_neg (fun h => hra (hab.2 h))]
          change i < 3 at hi
          cases localFrame <;> match i, hi with
          | 0, _ => simp [mulVec, dotProduct, Fin.sum_univ_three]
          | 1, _ => simp [mulVec, dotProduct, Fin.sum_univ_three]
          | 2, _ => simp [mulVec, dotProduct, Fin.sum_univ_three]

/-- Two poses and their relative pose: determined if the first pose is measured, undetermined if not. -/
example (given : Bool) (p q : V2) (θ φ : ℝ) (z m : V3) {σ : ℝ} (hσ : σ ≠ 0) (localFrame : Bool) (st : Settings ℝ) :
    ∃ r J, Linearised (tracked given p q θ φ z m σ localFrame st).heap (tracked given p q θ φ z m σ localFrame st).graph.getAllVariables
      (tracked given p q θ φ z m σ localFrame st).graph.getAllFactors r J ∧ (Undetermined J ↔ given = false) := by
  obtain ⟨r, J, _, hlin⟩ := tracked_linearised given p q θ φ z m σ localFrame st
  have hcl := C111.closed (tracked_prepared given p q θ φ z m σ localFrame st)
  refine ⟨r, J, hlin, ?_⟩
  rw [C137 hcl.1 hcl.2 hlin (fun r hr hc => (tracked_poses _ _ _ _ _ _ _ _ _ _ r hr hc).2) (tracked_all _ _ _ _ _ _ _ _ _ _ hσ)]
  constructor
  · rintro ⟨u, hu, hc, hr⟩
    cases given with
    | false => rfl
    | true =>
      exfalso
      have h01 := (tracked_poses _ _ _ _ _ _ _ _ _ _ u hu hc).1
      rw [tracked_facs, tracked_heap] at hr
      have h0 : Reached (TrackWorld.heap p q θ φ z) (TrackWorld.facs true m σ localFrame) 0 := .given (.head _) (.mk hσ hσ rfl)
      rcases h01 with rfl | rfl
      · exact hr h0
      · exact hr (.ahead (.tail _ (.head _)) (track_motion p q θ φ z σ localFrame hσ 12) h0)
  · rintro rfl
    refine ⟨0, by rw [tracked_vars]; simp, by rw [tracked_heap]; rfl, ?_⟩
    rw [tracked_facs, tracked_heap]
    exact fun hr => (tracked_adrift p q θ φ z m σ localFrame hr).1 rfl

/-- **C137, the solver.** Without rounding, the matrix of a Gauss-Newton step can be factorised exactly if every free pose is
reached. -/
theorem C137_factorizes (hL : ExactLinAlg L) {h : Heap RVar} {vars : List VRef} {facs : List (Factor ℝ RVar)} (hn : vars.Nodup)
    (hclosed : ∀ f ∈ facs, ∀ q, some q ∈ f.variables → VarLike.isConst (F := ℝ) (h q) = false → q ∈ vars) {r : List ℝ} {J : SpMat ℝ}
    (hlin : Linearised h vars facs r J)
    (hposes : ∀ p ∈ vars, VarLike.isConst (F := ℝ) (h p) = false → ∃ v, h p = .pose2d v)
    (hall : ∀ f ∈ facs, (∃ p, GivesPose h f p) ∨ ∃ a b, GivesMotion h f a b) :
    (∃ F, L.factorize (L.gram J) = some F) ↔ ∀ p ∈ vars, VarLike.isConst (F := ℝ) (h p) = false → Reached h facs p := by
  rw [factorizes_iff hL, C137 hn hclosed hlin hposes hall]
  push Not
  rfl

example (p q : V2) (θ φ : ℝ) (z m : V3) {σ : ℝ} (hσ : σ ≠ 0) (localFrame : Bool) (st : Settings ℝ) :
    ∃ r J, Linearised (tracked true p q θ φ z m σ localFrame st).heap (tracked true p q θ φ z m σ localFrame st).graph.getAllVariables
      (tracked true p q θ φ z m σ localFrame st).graph.getAllFactors r J ∧
      ∃ F, (Ldlt.linAlg : LinAlg ℝ (Ldlt.Fact ℝ)).factorize ((Ldlt.linAlg : LinAlg ℝ (Ldlt.Fact ℝ)).gram J) = some F := by
  obtain ⟨r, J, _, hlin⟩ := tracked_linearised true p q θ φ z m σ localFrame st
  have hcl := C111.closed (tracked_prepared true p q θ φ z m σ localFrame st)
  refine ⟨r, J, hlin, (C137_factorizes Ldlt.exact hcl.1 hcl.2 hlin (fun r hr hc => (tracked_poses _ _ _ _ _ _ _ _ _ _ r hr hc).2)
    (tracked_all _ _ _ _ _ _ _ _ _ _ hσ)).2 fun u hu hc => ?_⟩
  have h01 := (tracked_poses _ _ _ _ _ _ _ _ _ _ u hu hc).1
  rw [tracked_facs, tracked_heap]
  have h0 : Reached (TrackWorld.heap p q θ φ z) (TrackWorld.facs true m σ localFrame) 0 := .given (.head _) (.mk hσ hσ rfl)
  rcases h01 with rfl | rfl
  · exact h0
  · exact .ahead (.tail _ (.head _)) (track_motion p q θ φ z σ localFrame hσ 12) h0

/-- **C137, the run.** If some free pose is not reached, a Gauss-Newton run moves nothing and reports FAILED, and no covariance
is reported. -/
theorem C137_run (hL : ExactLinAlg L) (env : Env ℝ RVar) (s : OptWorld ℝ RVar Fact) (hp : Prepared s)
    (hm : s.opt.settings.method = .gaussNewton) (hpos : 0 < s.opt.settings.maxIterations) (hv : s.opt.hessianValid = false)
    (r : List ℝ) (hr : (computeResidual env s.heap s.graph).2 = .ok r)
    (J : SpMat ℝ) (hlin : Linearised s.heap s.graph.getAllVariables s.graph.getAllFactors r J)
    (hposes : ∀ p ∈ s.graph.getAllVariables, VarLike.isConst (F := ℝ) (s.heap p) = false → ∃ v, s.heap p = .pose2d v)
    (hall : ∀ f ∈ s.graph.getAllFactors, (∃ p, GivesPose s.heap f p) ∨ ∃ a b, GivesMotion s.heap f a b)
    (hseen : ∃ f ∈ s.graph.getAllFactors, ∃ q, some q ∈ f.variables ∧ VarLike.isConst (F := ℝ) (s.heap q) = false)
    {p : VRef} (hpv : p ∈ s.graph.getAllVariables) (hc : VarLike.isConst (F := ℝ) (s.heap p) = false)
    (hno : ¬ Reached s.heap s.graph.getAllFactors p) :
    ∃ s', optimize realArith L env s = (s', .ok ()) ∧ s'.heap = s.heap ∧ s'.opt.stats.status = .failed ∧
      ∃ s'', prepare realArith L s' = (s'', .ok ()) ∧ ∀ v, estimateCovariance realArith L s'' v = .ok none := by
  obtain ⟨h0, pre, post, hw, hpre⟩ := hp.history
  obtain ⟨s', h1, h2, h3, _, _, h4⟩ := C76_undetermined hL env s hw hpre hp.ids hp.noRepeats hp.safe hp.proper hp.graph hm hpos r hr J
    hlin hseen ((C137 (C111.closed hp).1 (C111.closed hp).2 hlin hposes hall).2 ⟨p, hpv, hc, hno⟩)
  exact ⟨s', h1, h2, h3, h4 hv⟩

example (p q : V2) (θ φ : ℝ) (z m : V3) {σ : ℝ} (hσ : σ ≠ 0) (localFrame : Bool) (st : Settings ℝ) (hm : st.method = .gaussNewton)
    (hpos : 0 < st.maxIterations) (env : Env ℝ RVar) :
    ∃ s', optimize realArith Ldlt.linAlg env (tracked false p q θ φ z m σ localFrame st) = (s', .ok ()) ∧
      s'.heap = (tracked false p q θ φ z m σ localFrame st).heap ∧ s'.opt.stats.status = .failed := by
  obtain ⟨r, J, hr, hlin⟩ := tracked_linearised false p q θ φ z m σ localFrame st
  obtain ⟨s', h1, h2, h3, _⟩ := C137_run Ldlt.exact env (tracked false p q θ φ z m σ localFrame st) (tracked_prepared ..) hm hpos rfl r
    (hr env) J hlin (fun r hr hc => (tracked_poses _ _ _ _ _ _ _ _ _ _ r hr hc).2) (tracked_all _ _ _ _ _ _ _ _ _ _ hσ)
    (by rw [tracked_facs, tracked_heap]; exact ⟨_, .tail _ (.head _), 0, by simp [Fac.pose2DBetween], rfl⟩)
    (p := 0) (by rw [tracked_vars]; simp) (by rw [tracked_heap]; rfl)
    (by rw [tracked_facs, tracked_heap]; exact fun hr => (tracked_adrift p q θ φ z m σ localFrame hr).1 rfl)
  exact ⟨s', h1, h2, h3⟩

end

end Factorama.Props
