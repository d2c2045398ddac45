import Verif.Lemmas.Resection
import Verif.Lemmas.Network
import Verif.Props.Optimum
import Verif.Props.FactorsPlanar
import Verif.Examples.ResectWorld

/-!
# C136: resection in the plane

What the directions and distances of known landmarks say about the pose from which they are seen.
-/

namespace Factorama.Props
open Spec Opt Graph Matrix Geo

/-! ### A pose that sees three known landmarks -/

/-- An optimizer on the graph. -/
noncomputable def resected (ranged : Bool) (x y z : V2) (σ : ℝ) (st : Settings ℝ) : OptWorld ℝ RVar (Ldlt.Fact ℝ) :=
  ⟨(ResectWorld.world ranged x y z σ).heap, (ResectWorld.world ranged x y z σ).graph,
    { Optimizer.init realArith with hasGraph := true, complete := true, settings := st }⟩

theorem resected_heap (ranged : Bool) (x y z : V2) (σ : ℝ) (st : Settings ℝ) :
    (resected ranged x y z σ st).heap = ResectWorld.heap x y z := ResectWorld.heap_eq ..

theorem resected_vars (ranged : Bool) (x y z : V2) (σ : ℝ) (st : Settings ℝ) :
    (resected ranged x y z σ st).graph.getAllVariables = [0, 1, 2, 3] := ResectWorld.vars_eq ..

theorem resected_facs (ranged : Bool) (x y z : V2) (σ : ℝ) (st : Settings ℝ) :
    (resected ranged x y z σ st).graph.getAllFactors = ResectWorld.facs ranged σ := ResectWorld.facs_eq ..

/-- Every factor looks at one of the three landmarks. -/
theorem resect_mem {ranged : Bool} {σ : ℝ} {f : Factor ℝ RVar} (x y z : V2) (hf : f ∈ ResectWorld.facs ranged σ) :
    ∃ id l t, f = ResectWorld.look ranged σ id l ∧ IsVector (ResectWorld.heap x y z l) t ∧
      VarLike.isConst (F := ℝ) (ResectWorld.heap x y z l) = true ∧ VarLike.size (F := ℝ) (ResectWorld.heap x y z l) = 2 ∧
      (t = x ∨ t = y ∨ t = z) := by
  simp only [ResectWorld.facs, List.mem_cons, List.not_mem_nil, or_false] at hf
  rcases hf with rfl | rfl | rfl
  · exact ⟨_, _, x, rfl, .inl ⟨_, rfl, rfl⟩, rfl, rfl, .inl rfl⟩
  · exact ⟨_, _, y, rfl, .inl ⟨_, rfl, rfl⟩, rfl, rfl, .inr (.inl rfl)⟩
  · exact ⟨_, _, z, rfl, .inl ⟨_, rfl, rfl⟩, rfl, rfl, .inr (.inr rfl)⟩

theorem resect_built (ranged : Bool) (x y z : V2) (σ : ℝ) : ∀ f ∈ ResectWorld.facs ranged σ,
    (∃ k, Built (ResectWorld.heap x y z) k f) ∧ 0 < f.residualSize ∧
      ∀ r, some r ∈ f.variables → 0 < VarLike.size (F := ℝ) (ResectWorld.heap x y z r) := by
  intro f hf
  have hsz : ∀ r, 0 < VarLike.size (F := ℝ) (ResectWorld.heap x y z r) := by
    intro r
    match r with
    | 0 => exact Nat.succ_pos 2
    | 1 => exact Nat.succ_pos 1
    | 2 => exact Nat.succ_pos 1
    | _ + 3 => exact Nat.succ_pos 1
  obtain ⟨id, l, t, rfl, _, _, h2, _⟩ := resect_mem x y z hf
  cases ranged
  · exact ⟨⟨_, .bearing2D _ _ _ _ _ rfl h2⟩, Nat.succ_pos 0, fun r _ => hsz r⟩
  · exact ⟨⟨_, .rangeBearing2D _ _ _ _ _ _ _ rfl h2⟩, Nat.succ_pos 1, fun r _ => hsz r⟩

theorem resected_prepared (ranged : Bool) (x y z : V2) (σ : ℝ) (st : Settings ℝ) : Prepared (resected ranged x y z σ st) := by
  refine ⟨⟨_, _, _, ResectWorld.finalizedAfter .., ResectWorld.noJacobianYet ..⟩, ResectWorld.identify _ _ _ _ _,
    ResectWorld.noRepeats _ _ _ _ _, ?_, ?_, rfl⟩
  · rw [resected_facs]
    intro f hf
    obtain ⟨⟨k, hk⟩, _⟩ := resect_built ranged x y z σ f hf
    exact C57_reuse _ k f hk
  · rw [resected_facs, resected_heap]
    intro h hs f hf js hj
    obtain ⟨⟨k, hk⟩, hz⟩ := resect_built ranged x y z σ f hf
    exact C57_proper hk hs hz hj

theorem look_jacobians {h : Heap RVar} {id : Int} {l : VRef} {v : Pose2DVar} {t : V2} {σ : ℝ} (ranged : Bool) (hp : h 0 = .pose2d v)
    (hl : IsVector (h l) t) (hfar : 1 ≤ (t 0 - v.pos 0) ^ 2 + (t 1 - v.pos 1) ^ 2) :
    ∃ bs, (ResectWorld.look ranged σ id l).computeJacobians h [] = .ok bs := by
  have e := (deltaLocal_back v t).2.2.2.2
  cases ranged
  · simp only [ResectWorld.look, Bool.false_eq_true, if_false, Fac.bearing2D, hp, (vector_value hl).1, head2_toList, Res.andThen]
    rw [if_neg (by rw [e]; norm_num; linarith)]
    exact ⟨_, fillBlocks_ok rfl⟩
  · simp only [ResectWorld.look, if_true, Fac.rangeBearing2D, hp, (vector_value hl).1, head2_toList, Res.andThen]
    rw [if_neg (by rw [e, not_lt]; exact le_trans (by norm_num) (Real.one_le_sqrt.2 hfar))]
    exact ⟨_, fillBlocks_ok rfl⟩

/-- Seen from a distance, residual and Jacobian of the graph exist. -/
theorem resected_linearised (ranged : Bool) {x y z : V2} (σ : ℝ) (st : Settings ℝ) (hx : 1 ≤ x 0 ^ 2 + x 1 ^ 2)
    (hy : 1 ≤ y 0 ^ 2 + y 1 ^ 2) (hz : 1 ≤ z 0 ^ 2 + z 1 ^ 2) :
    ∃ r J, (∀ env : Env ℝ RVar, (computeResidual env (resected ranged x y z σ st).heap (resected ranged x y z σ st).graph).2 = .ok r) ∧
      Linearised (resected ranged x y z σ st).heap (resected ranged x y z σ st).graph.getAllVariables
        (resected ranged x y z σ st).graph.getAllFactors r J := by
  have hp := resected_prepared ranged x y z σ st
  obtain ⟨r, J, hlin⟩ := C26.linearised hp (fun f hf => by
    rw [resected_facs] at hf
    rw [resected_heap]
    obtain ⟨id, l, t, rfl, h1, _⟩ := resect_mem x y z hf
    cases ranged
    · exact ⟨_, bearing2d_residual (v := ⟨1, false, 0, 0⟩) rfl h1 _ _ _, rfl⟩
    · exact ⟨_, range_bearing_residual (v := ⟨1, false, 0, 0⟩) rfl h1 _ _ _ _ _, rfl⟩) (fun f hf => by
    rw [resected_facs] at hf
    rw [resected_heap]
    obtain ⟨id, l, t, rfl, h1, _, _, ht⟩ := resect_mem x y z hf
    refine look_jacobians (v := ⟨1, false, 0, 0⟩) ranged rfl h1 ?_
    simp only [Pi.zero_apply, sub_zero]
    rcases ht with rfl | rfl | rfl <;> assumption) (by
    rw [resected_facs, resected_heap]
    exact ⟨_, List.mem_cons_self, 0, by simp [ResectWorld.look_variables], rfl⟩)
  refine ⟨r, J, fun env => ?_, hlin⟩
  obtain ⟨h0, pre, post, hw, hpre⟩ := hp.history
  obtain ⟨segs, g1, g2, rfl⟩ := hlin.residual
  obtain ⟨⟨g', e, _⟩, _⟩ := C05_residual hw segs g1 g2 env
  exact congrArg Prod.snd e

theorem resected_poses (ranged : Bool) (x y z : V2) (σ : ℝ) (st : Settings ℝ) :
    ∀ p ∈ (resected ranged x y z σ st).graph.getAllVariables,
      VarLike.isConst (F := ℝ) ((resected ranged x y z σ st).heap p) = false →
      p = 0 ∧ ∃ v, (resected ranged x y z σ st).heap p = .pose2d v := by
  rw [resected_vars, resected_heap]
  intro p hp hc
  simp only [List.mem_cons, List.not_mem_nil, or_false] at hp
  rcases hp with rfl | rfl | rfl | rfl
  · exact ⟨rfl, _, rfl⟩
  · cases hc
  · cases hc
  · cases hc

theorem resected_sees (ranged : Bool) (x y z : V2) {σ : ℝ} (hσ : σ ≠ 0) (st : Settings ℝ) :
    ∀ f ∈ (resected ranged x y z σ st).graph.getAllFactors,
      (∃ p c t, SeesDirection (resected ranged x y z σ st).heap f p c t) ∨ ∃ p c t, SeesPlace (resected ranged x y z σ st).heap f p c t := by
  rw [resected_facs, resected_heap]
  intro f hf
  obtain ⟨id, l, t, rfl, h1, h2, _⟩ := resect_mem x y z hf
  cases ranged
  · exact .inl ⟨0, _, t, .mk hσ rfl h1 h2⟩
  · exact .inr ⟨0, _, t, .mk hσ hσ rfl h1 h2⟩

/-- The three landmarks are on the circle around `(1, 0)` through the pose. -/
theorem resected_circle {σ : ℝ} (hσ : σ ≠ 0) (st : Settings ℝ) :
    ∀ f ∈ (resected false ![1, 1] ![2, 0] ![1, -1] σ st).graph.getAllFactors, some 0 ∈ f.variables →
      (∃ x, SeesDirection (resected false ![1, 1] ![2, 0] ![1, -1] σ st).heap f 0 0 x ∧ OnCurve 1 ![-2, 0] 0 x) ∨
      ∃ x, SeesPlace (resected false ![1, 1] ![2, 0] ![1, -1] σ st).heap f 0 0 x ∧ Opposite 1 ![-2, 0] 0 x := by
  rw [resected_facs, resected_heap]
  intro f hf _
  obtain ⟨id, l, t, rfl, h1, h2, _, ht⟩ := resect_mem ![1, 1] ![2, 0] ![1, -1] hf
  refine .inl ⟨t, SeesDirection.mk (v := ⟨1, false, 0, 0⟩) hσ rfl h1 h2, ?_⟩
  rcases ht with rfl | rfl | rfl <;> norm_num [OnCurve]

section
variable {Fact : Type} {L : LinAlg ℝ Fact}

/-- **C136, whatever else is in the graph.** If all that is said about a free pose are directions to known landmarks, all on
one circle or straight line through the pose, and places of known landmarks, all opposite to the pose on that circle, the
problem is undetermined. -/
theorem C136_undetermined {h : Heap RVar} {vars : List VRef} {facs : List (Factor ℝ RVar)} {r : List ℝ} {J : SpMat ℝ}
    (hlin : Linearised h vars facs r J) {p : VRef} (hp : p ∈ vars) (hc : VarLike.isConst (F := ℝ) (h p) = false)
    {v : Pose2DVar} (hv : h p = .pose2d v) {a : ℝ} {n : V2} (hne : a ≠ 0 ∨ n ≠ 0)
    (hsee : ∀ f ∈ facs, some p ∈ f.variables → (∃ x, SeesDirection h f p v.pos x ∧ OnCurve a n v.pos x) ∨
      ∃ x, SeesPlace h f p v.pos x ∧ Opposite a n v.pos x) : Undetermined J := by
  have hsz : VarLike.size (F := ℝ) (h p) = 3 := by rw [hv]; rfl
  refine column_kernel hlin hp hc (w := fun j => ([-n 1, n 0, a] : List ℝ).getD j 0) ?_ fun f hf hm bs hbs => ?_
  · rw [hsz]
    rcases hne with ha | hn
    · exact ⟨2, by omega, ha⟩
    · obtain ⟨i, hi⟩ := Function.ne_iff.1 hn
      match i with
      | 0 => exact ⟨1, by omega, hi⟩
      | 1 => exact ⟨0, by omega, neg_ne_zero.2 hi⟩
  · rw [hsz]
    rcases hsee f hf hm with ⟨x, hs, ho⟩ | ⟨x, hs, ho⟩
    · obtain ⟨M, hM, hk⟩ := hs.kernel hc hbs
      refine ⟨0, M, by obtain ⟨l, e, _⟩ := hs.variables; rw [e]; rfl, hM, (hk _).2 ?_⟩
      unfold OnCurve at ho ⊢
      simpa using ho
    · obtain ⟨M, hM, hk⟩ := hs.kernel hc hbs
      refine ⟨0, M, by obtain ⟨l, e, _⟩ := hs.variables; rw [e]; rfl, hM, (hk _).2 ⟨?_, ?_⟩⟩
      · show -n 1 = a * (x 1 - v.pos 1)
        linear_combination -ho.2
      · show n 0 = -(a * (x 0 - v.pos 0))
        linear_combination ho.1

example {σ : ℝ} (hσ : σ ≠ 0) (st : Settings ℝ) :
    ∃ r J, Linearised (resected false ![1, 1] ![2, 0] ![1, -1] σ st).heap (resected false ![1, 1] ![2, 0] ![1, -1] σ st).graph.getAllVariables
      (resected false ![1, 1] ![2, 0] ![1, -1] σ st).graph.getAllFactors r J ∧ Undetermined J := by
  obtain ⟨r, J, _, hlin⟩ := resected_linearised false (x := ![1, 1]) (y := ![2, 0]) (z := ![1, -1]) σ st (by norm_num) (by norm_num)
    (by norm_num)
  exact ⟨r, J, hlin, C136_undetermined hlin (p := 0) (by rw [resected_vars]; simp) (by rw [resected_heap]; rfl)
    (v := ⟨1, false, 0, 0⟩) (by rw [resected_heap]; rfl) (.inl one_ne_zero) (resected_circle hσ st)⟩

/-- **C136.** If the free variables are planar poses and the graph consists of directions and places in which they see known
landmarks, it is undetermined exactly if for some free pose there is a circle or straight line through it on which all the
landmarks are that it sees, those whose distance is measured being opposite to it. -/
theorem C136 {h : Heap RVar} {vars : List VRef} {facs : List (Factor ℝ RVar)} (hn : vars.Nodup) {r : List ℝ} {J : SpMat ℝ}
    (hlin : Linearised h vars facs r J)
    (hposes : ∀ p ∈ vars, VarLike.isConst (F := ℝ) (h p) = false → ∃ v, h p = .pose2d v)
    (hall : ∀ f ∈ facs, (∃ p c x, SeesDirection h f p c x) ∨ ∃ p c x, SeesPlace h f p c x) :
    Undetermined J ↔ ∃ p ∈ vars, VarLike.isConst (F := ℝ) (h p) = false ∧ ∃ (a : ℝ) (n : V2), (a ≠ 0 ∨ n ≠ 0) ∧
      (∀ f ∈ facs, ∀ c x, SeesDirection h f p c x → OnCurve a n c x) ∧
      ∀ f ∈ facs, ∀ c x, SeesPlace h f p c x → Opposite a n c x := by
  have htwo : ∀ f ∈ facs, ∃ p' l, f.variables = [some p', some l] ∧ VarLike.isConst (F := ℝ) (h l) = true := by
    intro f hf
    rcases hall f hf with ⟨p', c, x, hs⟩ | ⟨p', c, x, hs⟩
    · obtain ⟨l, h1, h2, _⟩ := hs.variables
      exact ⟨p', l, h1, h2⟩
    · obtain ⟨l, h1, h2, _⟩ := hs.variables
      exact ⟨p', l, h1, h2⟩
  have hslot : ∀ f ∈ facs, ∀ p, VarLike.isConst (F := ℝ) (h p) = false → ∀ slot : Nat, f.variables[slot]? = some (some p) → slot = 0 := by
    intro f hf p hc slot hs
    obtain ⟨p', l, hv, hl⟩ := htwo f hf
    rw [hv] at hs
    match slot with
    | 0 => rfl
    | 1 => obtain rfl := Option.some.inj (Option.some.inj hs); rw [hl] at hc; cases hc
    | slot + 2 => simp at hs
  have hvars : ∀ f ∈ facs, ∀ p, some p ∈ f.variables → VarLike.isConst (F := ℝ) (h p) = false → f.variables[0]? = some (some p) := by
    intro f hf p hm hc
    obtain ⟨slot, hs⟩ := List.getElem?_of_mem hm
    obtain rfl := hslot f hf p hc slot hs
    exact hs
  constructor
  · intro hu
    obtain ⟨p, hp, hc, w, hw, hk⟩ := (single_undetermined hn hlin fun f hf p _ hc hm q _ hq hmq => by
      have := (hvars f hf q hmq hq).symm.trans (hvars f hf p hm hc)
      exact Option.some.inj (Option.some.inj this)).1 hu
    obtain ⟨v, hv⟩ := hposes p hp hc
    have hsz : VarLike.size (F := ℝ) (h p) = 3 := by rw [hv]; rfl
    rw [hsz] at hw hk
    obtain ⟨B, hB, _⟩ := hlin.jacobian
    have key : ∀ f ∈ facs, some p ∈ f.variables → ∃ bs, f.computeJacobians h [] = .ok bs ∧ ∀ M, bs[0]? = some M →
        ∀ i, i < f.residualSize → ∑ j ∈ Finset.range 3, M.entry i j * w j = 0 := by
      intro f hf hm
      obtain ⟨k, hkf⟩ := List.getElem?_of_mem hf
      obtain ⟨slot, M', h1, h2, h3⟩ := hk f hf hm _ (hB k f hkf).1
      refine ⟨_, (hB k f hkf).1, fun M hM => ?_⟩
      obtain rfl := hslot f hf p hc slot h1
      obtain rfl := Option.some.inj (h2.symm.trans hM)
      exact h3
    refine ⟨p, hp, hc, w 2, ![w 1, -w 0], ?_, fun f hf c x hs => ?_, fun f hf c x hs => ?_⟩
    · obtain ⟨j, hj, h0⟩ := hw
      match j with
      | 0 => exact .inr fun e => h0 (neg_eq_zero.1 (congrFun e 1))
      | 1 => exact .inr fun e => h0 (congrFun e 0)
      | 2 => exact .inl h0
    · obtain ⟨bs, hbs, hz⟩ := key f hf (by cases hs; simp [Fac.bearing2D])
      obtain ⟨M, hM, hk⟩ := hs.kernel hc hbs
      exact (hk w).1 (hz M hM)
    · obtain ⟨bs, hbs, hz⟩ := key f hf (by cases hs; simp [Fac.rangeBearing2D])
      obtain ⟨M, hM, hk⟩ := hs.kernel hc hbs
      obtain ⟨h0, h1⟩ := (hk w).1 (hz M hM)
      exact ⟨by simp [h1], by simp [h0]⟩
  · rintro ⟨p, hp, hc, a, n, hne, hd, hpl⟩
    obtain ⟨v, hv⟩ := hposes p hp hc
    refine C136_undetermined hlin hp hc hv hne fun f hf hm => ?_
    have h0 := hvars f hf p hm hc
    rcases hall f hf with ⟨p', c, x, hs⟩ | ⟨p', c, x, hs⟩
    · have : p' = p := by cases hs; exact Option.some.inj (Option.some.inj h0)
      subst this
      have : c = v.pos := by
        cases hs with
        | mk _ hp' _ _ => rw [hv] at hp'; cases hp'; rfl
      subst this
      exact .inl ⟨x, hs, hd f hf _ x hs⟩
    · have : p' = p := by cases hs; exact Option.some.inj (Option.some.inj h0)
      subst this
      have : c = v.pos := by
        cases hs with
        | mk _ _ hp' _ _ => rw [hv] at hp'; cases hp'; rfl
      subst this
      exact .inr ⟨x, hs, hpl f hf _ x hs⟩

/-- Landmarks ahead, to the left and behind: the pose is determined by the directions. -/
theorem resected_around {σ : ℝ} (hσ : σ ≠ 0) (st : Settings ℝ) {r : List ℝ} {J : SpMat ℝ}
    (hlin : Linearised (resected false ![1, 0] ![0, 1] ![-1, 0] σ st).heap (resected false ![1, 0] ![0, 1] ![-1, 0] σ st).graph.getAllVariables
      (resected false ![1, 0] ![0, 1] ![-1, 0] σ st).graph.getAllFactors r J) : ¬ Undetermined J := by
  rw [C136 (by rw [resected_vars]; decide) hlin (fun p hp hc => (resected_poses _ _ _ _ _ _ p hp hc).2) (resected_sees _ _ _ _ hσ st)]
  rintro ⟨p, hp, hc, a, n, hne, hd, _⟩
  obtain rfl := (resected_poses _ _ _ _ _ _ p hp hc).1
  rw [resected_heap, resected_facs] at hd
  have e1 := hd _ (.head _) _ ![1, 0] (SeesDirection.mk (v := ⟨1, false, 0, 0⟩) hσ rfl (.inl ⟨_, rfl, rfl⟩) rfl)
  have e2 := hd _ (.tail _ (.head _)) _ ![0, 1] (SeesDirection.mk (v := ⟨1, false, 0, 0⟩) hσ rfl (.inl ⟨_, rfl, rfl⟩) rfl)
  have e3 := hd _ (.tail _ (.tail _ (.head _))) _ ![-1, 0] (SeesDirection.mk (v := ⟨1, false, 0, 0⟩) hσ rfl (.inl ⟨_, rfl, rfl⟩) rfl)
  norm_num [OnCurve] at e1 e2 e3
  have ha : a = 0 := by linarith
  refine hne.elim (fun h => h ha) fun h => h ?_
  funext i
  match i with
  | 0 => show n 0 = 0; linarith
  | 1 => show n 1 = 0; linarith

example {σ : ℝ} (hσ : σ ≠ 0) (st : Settings ℝ) :
    ∃ r J, Linearised (resected false ![1, 0] ![0, 1] ![-1, 0] σ st).heap (resected false ![1, 0] ![0, 1] ![-1, 0] σ st).graph.getAllVariables
      (resected false ![1, 0] ![0, 1] ![-1, 0] σ st).graph.getAllFactors r J ∧ ¬ Undetermined J := by
  obtain ⟨r, J, _, hlin⟩ := resected_linearised false (x := ![1, 0]) (y := ![0, 1]) (z := ![-1, 0]) σ st (by norm_num) (by norm_num)
    (by norm_num)
  exact ⟨r, J, hlin, resected_around hσ st hlin⟩

/-- **C136, with distances.** If distance and direction of every landmark are measured, the graph is undetermined exactly if
some free pose sees no two landmarks at different places. -/
theorem C136_places {h : Heap RVar} {vars : List VRef} {facs : List (Factor ℝ RVar)} (hn : vars.Nodup) {r : List ℝ} {J : SpMat ℝ}
    (hlin : Linearised h vars facs r J)
    (hposes : ∀ p ∈ vars, VarLike.isConst (F := ℝ) (h p) = false → ∃ v, h p = .pose2d v)
    (hall : ∀ f ∈ facs, ∃ p c x, SeesPlace h f p c x) :
    Undetermined J ↔ ∃ p ∈ vars, VarLike.isConst (F := ℝ) (h p) = false ∧
      ∃ z : V2, ∀ f ∈ facs, ∀ c x, SeesPlace h f p c x → x = z := by
  rw [C136 hn hlin hposes fun f hf => .inr (hall f hf)]
  refine exists_congr fun p => and_congr_right fun hp => and_congr_right fun hc => ?_
  obtain ⟨v, hv⟩ := hposes p hp hc
  have hpos : ∀ {f c x}, SeesPlace h f p c x → c = v.pos := by
    intro f c x hs
    cases hs with
    | mk _ _ hp' _ _ => rw [hv] at hp'; cases hp'; rfl
  constructor
  · rintro ⟨a, n, hne, _, hall'⟩
    by_cases ha : a = 0
    · subst ha
      refine ⟨0, fun f hf c x hs => absurd (hall' f hf c x hs) ?_⟩
      rintro ⟨e0, e1⟩
      rw [zero_mul, zero_add] at e0 e1
      exact hne.elim (fun h => h rfl) fun h => h (by funext i; match i with | 0 => exact e0 | 1 => exact e1)
    · refine ⟨![v.pos 0 - n 0 / a, v.pos 1 - n 1 / a], fun f hf c x hs => ?_⟩
      obtain ⟨e0, e1⟩ := hall' f hf c x hs
      rw [hpos hs] at e0 e1
      funext i
      match i with
      | 0 =>
        show x 0 = v.pos 0 - n 0 / a
        field_simp
        linear_combination e0
      | 1 =>
        show x 1 = v.pos 1 - n 1 / a
        field_simp
        linear_combination e1
  · rintro ⟨z, hz⟩
    refine ⟨1, ![-(z 0 - v.pos 0), -(z 1 - v.pos 1)], .inl one_ne_zero, fun f hf c x hs => ?_, fun f hf c x hs => ?_⟩
    · obtain ⟨p', c', x', hs'⟩ := hall f hf
      cases hs with
      | mk => cases hs'
    · obtain rfl := hz f hf c x hs
      obtain rfl := hpos hs
      constructor <;> simp

/-- Three landmarks at one place do not determine the pose, two at different places do. -/
example {σ : ℝ} (hσ : σ ≠ 0) (st : Settings ℝ) (z : V2) (hz : 1 ≤ z 0 ^ 2 + z 1 ^ 2) :
    ∃ r J, Linearised (resected true ![1, 0] ![1, 0] z σ st).heap (resected true ![1, 0] ![1, 0] z σ st).graph.getAllVariables
      (resected true ![1, 0] ![1, 0] z σ st).graph.getAllFactors r J ∧ (Undetermined J ↔ z = ![1, 0]) := by
  obtain ⟨r, J, _, hlin⟩ := resected_linearised true (x := ![1, 0]) (y := ![1, 0]) (z := z) σ st (by norm_num) (by norm_num) hz
  refine ⟨r, J, hlin, ?_⟩
  rw [C136_places (by rw [resected_vars]; decide) hlin (fun p hp hc => (resected_poses _ _ _ _ _ _ p hp hc).2) (by
    rw [resected_facs, resected_heap]
    intro f hf
    obtain ⟨id, l, t, rfl, h1, h2, _⟩ := resect_mem ![1, 0] ![1, 0] z hf
    exact ⟨0, _, t, .mk hσ hσ (v := ⟨1, false, 0, 0⟩) rfl h1 h2⟩)]
  constructor
  · rintro ⟨p, hp, hc, y, hy⟩
    obtain rfl := (resected_poses _ _ _ _ _ _ p hp hc).1
    rw [resected_heap, resected_facs] at hy
    have e1 := hy _ (.head _) _ ![1, 0] (SeesPlace.mk (v := ⟨1, false, 0, 0⟩) hσ hσ rfl (.inl ⟨_, rfl, rfl⟩) rfl)
    have e2 := hy _ (.tail _ (.tail _ (.head _))) _ z (SeesPlace.mk (v := ⟨1, false, 0, 0⟩) hσ hσ rfl (.inl ⟨_, rfl, rfl⟩) rfl)
    rw [e1, e2]
  · rintro rfl
    refine ⟨0, by rw [resected_vars]; simp, by rw [resected_heap]; rfl, ![1, 0], ?_⟩
    rw [resected_heap, resected_facs]
    intro f hf c x hs
    obtain ⟨id, l, t, rfl, h1, _, _, ht⟩ := resect_mem ![1, 0] ![1, 0] ![1, 0] hf
    have ht : t = ![1, 0] := by rcases ht with h | h | h <;> exact h
    subst ht
    obtain ⟨l', e, _, h2⟩ := hs.variables
    rw [ResectWorld.look_variables] at e
    simp only [List.cons.injEq, Option.some.injEq, and_true] at e
    rw [← e.2] at h2
    exact List.ofFn_injective ((vector_value h2).1.symm.trans (vector_value h1).1)

/-- **C136, the solver.** Without rounding, the matrix of a Gauss-Newton step can be factorised exactly if for no free pose
there is such a circle or line. -/
theorem C136_factorizes (hL : ExactLinAlg L) {h : Heap RVar} {vars : List VRef} {facs : List (Factor ℝ RVar)} (hn : vars.Nodup)
    {r : List ℝ} {J : SpMat ℝ} (hlin : Linearised h vars facs r J)
    (hposes : ∀ p ∈ vars, VarLike.isConst (F := ℝ) (h p) = false → ∃ v, h p = .pose2d v)
    (hall : ∀ f ∈ facs, (∃ p c x, SeesDirection h f p c x) ∨ ∃ p c x, SeesPlace h f p c x) :
    (∃ F, L.factorize (L.gram J) = some F) ↔ ¬ ∃ p ∈ vars, VarLike.isConst (F := ℝ) (h p) = false ∧ ∃ (a : ℝ) (n : V2),
      (a ≠ 0 ∨ n ≠ 0) ∧ (∀ f ∈ facs, ∀ c x, SeesDirection h f p c x → OnCurve a n c x) ∧
      ∀ f ∈ facs, ∀ c x, SeesPlace h f p c x → Opposite a n c x := by
  rw [factorizes_iff hL, C136 hn hlin hposes hall]

example {σ : ℝ} (hσ : σ ≠ 0) (st : Settings ℝ) :
    ∃ r J, Linearised (resected false ![1, 0] ![0, 1] ![-1, 0] σ st).heap (resected false ![1, 0] ![0, 1] ![-1, 0] σ st).graph.getAllVariables
      (resected false ![1, 0] ![0, 1] ![-1, 0] σ st).graph.getAllFactors r J ∧
      ∃ F, (Ldlt.linAlg : LinAlg ℝ (Ldlt.Fact ℝ)).factorize ((Ldlt.linAlg : LinAlg ℝ (Ldlt.Fact ℝ)).gram J) = some F := by
  obtain ⟨r, J, _, hlin⟩ := resected_linearised false (x := ![1, 0]) (y := ![0, 1]) (z := ![-1, 0]) σ st (by norm_num) (by norm_num)
    (by norm_num)
  have hp := fun p hp hc => (resected_poses false ![1, 0] ![0, 1] ![-1, 0] σ st p hp hc).2
  have hn : (resected false ![1, 0] ![0, 1] ![-1, 0] σ st).graph.getAllVariables.Nodup := by rw [resected_vars]; decide
  refine ⟨r, J, hlin, (C136_factorizes Ldlt.exact hn hlin hp (resected_sees _ _ _ _ hσ st)).2 fun h => ?_⟩
  exact resected_around hσ st hlin ((C136 hn hlin hp (resected_sees _ _ _ _ hσ st)).2 h)

/-- **C136, the run.** If a free pose sees known landmarks in this way and nothing else is known about it, a Gauss-Newton
run moves nothing and reports FAILED, and no covariance is reported. -/
theorem C136_run (hL : ExactLinAlg L) (env : Env ℝ RVar) (s : OptWorld ℝ RVar Fact) (hp : Prepared s)
    (hm : s.opt.settings.method = .gaussNewton) (hpos : 0 < s.opt.settings.maxIterations) (hv : s.opt.hessianValid = false)
    (r : List ℝ) (hr : (computeResidual env s.heap s.graph).2 = .ok r)
    (J : SpMat ℝ) (hlin : Linearised s.heap s.graph.getAllVariables s.graph.getAllFactors r J)
    {p : VRef} (hpv : p ∈ s.graph.getAllVariables) (hc : VarLike.isConst (F := ℝ) (s.heap p) = false)
    {v : Pose2DVar} (hpose : s.heap p = .pose2d v) {a : ℝ} {n : V2} (hne : a ≠ 0 ∨ n ≠ 0)
    (hseen : ∃ f ∈ s.graph.getAllFactors, some p ∈ f.variables)
    (hsee : ∀ f ∈ s.graph.getAllFactors, some p ∈ f.variables → (∃ x, SeesDirection s.heap f p v.pos x ∧ OnCurve a n v.pos x) ∨
      ∃ x, SeesPlace s.heap f p v.pos x ∧ Opposite a n v.pos x) :
    ∃ s', optimize realArith L env s = (s', .ok ()) ∧ s'.heap = s.heap ∧ s'.opt.stats.status = .failed ∧
      ∃ s'', prepare realArith L s' = (s'', .ok ()) ∧ ∀ v, estimateCovariance realArith L s'' v = .ok none := by
  obtain ⟨h0, pre, post, hw, hpre⟩ := hp.history
  obtain ⟨f, hf, hm'⟩ := hseen
  obtain ⟨s', h1, h2, h3, _, _, h4⟩ := C76_undetermined hL env s hw hpre hp.ids hp.noRepeats hp.safe hp.proper hp.graph hm hpos r hr J
    hlin ⟨f, hf, p, hm', hc⟩ (C136_undetermined hlin hpv hc hpose hne hsee)
  exact ⟨s', h1, h2, h3, h4 hv⟩

example {σ : ℝ} (hσ : σ ≠ 0) (st : Settings ℝ) (hm : st.method = .gaussNewton) (hpos : 0 < st.maxIterations) (env : Env ℝ RVar) :
    ∃ s', optimize realArith Ldlt.linAlg env (resected false ![1, 1] ![2, 0] ![1, -1] σ st) = (s', .ok ()) ∧
      s'.heap = (resected false ![1, 1] ![2, 0] ![1, -1] σ st).heap ∧ s'.opt.stats.status = .failed := by
  obtain ⟨r, J, hr, hlin⟩ := resected_linearised false (x := ![1, 1]) (y := ![2, 0]) (z := ![1, -1]) σ st (by norm_num) (by norm_num)
    (by norm_num)
  obtain ⟨s', h1, h2, h3, _⟩ := C136_run Ldlt.exact env (resected false ![1, 1] ![2, 0] ![1, -1] σ st) (resected_prepared ..) hm hpos rfl r
    (hr env) J hlin (p := 0) (by rw [resected_vars]; simp) (by rw [resected_heap]; rfl) (v := ⟨1, false, 0, 0⟩)
    (by rw [resected_heap]; rfl) (.inl one_ne_zero)
    (by rw [resected_facs]; exact ⟨_, .head _, by simp [ResectWorld.look_variables]⟩) (resected_circle hσ st)
  exact ⟨s', h1, h2, h3⟩

end

end Factorama.Props
