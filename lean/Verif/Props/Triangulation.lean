import Verif.Lemmas.Triangulation
import Verif.Lemmas.Repeats
import Verif.Spec.Correspond
import Verif.Props.FactorsBlocks
import Verif.Props.GraphEval
import Verif.Examples.ViewWorld
import Mathlib.LinearAlgebra.Matrix.PosDef

/-!
# C134: triangulation

A landmark is determined by the directions in which it is seen exactly if it is seen along two different lines.
-/

namespace Factorama.Props
open Spec Opt Graph Matrix Geo

/-- A pose at `c` with its axes along those of the world. -/
noncomputable def cameraAt (c : V3) : PoseVar := ⟨0, true, c, 0, [], 1⟩

/-- An optimizer on the graph with two known poses and a landmark. -/
noncomputable def viewed (c c' x b d : V3) (σ : ℝ) (st : Settings ℝ) : OptWorld ℝ RVar (Ldlt.Fact ℝ) :=
  ⟨(ViewWorld.world (cameraAt c) (cameraAt c') x b d σ).heap, (ViewWorld.world (cameraAt c) (cameraAt c') x b d σ).graph,
    { Optimizer.init realArith with hasGraph := true, complete := true, settings := st }⟩

theorem viewed_heap (c c' x b d : V3) (σ : ℝ) (st : Settings ℝ) :
    (viewed c c' x b d σ st).heap = ViewWorld.heap (cameraAt c) (cameraAt c') x := ViewWorld.heap_eq ..

theorem viewed_vars (c c' x b d : V3) (σ : ℝ) (st : Settings ℝ) : (viewed c c' x b d σ st).graph.getAllVariables = [0, 1, 2] :=
  ViewWorld.vars_eq ..

theorem viewed_facs (c c' x b d : V3) (σ : ℝ) (st : Settings ℝ) :
    (viewed c c' x b d σ st).graph.getAllFactors = ViewWorld.facs b d σ := ViewWorld.facs_eq ..

theorem view_built (c c' x b d : V3) (σ : ℝ) : ∀ f ∈ ViewWorld.facs b d σ,
    (∃ k, Built (ViewWorld.heap (cameraAt c) (cameraAt c') x) k f) ∧ 0 < f.residualSize ∧
      ∀ r, some r ∈ f.variables → 0 < VarLike.size (F := ℝ) (ViewWorld.heap (cameraAt c) (cameraAt c') x r) := by
  intro f hf
  have hsz : ∀ r, 0 < VarLike.size (F := ℝ) (ViewWorld.heap (cameraAt c) (cameraAt c') x r) := by
    intro r
    match r with
    | 0 => exact Nat.succ_pos 5
    | 1 => exact Nat.succ_pos 5
    | _ + 2 => exact Nat.succ_pos 2
  simp only [ViewWorld.facs, List.mem_cons, List.not_mem_nil, or_false] at hf
  rcases hf with rfl | rfl
  · exact ⟨⟨_, .bearingObservation _ _ _ _ _ rfl rfl⟩, Nat.succ_pos 2, fun r _ => hsz r⟩
  · exact ⟨⟨_, .bearingObservation _ _ _ _ _ rfl rfl⟩, Nat.succ_pos 2, fun r _ => hsz r⟩

theorem viewed_prepared (c c' x b d : V3) (σ : ℝ) (st : Settings ℝ) : Prepared (viewed c c' x b d σ st) := by
  refine ⟨⟨_, _, _, ViewWorld.finalizedAfter .., ViewWorld.noJacobianYet ..⟩, ViewWorld.identify _ _ _ _ _ _,
    ViewWorld.noRepeats _ _ _ _ _ _, ?_, ?_, rfl⟩
  · rw [viewed_facs]
    intro f hf
    obtain ⟨⟨k, hk⟩, _⟩ := view_built c c' x b d σ f hf
    exact C57_reuse _ k f hk
  · rw [viewed_facs, viewed_heap]
    intro h hs f hf js hj
    obtain ⟨⟨k, hk⟩, hz⟩ := view_built c c' x b d σ f hf
    exact C57_proper hk hs hz hj

theorem view_jacobians {h : Heap RVar} {id : Int} {p l : VRef} {v : PoseVar} {y : LandmarkVar} {pw b : V3} {σ : ℝ} (hp : h p = .pose v)
    (hl : h l = .landmark y) (hy : y.value = toList pw) (hfar : 1e-9 ≤ vnorm (v.dcm *ᵥ (pw - v.pos))) :
    ∃ bs, (Fac.bearingObservation id p l b σ).computeJacobians h [] = .ok bs := by
  simp only [Fac.bearingObservation, hp, hl, posW_of hy, Res.andThen]
  rw [if_neg (by simpa using hfar)]
  exact ⟨_, fillBlocks_ok rfl⟩

/-- Seen from a distance, residual and Jacobian of the graph exist. -/
theorem viewed_linearised {c c' x : V3} (b d : V3) (σ : ℝ) (st : Settings ℝ) (h1 : 1e-9 ≤ vnorm (x - c)) (h2 : 1e-9 ≤ vnorm (x - c')) :
    ∃ r J, (∀ env : Env ℝ RVar, (computeResidual env (viewed c c' x b d σ st).heap (viewed c c' x b d σ st).graph).2 = .ok r) ∧
      Linearised (viewed c c' x b d σ st).heap (viewed c c' x b d σ st).graph.getAllVariables
        (viewed c c' x b d σ st).graph.getAllFactors r J := by
  have hp := viewed_prepared c c' x b d σ st
  obtain ⟨h0, pre, post, hw, hpre⟩ := hp.history
  have hres : ∃ r, IsResidual (viewed c c' x b d σ st).heap (viewed c c' x b d σ st).graph.getAllFactors r := by
    refine exists_isResidual ?_
    rw [viewed_heap, viewed_facs]
    intro f hf
    simp only [ViewWorld.facs, List.mem_cons, List.not_mem_nil, or_false] at hf
    rcases hf with rfl | rfl
    · exact ⟨_, bearing_residual rfl rfl rfl .., by simp [toList, Fac.bearingObservation]⟩
    · exact ⟨_, bearing_residual rfl rfl rfl .., by simp [toList, Fac.bearingObservation]⟩
  obtain ⟨r, hr⟩ := hres
  have hb : ∀ f ∈ (viewed c c' x b d σ st).graph.getAllFactors, ∃ bs, f.computeJacobians (viewed c c' x b d σ st).heap [] = .ok bs := by
    rw [viewed_heap, viewed_facs]
    intro f hf
    simp only [ViewWorld.facs, List.mem_cons, List.not_mem_nil, or_false] at hf
    rcases hf with rfl | rfl
    · exact view_jacobians (v := { cameraAt c with id := 1, isConst := true }) rfl rfl rfl (by simpa [cameraAt] using h1)
    · exact view_jacobians (v := { cameraAt c' with id := 2, isConst := true }) rfl rfl rfl (by simpa [cameraAt] using h2)
  choose! B hB using hb
  have hblocks : ∀ (k : Nat) f, (viewed c c' x b d σ st).graph.getAllFactors[k]? = some f →
      f.computeJacobians (viewed c c' x b d σ st).heap [] = .ok
        ((fun k => ((viewed c c' x b d σ st).graph.getAllFactors[k]?.map B).getD []) k) ∧
      ProperBlocks (viewed c c' x b d σ st).heap f
        ((fun k => ((viewed c c' x b d σ st).graph.getAllFactors[k]?.map B).getD []) k) := by
    intro k f hk
    have hf := List.mem_of_getElem? hk
    simp only [hk, Option.map_some, Option.getD_some]
    exact ⟨hB f hf, hp.proper _ (.refl _) f hf _ (hB f hf)⟩
  obtain ⟨g', J, _, _, h3, h4, h5, _⟩ := C07_sparse hw hpre hp.ids hp.noRepeats hp.safe _ hblocks (by
    show ∃ f ∈ (viewed c c' x b d σ st).graph.getAllFactors, ∃ r, some r ∈ f.variables ∧
      VarLike.isConst (F := ℝ) ((viewed c c' x b d σ st).heap r) = false
    rw [viewed_heap, viewed_facs]
    exact ⟨_, List.mem_cons_self, 2, by simp [Fac.bearingObservation], rfl⟩)
  have hl := finalizedAfter_layout hw
  refine ⟨r, J, fun env => ?_, hr, h3.trans hl.nr, h4.trans hl.nv, _, hblocks, h5⟩
  obtain ⟨segs, g1, g2, rfl⟩ := hr
  obtain ⟨⟨g', e, _⟩, _⟩ := C05_residual hw segs g1 g2 env
  exact congrArg Prod.snd e

theorem viewed_sights {c c' x b d : V3} {σ : ℝ} (hσ : σ ≠ 0) {st : Settings ℝ} :
    ∀ f ∈ (viewed c c' x b d σ st).graph.getAllFactors, ∃ p l y, Sight (viewed c c' x b d σ st).heap f p l y ∧
      VarLike.isConst (F := ℝ) ((viewed c c' x b d σ st).heap p) = true := by
  rw [viewed_heap, viewed_facs]
  intro f hf
  simp only [ViewWorld.facs, List.mem_cons, List.not_mem_nil, or_false] at hf
  rcases hf with rfl | rfl
  · exact ⟨0, 2, _, .space hσ rfl isRotation_one rfl rfl, rfl⟩
  · exact ⟨1, 2, _, .space hσ rfl isRotation_one rfl rfl, rfl⟩

theorem far_from {x c : V3} (h : 1 ≤ (x - c) ⬝ᵥ (x - c)) : 1e-9 ≤ vnorm (x - c) :=
  le_trans (by norm_num) (Real.one_le_sqrt.2 h)

theorem far_ahead : 1e-9 ≤ vnorm (![0, 0, 4] - 0 : V3) ∧ 1e-9 ≤ vnorm (![0, 0, 4] - ![0, 0, 1] : V3) ∧
    1e-9 ≤ vnorm (![0, 0, 4] - ![1, 0, 0] : V3) := by
  refine ⟨far_from ?_, far_from ?_, far_from ?_⟩ <;> rw [dotProduct, Fin.sum_univ_three]
  · show (1 : ℝ) ≤ (0 - 0) * (0 - 0) + (0 - 0) * (0 - 0) + (4 - 0) * (4 - 0)
    norm_num
  · show (1 : ℝ) ≤ (0 - 0) * (0 - 0) + (0 - 0) * (0 - 0) + (4 - 1) * (4 - 1)
    norm_num
  · show (1 : ℝ) ≤ (0 - 1) * (0 - 1) + (0 - 0) * (0 - 0) + (4 - 0) * (4 - 0)
    norm_num

/-- A landmark four units ahead of the first pose and three ahead of the second: both see it along the same line. -/
theorem viewed_one_line {σ : ℝ} (hσ : σ ≠ 0) (b d : V3) (st : Settings ℝ) :
    ∀ f ∈ (viewed 0 ![0, 0, 1] ![0, 0, 4] b d σ st).graph.getAllFactors, some 2 ∈ f.variables →
      ∃ p y, Sight (viewed 0 ![0, 0, 1] ![0, 0, 4] b d σ st).heap f p 2 y ∧
        Along (VarLike.size (F := ℝ) ((viewed 0 ![0, 0, 1] ![0, 0, 4] b d σ st).heap 2)) (fun j => ([0, 0, 1] : List ℝ).getD j 0) y := by
  rw [viewed_heap, viewed_facs]
  intro f hf _
  simp only [ViewWorld.facs, List.mem_cons, List.not_mem_nil, or_false] at hf
  rcases hf with rfl | rfl
  · refine ⟨0, _, .space hσ rfl isRotation_one rfl rfl, 4, fun j hj => ?_⟩
    change j < 3 at hj
    match j with
    | 0 | 1 | 2 => simp [cameraAt, toList]
  · refine ⟨1, _, .space hσ rfl isRotation_one rfl rfl, 3, fun j hj => ?_⟩
    change j < 3 at hj
    match j with
    | 0 | 1 | 2 => norm_num [cameraAt, toList]

/-- A landmark four units ahead of the first pose, and aside of the second: no line is that of both sightings. -/
theorem viewed_two_lines {σ : ℝ} (hσ : σ ≠ 0) (b d : V3) (st : Settings ℝ) (u : Nat → ℝ)
    (hu : ∀ f ∈ (viewed 0 ![1, 0, 0] ![0, 0, 4] b d σ st).graph.getAllFactors, ∀ p y,
      Sight (viewed 0 ![1, 0, 0] ![0, 0, 4] b d σ st).heap f p 2 y →
        Along (VarLike.size (F := ℝ) ((viewed 0 ![1, 0, 0] ![0, 0, 4] b d σ st).heap 2)) u y) : False := by
  rw [viewed_heap, viewed_facs] at hu
  obtain ⟨a, ha⟩ := hu _ (.head _) 0 _ (.space hσ rfl isRotation_one rfl rfl)
  obtain ⟨c, hc⟩ := hu _ (.tail _ (.head _)) 1 _ (.space hσ rfl isRotation_one rfl rfl)
  have a0 := ha 0 (by show 0 < 3; omega)
  have a2 := ha 2 (by show 2 < 3; omega)
  have c0 := hc 0 (by show 0 < 3; omega)
  simp [cameraAt, toList] at a0 a2 c0
  rcases a0 with rfl | h0
  · norm_num at a2
  · rw [h0] at c0
    norm_num at c0

section
variable {Fact : Type} {L : LinAlg ℝ Fact}

theorem along_symm {n : Nat} {u y : Nat → ℝ} (hy : ∃ j, j < n ∧ y j ≠ 0) (h : Along n u y) : Along n y u := by
  obtain ⟨a, ha⟩ := h
  obtain ⟨j, hj, h0⟩ := hy
  have ha0 : a ≠ 0 := fun e => h0 (by rw [ha j hj, e, zero_mul])
  exact ⟨a⁻¹, fun j hj => by rw [ha j hj, inv_mul_cancel_left₀ ha0]⟩

/-- **C134, on one line.** Whatever else is in the graph: if all that is said about a free landmark are directions in which
it is seen, and all these sightings are along one line `u`, the problem is undetermined. In particular a single sighting
never determines a landmark. -/
theorem C134_undetermined {h : Heap RVar} {vars : List VRef} {facs : List (Factor ℝ RVar)} {r : List ℝ} {J : SpMat ℝ}
    (hlin : Linearised h vars facs r J) {l : VRef} (hl : l ∈ vars) (hc : VarLike.isConst (F := ℝ) (h l) = false) {u : Nat → ℝ}
    (hu : ∃ j, j < VarLike.size (F := ℝ) (h l) ∧ u j ≠ 0)
    (hsee : ∀ f ∈ facs, some l ∈ f.variables → ∃ p y, Sight h f p l y ∧ Along (VarLike.size (F := ℝ) (h l)) u y) :
    Undetermined J := by
  refine column_kernel hlin hl hc hu fun f hf hm bs hbs => ?_
  obtain ⟨p, y, hs, ha⟩ := hsee f hf hm
  obtain ⟨hv, _, hy, M, hM, hk⟩ := hs.kernel hc hbs
  exact ⟨1, M, by rw [hv]; rfl, hM, (hk u).2 (along_symm hy ha)⟩

/-- Two poses in a row see a landmark straight ahead. -/
example {σ : ℝ} (hσ : σ ≠ 0) (b d : V3) (st : Settings ℝ) :
    ∃ r J, Linearised (viewed 0 ![0, 0, 1] ![0, 0, 4] b d σ st).heap (viewed 0 ![0, 0, 1] ![0, 0, 4] b d σ st).graph.getAllVariables
      (viewed 0 ![0, 0, 1] ![0, 0, 4] b d σ st).graph.getAllFactors r J ∧ Undetermined J := by
  obtain ⟨r, J, _, hlin⟩ := viewed_linearised (c := 0) (c' := ![0, 0, 1]) (x := ![0, 0, 4]) b d σ st
    far_ahead.1 far_ahead.2.1
  refine ⟨r, J, hlin, C134_undetermined hlin (l := 2) (by rw [viewed_vars]; simp) (by rw [viewed_heap]; rfl) ⟨2, ?_, ?_⟩
    (viewed_one_line hσ b d st)⟩
  · rw [viewed_heap]; show 2 < 3; omega
  · norm_num

/-- **C134.** If the graph consists of sightings of landmarks from known poses, it is undetermined exactly if some free
landmark is seen along one line only. -/
theorem C134 {h : Heap RVar} {vars : List VRef} {facs : List (Factor ℝ RVar)} (hn : vars.Nodup) {r : List ℝ} {J : SpMat ℝ}
    (hlin : Linearised h vars facs r J)
    (hall : ∀ f ∈ facs, ∃ p l y, Sight h f p l y ∧ VarLike.isConst (F := ℝ) (h p) = true) :
    Undetermined J ↔ ∃ l ∈ vars, VarLike.isConst (F := ℝ) (h l) = false ∧ ∃ u : Nat → ℝ,
      (∃ j, j < VarLike.size (F := ℝ) (h l) ∧ u j ≠ 0) ∧
      ∀ f ∈ facs, ∀ p y, Sight h f p l y → Along (VarLike.size (F := ℝ) (h l)) u y := by
  obtain ⟨B, hB, _⟩ := hlin.jacobian
  constructor
  · rintro ⟨x, hx, hker⟩
    obtain ⟨c, hcne⟩ := Function.ne_iff.1 hx
    obtain ⟨l, hl, hc, j, hj, hcl⟩ := exists_column h hn (c := c) (by rw [← hlin.columns]; exact c.2)
    let X : Nat → ℝ := fun c => if hc : c < J.columns.length then x ⟨c, hc⟩ else 0
    refine ⟨l, hl, hc, fun j => X (colStart h vars l + j), ⟨j, hj, ?_⟩, fun f hf p y hs => ?_⟩
    · simp only [X, ← hcl, c.2, dif_pos]
      exact hcne
    obtain ⟨k, hk⟩ := List.getElem?_of_mem hf
    obtain ⟨hv, hpl, hy, M, hM, hkk⟩ := hs.kernel hc (hB k f hk).1
    have hp : VarLike.isConst (F := ℝ) (h p) = true := by
      obtain ⟨p', l', y', hs', hp'⟩ := hall f hf
      have e : f.variables = [some p', some l'] := by cases hs' <;> rfl
      rw [e] at hv
      simp only [List.cons.injEq, Option.some.injEq, and_true] at hv
      rw [← hv.1]
      exact hp'
    refine along_symm ⟨j, hj, ?_⟩ ((hkk fun j => X (colStart h vars l + j)).1 fun i hi => ?_)
    · simp only [X, ← hcl, c.2, dif_pos]
      exact hcne
    · rw [← single_row hn hlin hk (slot := 1) (by rw [hv]; rfl) hl hc (fun q _ hq hm => ?_) (hB k f hk).1 hM hi X]
      · have hrow : rowStart facs k + i < J.rows := by rw [hlin.rows]; exact row_lt hk hi
        have e := congrFun hker ⟨_, hrow⟩
        rw [← Fin.sum_univ_eq_sum_range (fun c => J.coeff (rowStart facs k + i) c * X c)]
        refine Eq.trans (Finset.sum_congr rfl fun c _ => ?_) e
        simp only [X, c.2, dif_pos]
        rfl
      · rw [hv] at hm
        simp only [List.mem_cons, Option.some.injEq, List.not_mem_nil, or_false] at hm
        rcases hm with rfl | rfl
        · rw [hp] at hq; cases hq
        · rfl
  · rintro ⟨l, hl, hc, u, hu, hsee⟩
    refine C134_undetermined hlin hl hc hu fun f hf hm => ?_
    obtain ⟨p, l', y, hs, hp⟩ := hall f hf
    have hv : f.variables = [some p, some l'] := by cases hs <;> rfl
    rw [hv] at hm
    have : l = l' := by
      simp only [List.mem_cons, Option.some.injEq, List.not_mem_nil, or_false] at hm
      rcases hm with rfl | rfl
      · rw [hc] at hp; cases hp
      · rfl
    subst this
    exact ⟨p, y, hs, hsee f hf p y hs⟩

/-- Two poses side by side determine a landmark. -/
example {σ : ℝ} (hσ : σ ≠ 0) (b d : V3) (st : Settings ℝ) :
    ∃ r J, Linearised (viewed 0 ![1, 0, 0] ![0, 0, 4] b d σ st).heap (viewed 0 ![1, 0, 0] ![0, 0, 4] b d σ st).graph.getAllVariables
      (viewed 0 ![1, 0, 0] ![0, 0, 4] b d σ st).graph.getAllFactors r J ∧ ¬ Undetermined J := by
  obtain ⟨r, J, _, hlin⟩ := viewed_linearised (c := 0) (c' := ![1, 0, 0]) (x := ![0, 0, 4]) b d σ st
    far_ahead.1 far_ahead.2.2
  refine ⟨r, J, hlin, fun hu => ?_⟩
  obtain ⟨l, hl, hc, u, _, hsee⟩ := (C134 (by rw [viewed_vars]; decide) hlin (viewed_sights hσ)).1 hu
  rw [viewed_vars] at hl
  rw [viewed_heap] at hc
  simp only [List.mem_cons, List.not_mem_nil, or_false] at hl
  rcases hl with rfl | rfl | rfl
  · cases hc
  · cases hc
  · exact viewed_two_lines hσ b d st u hsee

/-- **C134, the solver.** Without rounding, the matrix of the first step of Gauss-Newton can be factorised exactly if every
free landmark is seen along two different lines. -/
theorem C134_factorizes (hL : ExactLinAlg L) {h : Heap RVar} {vars : List VRef} {facs : List (Factor ℝ RVar)} (hn : vars.Nodup)
    {r : List ℝ} {J : SpMat ℝ} (hlin : Linearised h vars facs r J)
    (hall : ∀ f ∈ facs, ∃ p l y, Sight h f p l y ∧ VarLike.isConst (F := ℝ) (h p) = true) :
    (∃ F, L.factorize (L.gram J) = some F) ↔ ∀ l ∈ vars, VarLike.isConst (F := ℝ) (h l) = false → ∀ u : Nat → ℝ,
      (∃ j, j < VarLike.size (F := ℝ) (h l) ∧ u j ≠ 0) →
      ∃ f ∈ facs, ∃ p y, Sight h f p l y ∧ ¬ Along (VarLike.size (F := ℝ) (h l)) u y := by
  have h1 := C134 hn hlin hall
  have h2 : (∃ F, L.factorize (L.gram J) = some F) ↔ ¬ Undetermined J := by
    constructor
    · rintro ⟨F, hF⟩ hu
      rw [hu.refused hL] at hF
      cases hF
    · intro hu
      have e := hL.gram_size J
      refine hL.succeeds _ (e.2.trans e.1.symm) ?_
      rw [e.1, hL.gram]
      refine PosDef.conjTranspose_mul_self (jacobianMatrix J) fun a b hab => ?_
      refine Classical.byContradiction fun hne => hu ⟨a - b, sub_ne_zero.2 hne, ?_⟩
      rw [mulVec_sub, sub_eq_zero]
      exact hab
  rw [h2, h1]
  push Not
  rfl

example {σ : ℝ} (hσ : σ ≠ 0) (b d : V3) (st : Settings ℝ) :
    ∃ r J, Linearised (viewed 0 ![1, 0, 0] ![0, 0, 4] b d σ st).heap (viewed 0 ![1, 0, 0] ![0, 0, 4] b d σ st).graph.getAllVariables
      (viewed 0 ![1, 0, 0] ![0, 0, 4] b d σ st).graph.getAllFactors r J ∧
      ∃ F, (Ldlt.linAlg : LinAlg ℝ (Ldlt.Fact ℝ)).factorize ((Ldlt.linAlg : LinAlg ℝ (Ldlt.Fact ℝ)).gram J) = some F := by
  obtain ⟨r, J, _, hlin⟩ := viewed_linearised (c := 0) (c' := ![1, 0, 0]) (x := ![0, 0, 4]) b d σ st
    far_ahead.1 far_ahead.2.2
  refine ⟨r, J, hlin, (C134_factorizes Ldlt.exact (by rw [viewed_vars]; decide) hlin (viewed_sights hσ)).2 fun l hl hc u _ => ?_⟩
  rw [viewed_vars] at hl
  simp only [List.mem_cons, List.not_mem_nil, or_false] at hl
  rcases hl with rfl | rfl | rfl
  · rw [viewed_heap] at hc; cases hc
  · rw [viewed_heap] at hc; cases hc
  · refine Classical.byContradiction fun hn => viewed_two_lines hσ b d st u fun f hf p y hs => ?_
    exact Classical.byContradiction fun ha => hn ⟨f, hf, p, y, hs, ha⟩

/-- **C134, the run.** If a free landmark is seen, but along one line only and nothing else is known about it, a Gauss-Newton
run moves nothing and reports FAILED, and no covariance is reported. -/
theorem C134_run (hL : ExactLinAlg L) (env : Env ℝ RVar) (s : OptWorld ℝ RVar Fact) (hp : Prepared s)
    (hm : s.opt.settings.method = .gaussNewton) (hpos : 0 < s.opt.settings.maxIterations) (hv : s.opt.hessianValid = false)
    (r : List ℝ) (hr : (computeResidual env s.heap s.graph).2 = .ok r)
    (J : SpMat ℝ) (hlin : Linearised s.heap s.graph.getAllVariables s.graph.getAllFactors r J)
    {l : VRef} (hl : l ∈ s.graph.getAllVariables) (hc : VarLike.isConst (F := ℝ) (s.heap l) = false) {u : Nat → ℝ}
    (hu : ∃ j, j < VarLike.size (F := ℝ) (s.heap l) ∧ u j ≠ 0) (hseen : ∃ f ∈ s.graph.getAllFactors, some l ∈ f.variables)
    (hsee : ∀ f ∈ s.graph.getAllFactors, some l ∈ f.variables →
      ∃ p y, Sight s.heap f p l y ∧ Along (VarLike.size (F := ℝ) (s.heap l)) u y) :
    ∃ s', optimize realArith L env s = (s', .ok ()) ∧ s'.heap = s.heap ∧ s'.opt.stats.status = .failed ∧
      ∃ s'', prepare realArith L s' = (s'', .ok ()) ∧ ∀ v, estimateCovariance realArith L s'' v = .ok none := by
  obtain ⟨h0, pre, post, hw, hpre⟩ := hp.history
  obtain ⟨f, hf, hm'⟩ := hseen
  obtain ⟨s', h1, h2, h3, _, _, h4⟩ := C76_undetermined hL env s hw hpre hp.ids hp.noRepeats hp.safe hp.proper hp.graph hm hpos r hr J
    hlin ⟨f, hf, l, hm', hc⟩ (C134_undetermined hlin hl hc hu hsee)
  exact ⟨s', h1, h2, h3, h4 hv⟩

example {σ : ℝ} (hσ : σ ≠ 0) (b d : V3) (st : Settings ℝ) (hm : st.method = .gaussNewton) (hpos : 0 < st.maxIterations)
    (env : Env ℝ RVar) :
    ∃ s', optimize realArith Ldlt.linAlg env (viewed 0 ![0, 0, 1] ![0, 0, 4] b d σ st) = (s', .ok ()) ∧
      s'.heap = (viewed 0 ![0, 0, 1] ![0, 0, 4] b d σ st).heap ∧ s'.opt.stats.status = .failed := by
  obtain ⟨r, J, hr, hlin⟩ := viewed_linearised (c := 0) (c' := ![0, 0, 1]) (x := ![0, 0, 4]) b d σ st
    far_ahead.1 far_ahead.2.1
  obtain ⟨s', h1, h2, h3, _⟩ := C134_run Ldlt.exact env (viewed 0 ![0, 0, 1] ![0, 0, 4] b d σ st) (viewed_prepared ..) hm hpos rfl r
    (hr env) J hlin (l := 2) (by rw [viewed_vars]; simp) (by rw [viewed_heap]; rfl)
    (u := fun j => ([0, 0, 1] : List ℝ).getD j 0) ⟨2, by rw [viewed_heap]; show 2 < 3; omega, by norm_num⟩
    (by rw [viewed_facs]; exact ⟨_, .head _, by simp [Fac.bearingObservation]⟩) (viewed_one_line hσ b d st)
  exact ⟨s', h1, h2, h3⟩

/-- **C134, exact observations in space.** If two sightings from known poses fit a landmark exactly and their lines differ,
no other place fits both. -/
theorem C134_unique (h h' : Heap RVar) (id1 id2 : Int) (p1 p2 l : VRef) {v1 v2 : PoseVar} {x x' : LandmarkVar} {pw pw' b1 b2 : V3}
    {s1 s2 : ℝ} (hp1 : h p1 = .pose v1) (hp1' : h' p1 = .pose v1) (hp2 : h p2 = .pose v2) (hp2' : h' p2 = .pose v2)
    (hR1 : IsRotation v1.dcm) (hR2 : IsRotation v2.dcm) (hl : h l = .landmark x) (hx : x.value = toList pw)
    (hl' : h' l = .landmark x') (hx' : x'.value = toList pw') (hb1 : b1 ≠ 0) (hb2 : b2 ≠ 0) (hs1 : s1 ≠ 0) (hs2 : s2 ≠ 0)
    (z1 : ZeroResidual (Fac.bearingObservation id1 p1 l b1 s1) h) (z2 : ZeroResidual (Fac.bearingObservation id2 p2 l b2 s2) h)
    (z1' : ZeroResidual (Fac.bearingObservation id1 p1 l b1 s1) h') (z2' : ZeroResidual (Fac.bearingObservation id2 p2 l b2 s2) h')
    (hne : ¬ ∃ a : ℝ, pw - v2.pos = a • (pw - v1.pos)) : pw' = pw := by
  have key : ∀ {v : PoseVar} {b : V3}, IsRotation v.dcm → (∃ s : ℝ, 0 < s ∧ v.dcm *ᵥ (pw - v.pos) = s • b) →
      (∃ s : ℝ, 0 < s ∧ v.dcm *ᵥ (pw' - v.pos) = s • b) → ∃ t : ℝ, pw' - pw = t • (pw - v.pos) := by
    rintro v b hR ⟨s, hs, e⟩ ⟨s', _, e'⟩
    have hcancel : ∀ a : V3, v.dcmᵀ *ᵥ (v.dcm *ᵥ a) = a := fun a => by rw [mulVec_mulVec, mul_eq_one_comm.1 hR.1, one_mulVec]
    have hb : pw - v.pos = s • (v.dcmᵀ *ᵥ b) := by rw [← hcancel (pw - v.pos), e, mulVec_smul]
    have hb' : pw' - v.pos = s' • (v.dcmᵀ *ᵥ b) := by rw [← hcancel (pw' - v.pos), e', mulVec_smul]
    refine ⟨s' / s - 1, ?_⟩
    rw [show pw' - pw = (pw' - v.pos) - (pw - v.pos) by abel, hb, hb', smul_smul, ← sub_smul]
    congr 1
    field_simp
  obtain ⟨t1, h1⟩ := key hR1 ((C46_zero h id1 p1 l v1 x pw b1 s1 hp1 hl hx hb1 hs1).1 z1)
    ((C46_zero h' id1 p1 l v1 x' pw' b1 s1 hp1' hl' hx' hb1 hs1).1 z1')
  obtain ⟨t2, h2⟩ := key hR2 ((C46_zero h id2 p2 l v2 x pw b2 s2 hp2 hl hx hb2 hs2).1 z2)
    ((C46_zero h' id2 p2 l v2 x' pw' b2 s2 hp2' hl' hx' hb2 hs2).1 z2')
  by_cases h0 : t2 = 0
  · rw [h0, zero_smul] at h2
    exact sub_eq_zero.1 h2
  · refine absurd ⟨t2⁻¹ * t1, ?_⟩ hne
    rw [mul_smul, ← h1, h2, inv_smul_smul₀ h0]

/-- From the origin the landmark is seen straight ahead, and from a unit aside a quarter to the left: it is four units ahead. -/
example (pw' : V3)
    (z1 : ZeroResidual (Fac.bearingObservation 12 0 2 ![0, 0, 1] 1) (ViewWorld.heap (cameraAt 0) (cameraAt ![1, 0, 0]) pw'))
    (z2 : ZeroResidual (Fac.bearingObservation 13 1 2 ![-1, 0, 4] 1) (ViewWorld.heap (cameraAt 0) (cameraAt ![1, 0, 0]) pw')) :
    pw' = ![0, 0, 4] := by
  refine C134_unique (ViewWorld.heap (cameraAt 0) (cameraAt ![1, 0, 0]) ![0, 0, 4]) _ 12 13 0 1 2 rfl rfl rfl rfl
    isRotation_one isRotation_one rfl rfl rfl rfl (b1 := ![0, 0, 1]) (b2 := ![-1, 0, 4]) ?_ ?_ one_ne_zero one_ne_zero ?_ ?_ z1 z2 ?_
  · exact fun e => by simpa using congrFun e 2
  · exact fun e => by simpa using congrFun e 2
  · refine (C46_zero _ 12 0 2 _ _ ![0, 0, 4] _ 1 rfl rfl rfl (fun e => by simpa using congrFun e 2) one_ne_zero).2 ⟨4, by norm_num, ?_⟩
    funext i; fin_cases i <;> simp [cameraAt]
  · refine (C46_zero _ 13 1 2 _ _ ![0, 0, 4] _ 1 rfl rfl rfl (fun e => by simpa using congrFun e 2) one_ne_zero).2 ⟨1, by norm_num, ?_⟩
    funext i; fin_cases i <;> simp [cameraAt]
  · rintro ⟨a, e⟩
    simpa [cameraAt] using congrFun e 0

/-- **C134, exact observations in the plane.** -/
theorem C134_unique_planar (h h' : Heap RVar) (id1 id2 : Int) (p1 p2 l : VRef) {v1 v2 : Pose2DVar} {x x' : V2} {o1 o2 s1 s2 : ℝ}
    (hp1 : h p1 = .pose2d v1) (hp1' : h' p1 = .pose2d v1) (hp2 : h p2 = .pose2d v2) (hp2' : h' p2 = .pose2d v2)
    (hl : IsVector (h l) x) (hl' : IsVector (h' l) x') (hs1 : s1 ≠ 0) (hs2 : s2 ≠ 0)
    (n1 : x ≠ v1.pos) (n2 : x ≠ v2.pos) (n1' : x' ≠ v1.pos) (n2' : x' ≠ v2.pos)
    (z1 : ZeroResidual (Fac.bearing2D id1 p1 l o1 s1) h) (z2 : ZeroResidual (Fac.bearing2D id2 p2 l o2 s2) h)
    (z1' : ZeroResidual (Fac.bearing2D id1 p1 l o1 s1) h') (z2' : ZeroResidual (Fac.bearing2D id2 p2 l o2 s2) h')
    (hne : ¬ ∃ a : ℝ, x - v2.pos = a • (x - v1.pos)) : x' = x := by
  have key : ∀ {c b : V2}, (∃ s : ℝ, 0 < s ∧ x = c + s • b) → (∃ s : ℝ, 0 < s ∧ x' = c + s • b) →
      ∃ t : ℝ, x' - x = t • (x - c) := by
    rintro c b ⟨s, hs, e⟩ ⟨s', _, e'⟩
    refine ⟨s' / s - 1, ?_⟩
    rw [e, e', add_sub_add_left_eq_sub, add_sub_cancel_left, smul_smul, ← sub_smul]
    congr 1
    field_simp
  obtain ⟨t1, h1⟩ := key ((C49_zero h id1 p1 l v1 x o1 s1 hp1 hl hs1 n1).1 z1) ((C49_zero h' id1 p1 l v1 x' o1 s1 hp1' hl' hs1 n1').1 z1')
  obtain ⟨t2, h2⟩ := key ((C49_zero h id2 p2 l v2 x o2 s2 hp2 hl hs2 n2).1 z2) ((C49_zero h' id2 p2 l v2 x' o2 s2 hp2' hl' hs2 n2').1 z2')
  by_cases h0 : t2 = 0
  · rw [h0, zero_smul] at h2
    exact sub_eq_zero.1 h2
  · refine absurd ⟨t2⁻¹ * t1, ?_⟩ hne
    rw [mul_smul, ← h1, h2, inv_smul_smul₀ h0]

/-- Two poses a unit apart, looking along the first axis; from the first the landmark is seen at 45°, from the second at 90°. -/
example (x' : V2) (n1 : x' ≠ 0) (n2 : x' ≠ ![1, 0]) :
    let h : V2 → Heap RVar := fun x r => match r with
      | 0 => .pose2d ⟨1, true, 0, 0⟩
      | 1 => .pose2d ⟨2, true, ![1, 0], 0⟩
      | _ => .generic ⟨3, false, toList x⟩
    ZeroResidual (Fac.bearing2D 12 0 2 (Real.pi / 4) 1) (h x') → ZeroResidual (Fac.bearing2D 13 1 2 (Real.pi / 2) 1) (h x') →
      x' = ![1, 1] := by
  intro h z1 z2
  have m1 : (![1, 1] : V2) ≠ 0 := fun e => by simpa using congrFun e 1
  have m2 : (![1, 1] : V2) ≠ ![1, 0] := fun e => by simpa using congrFun e 1
  have hv : ∀ x : V2, IsVector (h x 2) x := fun x => .inl ⟨_, rfl, rfl⟩
  refine C134_unique_planar (h ![1, 1]) (h x') 12 13 0 1 2 (v1 := ⟨1, true, 0, 0⟩) (v2 := ⟨2, true, ![1, 0], 0⟩) rfl rfl rfl rfl
    (hv _) (hv _) one_ne_zero one_ne_zero m1 m2 n1 n2 ?_ ?_ z1 z2 ?_
  · refine (C49_zero _ 12 0 2 ⟨1, true, 0, 0⟩ _ _ 1 rfl (hv _) one_ne_zero m1).2 ⟨√2, by positivity, ?_⟩
    funext i
    fin_cases i <;> simp [← mul_div_assoc]
  · refine (C49_zero _ 13 1 2 ⟨2, true, ![1, 0], 0⟩ _ _ 1 rfl (hv _) one_ne_zero m2).2 ⟨1, by norm_num, ?_⟩
    funext i
    fin_cases i <;> simp
  · rintro ⟨a, e⟩
    have e0 := congrFun e 0
    have e1 := congrFun e 1
    simp at e0 e1
    rw [← e0] at e1
    norm_num at e1

end
end Factorama.Props
