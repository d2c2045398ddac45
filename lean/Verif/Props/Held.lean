import Verif.Lemmas.Held
import Verif.Lemmas.HeldLibrary
import Verif.Props.Informative
import Verif.Examples.TinyHeld

/-!
# C108: holding a variable constant never makes the estimates of the others less certain
-/

namespace Factorama.Props
open Spec Graph Opt

/-- **C108**, factors of the library. Setting variables constant leaves the derivatives with respect to the other variables as
they are, for every class of factors. -/
theorem C108_library {x x' : Heap RVar} (hH : Held x x') {cls : FactorClass} {f : Factor ℝ RVar} (hf : Built x cls f) :
    SameFreeBlocks f x x' := held_library hH hf

/-- A bearing from a pose to a landmark, the landmark is held. -/
example (v : Pose2DVar) (l : GenVar ℝ) (hl : l.value.length = 2) : SameFreeBlocks (Fac.bearing2D 10 0 1 2 (1 / 5))
    (fun r => if r = 0 then .pose2d v else .generic l) (fun r => if r = 0 then .pose2d v else .generic { l with isConst := true }) := by
  refine C108_library (fun r => ?_) (.bearing2D (v := v) 10 0 1 2 (1 / 5) (by simp) ?_)
  · by_cases hr : r = 0
    · exact .inl (by simp [hr])
    · exact .inr (by simp only [hr, if_false]; rfl)
  · show l.value.length = 2
    exact hl

section
variable {V Fact : Type} [VarLike ℝ V] [LawfulVar ℝ V] {L : LinAlg ℝ Fact}

/-- **C108**. Two programs build the same graph, the second with some of the variables set constant. When both have been
linearised at the same values, the variance reported for any combination of the components of a variable that is still free is
not larger in the second. -/
theorem C108 (hL : ExactLinAlg L) {s s' t t' : OptWorld ℝ V Fact} {h0 h0' : Heap V} {pre post pre' post' : List (Op ℝ V × Res Unit)}
    (hw : FinalizedAfter h0 pre post ⟨s.heap, s.graph⟩) (hw' : FinalizedAfter h0' pre' post' ⟨s'.heap, s'.graph⟩)
    (hvars : s'.graph.getAllVariables = s.graph.getAllVariables) (hfacs : s'.graph.getAllFactors = s.graph.getAllFactors)
    (hv : s.opt.hessianValid = false) (hv' : s'.opt.hessianValid = false)
    {x x' : Heap V} (hx : SameShape s.heap x) (hx' : SameShape s'.heap x') (hH : Held x x')
    (hblocks : ∀ f ∈ s.graph.getAllFactors, SameFreeBlocks f x x')
    {r r' : List ℝ} {J J' : SpMat ℝ} (hJ : s.graph.sparseJacobian = .ok J) (hJ' : s'.graph.sparseJacobian = .ok J')
    (hlin : Linearised x s.graph.getAllVariables s.graph.getAllFactors r J)
    (hlin' : Linearised x' s'.graph.getAllVariables s'.graph.getAllFactors r' J')
    (hprep : prepare realArith L s = (t, .ok ())) (hprep' : prepare realArith L s' = (t', .ok ())) (v : VRef)
    (hmem : v ∈ s.graph.getAllVariables) (P P' : Mat ℝ) (hP : estimateCovariance realArith L t (some v) = .ok (some P))
    (hP' : estimateCovariance realArith L t' (some v) = .ok (some P')) :
    P'.rows = P.rows ∧ P'.cols = P.cols ∧ (∀ z, varianceOf P' z ≤ varianceOf P z) ∧
    ∀ i, i < P.rows → P'.entry i i ≤ P.entry i i := by
  have hn : s.graph.getAllVariables.Nodup := List.Nodup.of_map _ (finalizedAfter_layout hw).ids
  obtain ⟨J1, e1, hu, z1, z2, hent, _⟩ := C30_block hL hw hv hprep v hmem P hP
  obtain ⟨J2, e2, hu', z1', z2', hent', _⟩ := C30_block hL hw' hv' hprep' v (by rw [hvars]; exact hmem) P' hP'
  have hfree : VarLike.isConst (x' v) = false := by
    obtain ⟨v1, _, _, _, ev, hc, hvt, _⟩ := estimateCovariance_some hP'
    obtain rfl := Option.some.inj ev
    obtain ⟨_, _, _, _, _, _, _, hheap, _⟩ := C31_partial realArith L s' t' hv' hprep' hvt
    rw [hheap] at hc
    rw [(hx' v).2.1, hc]
  rw [hJ] at e1
  rw [hJ'] at e2
  obtain rfl := Res.ok.inj e1
  obtain rfl := Res.ok.inj e2
  have hsz : VarLike.size (s'.heap v) = VarLike.size (s.heap v) := by
    rw [← (hx' v).2.2, hH.same hfree, (hx v).2.2]
  rw [hsz] at z1' z2' hent'
  rw [hvars, ← hx'.colStart_eq] at hent'
  rw [← hx.colStart_eq] at hent
  rw [hvars, hfacs] at hlin'
  have s1 : Stacks x s.graph.getAllVariables s.graph.getAllFactors J := ⟨hlin.rows, hlin.columns, hlin.jacobian⟩
  have s2 : Stacks x' s.graph.getAllVariables s.graph.getAllFactors J' := ⟨hlin'.rows, hlin'.columns, hlin'.jacobian⟩
  obtain ⟨σ, k1, k2, k3⟩ := held_columns hH hn hblocks s1 s2
  rw [← s2.columns, ← s1.columns] at k1
  rw [← s2.columns, ← s1.rows] at k2
  rw [← s2.columns] at k3
  have key := variance_restrict (s2.rows.trans s1.rows.symm) J.coeff J'.coeff σ k1 k2 hu hu' _ _ (VarLike.size (s.heap v))
    (by rw [← (hx v).2.2]; exact k3 v hmem hfree) P.entry P'.entry hent hent'
  have hv : ∀ z, varianceOf P' z ≤ varianceOf P z := by
    intro z
    unfold varianceOf
    rw [z1, z2, z1', z2']
    exact key z
  refine ⟨z1'.trans z1.symm, z2'.trans z2.symm, hv, fun i hi => ?_⟩
  have unit : ∀ Q : Mat ℝ, i < Q.rows → i < Q.cols → varianceOf Q (fun k => if k = i then 1 else 0) = Q.entry i i := by
    intro Q h1 h2
    unfold varianceOf
    rw [Finset.sum_eq_single_of_mem i (by simpa using h1) fun k _ hk => by simp [hk],
      Finset.sum_eq_single_of_mem i (by simpa using h2) fun k _ hk => by simp [hk]]
    simp
  have := hv fun k => if k = i then 1 else 0
  rwa [unit P hi (by omega), unit P' (by omega) (by omega)] at this

end

namespace C108

/-- An optimizer on the small graph with the second variable held. -/
noncomputable def start : OptWorld ℝ (GenVar ℝ) (Ldlt.Fact ℝ) :=
  ⟨(TinyHeld.world 0 0 1 4 7 2 3 1).heap, (TinyHeld.world 0 0 1 4 7 2 3 1).graph,
    { Optimizer.init realArith with hasGraph := true, complete := true }⟩

theorem held : Held (TinyWorld.heap (0 : ℝ) 0 1) (TinyHeld.heap 0 0 1) := by
  intro r
  match r with
  | 0 => exact .inl rfl
  | 1 => exact .inr rfl
  | _ + 2 => exact .inl rfl

theorem blocks : ∀ f ∈ TinyWorld.facs (4 : ℝ) 7 2 3 1, SameFreeBlocks f (TinyWorld.heap 0 0 1) (TinyHeld.heap 0 0 1) := by
  intro f hf js js' h h' p q B B' hp hc hB hB'
  have hq : q = 0 := by
    match q with
    | 0 => rfl
    | 1 => cases hc
    | _ + 2 => cases hc
  subst hq
  simp only [TinyWorld.facs, List.mem_cons, List.not_mem_nil, or_false] at hf
  rcases hf with rfl | rfl | rfl
  · match p with
    | 0 =>
      have e : js' = js := Res.ok.inj (h'.symm.trans h)
      rw [e, hB] at hB'
      exact (Option.some.inj hB').symm
    | p + 1 => simp [genericPrior] at hp
  · match p with
    | 0 =>
      obtain rfl := Res.ok.inj h
      obtain rfl := Res.ok.inj h'
      exact (Option.some.inj hB').symm.trans (Option.some.inj hB)
    | 1 => simp [genericBetween] at hp
    | 2 => simp [genericBetween] at hp
    | p + 3 => simp [genericBetween] at hp
  · match p with
    | 0 => simp [genericPrior] at hp
    | p + 1 => simp [genericPrior] at hp

theorem linearised : Linearised (TinyHeld.heap 0 0 1) [0, 1, 2] (TinyWorld.facs (4 : ℝ) 7 2 3 1)
    [2 * (0 - 4), 3 * (0 - 0 - 1), 1 * (0 - 7)] (TinyHeld.jac 2 3) := by
  have c0 : colStart (F := ℝ) (TinyHeld.heap (0 : ℝ) 0 1) [0, 1, 2] 0 = 0 := by cbv
  have only : ∀ r, VarLike.isConst (F := ℝ) (TinyHeld.heap (0 : ℝ) 0 1 r) = false → r = 0 := by
    intro r hr
    match r with
    | 0 => rfl
    | 1 => cases hr
    | _ + 2 => cases hr
  have sz : VarLike.size (F := ℝ) (TinyHeld.heap (0 : ℝ) 0 1 0) = 1 := rfl
  refine ⟨(TinyWorld.residual_eq 4 7 2 3 1 (TinyHeld.heap 0 0 1) (a := 0) (c := 0) (m := 1) rfl rfl rfl _).2 rfl, rfl, by cbv,
    fun k => if k = 0 then [Mat.diag 1 2] else if k = 1 then [Mat.diag 1 (-3), Mat.empty, Mat.empty] else [Mat.empty, Mat.empty], ?_, ?_⟩
  · intro k f hk
    match k with
    | 0 => obtain rfl := Option.some.inj hk; exact ⟨rfl, TinyWorld.proper_prior rfl rfl⟩
    | 1 =>
      obtain rfl := Option.some.inj hk
      refine ⟨rfl, fun p r hp => ?_⟩
      match p with
      | 0 =>
        obtain rfl : 0 = r := by simpa [genericBetween] using hp
        exact ⟨_, rfl, (fun hc => nomatch hc), fun _ => ⟨rfl, rfl, rfl⟩⟩
      | 1 =>
        obtain rfl : 1 = r := by simpa [genericBetween] using hp
        exact ⟨_, rfl, fun _ => rfl, fun hc => nomatch hc⟩
      | 2 =>
        obtain rfl : 2 = r := by simpa [genericBetween] using hp
        exact ⟨_, rfl, fun _ => rfl, fun hc => nomatch hc⟩
      | p + 3 => simp [genericBetween] at hp
    | 2 =>
      obtain rfl := Option.some.inj hk
      refine ⟨rfl, fun p r hp => ?_⟩
      match p with
      | 0 =>
        obtain rfl : 1 = r := by simpa [genericPrior] using hp
        exact ⟨_, rfl, fun _ => rfl, fun hc => nomatch hc⟩
      | p + 1 => simp [genericPrior] at hp
    | k + 3 => simp [TinyWorld.facs] at hk
  · intro k f hk i hi
    match k with
    | 0 =>
      obtain rfl := Option.some.inj hk
      obtain rfl : i = 0 := by simpa [genericPrior] using hi
      refine ⟨fun p r J hp hc hJ j hj => ?_, fun r hr hc hm j hj => ?_⟩
      · obtain rfl := only r hc
        match p with
        | 0 =>
          rw [sz] at hj
          obtain rfl : j = 0 := by omega
          obtain rfl := Option.some.inj hJ
          rw [c0]; cbv
        | p + 1 => simp [genericPrior] at hp
      · obtain rfl := only r hc
        simp [genericPrior] at hm
    | 1 =>
      obtain rfl := Option.some.inj hk
      obtain rfl : i = 0 := by simpa [genericBetween] using hi
      refine ⟨fun p r J hp hc hJ j hj => ?_, fun r hr hc hm j hj => ?_⟩
      · obtain rfl := only r hc
        match p with
        | 0 =>
          rw [sz] at hj
          obtain rfl : j = 0 := by omega
          obtain rfl := Option.some.inj hJ
          rw [c0]; cbv
        | 1 => simp [genericBetween] at hp
        | 2 => simp [genericBetween] at hp
        | p + 3 => simp [genericBetween] at hp
      · obtain rfl := only r hc
        simp [genericBetween] at hm
    | 2 =>
      obtain rfl := Option.some.inj hk
      obtain rfl : i = 0 := by simpa [genericPrior] using hi
      refine ⟨fun p r J hp hc hJ j hj => ?_, fun r hr hc hm j hj => ?_⟩
      · obtain rfl := only r hc
        match p with
        | 0 => simp [genericPrior] at hp
        | p + 1 => simp [genericPrior] at hp
      · obtain rfl := only r hc
        rw [sz] at hj
        obtain rfl : j = 0 := by omega
        rw [c0]; cbv
    | k + 3 => simp [TinyWorld.facs] at hk

end C108

/-- The small graph, and the same with the second variable held. -/
example (t t' : OptWorld ℝ (GenVar ℝ) (Ldlt.Fact ℝ)) (hprep : prepare realArith Ldlt.linAlg (C107.start 1) = (t, .ok ()))
    (hprep' : prepare realArith Ldlt.linAlg C108.start = (t', .ok ())) (P P' : Mat ℝ)
    (hP : estimateCovariance realArith Ldlt.linAlg t (some 0) = .ok (some P))
    (hP' : estimateCovariance realArith Ldlt.linAlg t' (some 0) = .ok (some P')) : ∀ i, i < P.rows → P'.entry i i ≤ P.entry i i := by
  have e : C108.start.graph.getAllVariables = [0, 1, 2] := TinyHeld.vars_eq ..
  have e' : C108.start.graph.getAllFactors = TinyWorld.facs 4 7 2 3 1 := TinyHeld.facs_eq ..
  have hs : (C107.start 1).heap = TinyWorld.heap 0 0 1 := TinyWorld.heap_eq ..
  have hs' : C108.start.heap = TinyHeld.heap 0 0 1 := TinyHeld.heap_eq ..
  refine (C108 Ldlt.exact (s := C107.start 1) (s' := C108.start) (TinyWorld.finalizedAfter 0 0 1 4 7 2 3 1)
    (TinyHeld.finalizedAfter 0 0 1 4 7 2 3 1) (e.trans (C107.vars 1).symm) (e'.trans (C107.facs 1).symm) rfl rfl
    (hs ▸ .refl _) (hs' ▸ .refl _) C108.held (by rw [C107.facs]; exact C108.blocks) (TinyWorld.sparse_eq ..) (TinyHeld.sparse_eq ..)
    (C107.linearised 1) (by rw [e, e']; exact C108.linearised) hprep hprep' 0 (by rw [C107.vars]; simp) P P' hP hP').2.2.2

/-- In rational arithmetic: the variance of the first variable is 10/49 when both are estimated, 1/13 when the second is held. -/
example :
    let report := fun w : World Rat (GenVar Rat) => C29.report (prepare ToyOpt.rat Ldlt.linAlg (optimize ToyOpt.rat Ldlt.linAlg
      (TinyWorld.env 0) (ToyOpt.start w ToyOpt.gn)).1).1 (some 0)
    report (TinyWorld.world 0 0 1 4 7 2 3 1) = .ok (some [10 / 49]) ∧
    report (TinyHeld.world 0 0 1 4 7 2 3 1) = .ok (some [1 / 13]) ∧ (1 / 13 : Rat) < 10 / 49 := by decide +kernel

end Factorama.Props
