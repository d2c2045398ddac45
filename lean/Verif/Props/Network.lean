import Verif.Lemmas.Network
import Verif.Props.Optimum
import Verif.Examples.TinyGroups
import Verif.Props.Units

/-!
# C135: what direct and relative measurements determine
-/

namespace Factorama.Props
open Spec Opt Graph Matrix

/-! ### Two variables, of which one is measured directly or none is -/

theorem C135.all {p u v w : ℝ} (hu : u ≠ 0) (hv : v ≠ 0) (hw : w ≠ 0) (a c m q : ℝ) : ∀ f ∈ TinyWorld.facs p q u v w,
    (∃ r, ValueOf (TinyWorld.heap a c m) f r) ∨ ∃ r r', DifferenceOf (TinyWorld.heap a c m) f r r' := by
  intro f hf
  simp only [TinyWorld.facs, List.mem_cons, List.not_mem_nil, or_false] at hf
  rcases hf with rfl | rfl | rfl
  · exact .inl ⟨0, .mk _ _ _ hu rfl⟩
  · exact .inr ⟨0, 1, .mk _ hv (by decide) rfl rfl rfl⟩
  · exact .inl ⟨1, .mk _ _ _ hw rfl⟩

theorem C135.closed (a c m p q u v w : ℝ) : ∀ f ∈ TinyWorld.facs p q u v w, ∀ r, some r ∈ f.variables →
    VarLike.isConst (F := ℝ) (TinyWorld.heap a c m r) = false → r ∈ [0, 1, 2] := by
  intro f hf r hr _
  simp only [TinyWorld.facs, List.mem_cons, List.not_mem_nil, or_false] at hf
  rcases hf with rfl | rfl | rfl
  · simp only [genericPrior, List.mem_singleton, Option.some.injEq] at hr; simp [hr]
  · simpa [genericBetween] using hr
  · simp only [genericPrior, List.mem_singleton, Option.some.injEq] at hr; simp [hr]

/-- The second variable is anchored through its difference from the first. -/
theorem C135.anchored {p u v : ℝ} (hu : u ≠ 0) (hv : v ≠ 0) (a c m q w : ℝ) : ∀ r ∈ [0, 1, 2],
    VarLike.isConst (F := ℝ) (TinyWorld.heap a c m r) = false → Anchored (TinyWorld.heap a c m) (TinyWorld.facs p q u v w) r := by
  intro r hr hc
  have h0 : Anchored (TinyWorld.heap a c m) (TinyWorld.facs p q u v w) 0 := .measured (.head _) (.mk _ _ _ hu rfl)
  simp only [List.mem_cons, List.not_mem_nil, or_false] at hr
  rcases hr with rfl | rfl | rfl
  · exact h0
  · exact .ahead (.tail _ (.head _)) (.mk _ hv (by decide) rfl rfl rfl) h0
  · cases hc

/-- The difference of the two variables, measured twice. -/
def C135.pair (u v : ℝ) : List (Factor ℝ (GenVar ℝ)) := [genericBetween 10 0 1 2 1 u, genericBetween 11 0 1 2 1 v]

theorem C135.built (a c m u v : ℝ) : TinyGroups.Built a c m (pair u v) where
  outcomes := by
    have : Toy.outcomes (TinyWorld.env a) (TinyGroups.build (pair u v) ++ .finalize :: []) (World.init (TinyWorld.heap a c m)) =
      [.ok (), .ok (), .ok (), .ok (), .ok (), .ok ()] := by cbv
    rw [this]; simp
  finalizes := by cbv
  vars := by cbv
  facs := by cbv
  heap := by
    funext r
    match r with
    | 0 => cbv
    | 1 => cbv
    | _ + 2 => cbv

theorem C135.good (u v : ℝ) : ∀ f ∈ pair u v, TinyGroups.Good f := by
  intro f hf
  simp only [pair, List.mem_cons, List.not_mem_nil, or_false] at hf
  rcases hf with rfl | rfl <;> exact .inr (.inr ⟨_, _, rfl⟩)

/-- An optimizer on it. -/
noncomputable def C135.start (a c m u v : ℝ) (o : Settings ℝ) : OptWorld ℝ (GenVar ℝ) (Ldlt.Fact ℝ) :=
  ⟨(TinyGroups.world a c m (pair u v)).heap, (TinyGroups.world a c m (pair u v)).graph,
    { Optimizer.init realArith with hasGraph := true, settings := o }⟩

theorem C135.prepared (a c m u v : ℝ) (o : Settings ℝ) : Prepared (start a c m u v o) := by
  have hu := TinyGroups.unused (built a c m u v) (good u v)
  obtain ⟨h0, pre, post, h1, h2⟩ := hu.history
  refine ⟨⟨h0, pre, post, h1, ?_⟩, hu.ids, hu.noRepeats, hu.safe, hu.proper, rfl⟩
  unfold NoJacobianYet at h2 ⊢
  simp only [List.mem_append, not_or] at h2
  exact ⟨h2.1.1, h2.2.1.1, h2.2.2.1.1, h2.2.2.2.1⟩

/-- Neither of the two variables is anchored. -/
theorem C135.adrift (a c m u v : ℝ) {r : VRef} (hr : Anchored (TinyWorld.heap a c m) (pair u v) r) : r ≠ 0 ∧ r ≠ 1 := by
  have hp : ∀ {f : Factor ℝ (GenVar ℝ)}, f ∈ pair u v → f.variables = [some 0, some 1, some 2] := by
    intro f hf
    simp only [pair, List.mem_cons, List.not_mem_nil, or_false] at hf
    rcases hf with rfl | rfl <;> rfl
  induction hr with
  | @known r hc =>
    match r with
    | 0 => cases hc
    | 1 => cases hc
    | r + 2 => exact ⟨nofun, fun e => Nat.noConfusion (Nat.succ.inj e)⟩
  | measured hf hD => have := hp hf; cases hD; simp [genericPrior] at this
  | ahead hf hR _ ih => have := hp hf; cases hR; simp only [genericBetween, List.cons.injEq, Option.some.injEq] at this; exact absurd this.1 ih.1
  | back hf hR _ ih => have := hp hf; cases hR; simp only [genericBetween, List.cons.injEq, Option.some.injEq] at this; exact absurd this.2.1 ih.2

section
variable {V Fact : Type} [VarLike ℝ V] {L : LinAlg ℝ Fact}

/-- **C135.** A network of direct and relative measurements is undetermined exactly if some free variable is not connected, by
relative measurements, to one that is known or measured directly. -/
theorem C135 {h : Heap V} {vars : List VRef} {facs : List (Factor ℝ V)} (hn : vars.Nodup)
    (hclosed : ∀ f ∈ facs, ∀ r, some r ∈ f.variables → VarLike.isConst (F := ℝ) (h r) = false → r ∈ vars) {r : List ℝ} {J : SpMat ℝ}
    (hlin : Linearised h vars facs r J) (hall : ∀ f ∈ facs, (∃ a, ValueOf h f a) ∨ ∃ a b, DifferenceOf h f a b) :
    Undetermined J ↔ ∃ v ∈ vars, VarLike.isConst (F := ℝ) (h v) = false ∧ 0 < VarLike.size (F := ℝ) (h v) ∧ ¬ Anchored h facs v := by
  have hJ : Stacks h vars facs J := ⟨hlin.rows, hlin.columns, hlin.jacobian⟩
  constructor
  · rintro ⟨x, hx, hker⟩
    let X : Nat → ℝ := fun c => if hc : c < J.columns.length then x ⟨c, hc⟩ else 0
    have hrow : ∀ a, a < rowTotal facs → ∑ c ∈ Finset.range (freeTotal h vars), J.coeff a c * X c = 0 := by
      intro a ha
      have e := congrFun hker ⟨a, by rw [hlin.rows]; exact ha⟩
      rw [← hlin.columns, ← Fin.sum_univ_eq_sum_range (fun c => J.coeff a c * X c)]
      refine Eq.trans (Finset.sum_congr rfl fun c _ => ?_) e
      simp only [X, c.2, dif_pos]
      rfl
    have hrel : ∀ {f : Factor ℝ V} {a b : VRef}, f ∈ facs → DifferenceOf h f a b →
        VarLike.size (F := ℝ) (h a) = VarLike.size (F := ℝ) (h b) ∧
        ∀ i, i < VarLike.size (F := ℝ) (h b) → columnPart h vars X b i = columnPart h vars X a i := by
      intro f a b hf hR
      obtain ⟨k, hk⟩ := List.getElem?_of_mem hf
      cases hR with
      | @mk id _ _ m n w hw hab hm ha hb =>
        refine ⟨ha.trans hb.symm, fun i hi => ?_⟩
        rw [hb] at hi
        have e := hrow (rowStart facs k + i) (row_lt hk hi)
        rw [relative_row hn hJ hk hab hm ha hb (hclosed _ hf _ (by simp [genericBetween])) (hclosed _ hf _ (by simp [genericBetween]))
          hi] at e
        exact sub_eq_zero.1 ((mul_eq_zero.1 e).resolve_left hw)
    have hzero : ∀ v, Anchored h facs v → ∀ i, i < VarLike.size (F := ℝ) (h v) → columnPart h vars X v i = 0 := by
      intro v hv
      induction hv with
      | known hc => intro i _; rw [columnPart, if_pos hc]
      | @measured f v hf hD =>
        intro i hi
        obtain ⟨k, hk⟩ := List.getElem?_of_mem hf
        cases hc : VarLike.isConst (F := ℝ) (h v) with
        | true => rw [columnPart, if_pos hc]
        | false =>
          cases hD with
          | mk id _ p hw hp =>
            have e := hrow (rowStart facs k + i) (row_lt hk (show i < p.length by omega))
            rw [direct_row hn hJ hk (hclosed _ hf _ (by simp [genericPrior]) hc) hc hp (by omega)] at e
            exact (mul_eq_zero.1 e).resolve_left hw
      | ahead hf hR _ ih =>
        intro i hi
        obtain ⟨h1, h2⟩ := hrel hf hR
        rw [h2 i hi, ih i (h1 ▸ hi)]
      | back hf hR _ ih =>
        intro i hi
        obtain ⟨h1, h2⟩ := hrel hf hR
        rw [← h2 i (h1 ▸ hi), ih i (h1 ▸ hi)]
    obtain ⟨c, hcne⟩ := Function.ne_iff.1 hx
    obtain ⟨v, hv, hc, j, hj, hcl⟩ := exists_column h hn (c := c) (by rw [← hlin.columns]; exact c.2)
    refine ⟨v, hv, hc, by omega, fun ha => hcne ?_⟩
    have := hzero v ha j hj
    rw [columnPart, hc, if_neg Bool.false_ne_true, ← hcl] at this
    simp only [X, c.2, dif_pos] at this
    exact this
  · rintro ⟨v, hv, hc, hs, hna⟩
    classical
    let X : Nat → ℝ := fun c => if ∃ q ∈ vars, VarLike.isConst (F := ℝ) (h q) = false ∧ ¬ Anchored h facs q ∧
      ∃ j, j < VarLike.size (F := ℝ) (h q) ∧ c = colStart h vars q + j then 1 else 0
    have hpart : ∀ q, (VarLike.isConst (F := ℝ) (h q) = false → q ∈ vars) → ∀ j, j < VarLike.size (F := ℝ) (h q) →
        columnPart h vars X q j = if Anchored h facs q then 0 else 1 := by
      intro q hq j hj
      cases hcq : VarLike.isConst (F := ℝ) (h q) with
      | true => rw [columnPart, if_pos hcq, if_pos (.known hcq)]
      | false =>
        rw [columnPart, hcq, if_neg Bool.false_ne_true]
        by_cases ha : Anchored h facs q
        · rw [if_pos ha]
          refine if_neg ?_
          rintro ⟨q', hq', hc', hna', j', hj', e⟩
          obtain ⟨rfl, _⟩ := column_inj (hq hcq) hq' hcq hc' hj hj' e
          exact hna' ha
        · rw [if_neg ha]
          exact if_pos ⟨q, hq hcq, hcq, ha, j, hj, rfl⟩
    refine ⟨fun c => X c, fun e => ?_, funext fun a => ?_⟩
    · have hlt := column_lt hv hc hs
      have := congrFun e ⟨_, hlin.columns ▸ hlt⟩
      have h1 := hpart v (fun _ => hv) 0 hs
      rw [columnPart, hc, if_neg Bool.false_ne_true, if_neg hna] at h1
      exact one_ne_zero (h1.symm.trans this)
    · obtain ⟨k, f, i, hk, hi, ha⟩ := exists_row (a := a) (by rw [← hlin.rows]; exact a.2)
      have hf := List.mem_of_getElem? hk
      have e1 : (jacobianMatrix J *ᵥ fun c : Fin J.columns.length => X c) a =
          ∑ c ∈ Finset.range (freeTotal h vars), J.coeff (rowStart facs k + i) c * X c := by
        rw [mulVec, dotProduct, ← ha, ← hlin.columns, ← Fin.sum_univ_eq_sum_range (fun c => J.coeff a c * X c)]
        rfl
      rw [e1, Pi.zero_apply]
      rcases hall f hf with ⟨q, hD⟩ | ⟨p, q, hR⟩
      · have hanch : Anchored h facs q := .measured hf hD
        cases hD with
        | mk id _ prior hw hp =>
          change i < prior.length at hi
          cases hcq : VarLike.isConst (F := ℝ) (h q) with
          | true =>
            obtain ⟨B, _, hS⟩ := hlin.jacobian
            refine Finset.sum_eq_zero fun c hc' => ?_
            obtain ⟨q', hq', hqc', j, hj, rfl⟩ := exists_column h hn (c := c) (by simpa using hc')
            rw [(hS k _ hk i hi).2 q' hq' hqc' (by
              simp only [genericPrior, List.mem_singleton, Option.some.injEq]
              rintro rfl
              rw [hcq] at hqc'
              cases hqc') j hj, zero_mul]
          | false =>
            have hqv := hclosed _ hf q (by simp [genericPrior]) hcq
            rw [direct_row hn hJ hk hqv hcq hp hi, hpart q (fun _ => hqv) i (by omega), if_pos hanch, mul_zero]
      · have hiff : Anchored h facs p ↔ Anchored h facs q := ⟨.ahead hf hR, .back hf hR⟩
        cases hR with
        | @mk id _ _ m n w hw hab hm hp hq =>
          change i < n at hi
          have c1 := hclosed _ hf p (by simp [genericBetween])
          have c2 := hclosed _ hf q (by simp [genericBetween])
          rw [relative_row hn hJ hk hab hm hp hq c1 c2 hi, hpart p c1 i (by omega), hpart q c2 i (by omega)]
          simp only [hiff, sub_self, mul_zero]

/-- Two measured variables are determined. -/
example {p u v w : ℝ} (hu : u ≠ 0) (hv : v ≠ 0) (hw : w ≠ 0) (a c m q : ℝ) : ¬ Undetermined (TinyWorld.jac u v w) := by
  rw [C135 (by decide) (C135.closed a c m p q u v w) (C104.linearisedAt a c m p q u v w) (C135.all hu hv hw a c m q)]
  rintro ⟨r, hr, hc, _, hna⟩
  exact hna (C135.anchored hu hv a c m q w r hr hc)

/-- **C135, the solver.** Without rounding, the matrix of a step of Gauss-Newton can be factorised exactly if everything is connected
to something known or measured directly. -/
theorem C135_factorizes (hL : ExactLinAlg L) {h : Heap V} {vars : List VRef} {facs : List (Factor ℝ V)} (hn : vars.Nodup)
    (hclosed : ∀ f ∈ facs, ∀ r, some r ∈ f.variables → VarLike.isConst (F := ℝ) (h r) = false → r ∈ vars) {r : List ℝ} {J : SpMat ℝ}
    (hlin : Linearised h vars facs r J) (hall : ∀ f ∈ facs, (∃ a, ValueOf h f a) ∨ ∃ a b, DifferenceOf h f a b) :
    (∃ F, L.factorize (L.gram J) = some F) ↔
      ∀ v ∈ vars, VarLike.isConst (F := ℝ) (h v) = false → 0 < VarLike.size (F := ℝ) (h v) → Anchored h facs v := by
  rw [factorizes_iff hL, C135 hn hclosed hlin hall]
  push Not
  rfl

example {p u v w : ℝ} (hu : u ≠ 0) (hv : v ≠ 0) (hw : w ≠ 0) (a c m q : ℝ) : ∃ F, (Ldlt.linAlg : LinAlg ℝ (Ldlt.Fact ℝ)).factorize
    ((Ldlt.linAlg : LinAlg ℝ (Ldlt.Fact ℝ)).gram (TinyWorld.jac u v w)) = some F :=
  (C135_factorizes Ldlt.exact (by decide) (C135.closed a c m p q u v w) (C104.linearisedAt a c m p q u v w)
    (C135.all hu hv hw a c m q)).2 fun r hr hc _ => C135.anchored hu hv a c m q w r hr hc

/-- At the start of a run on a network that can be evaluated, the residual and the Jacobian exist. -/
theorem network_linearised [LawfulVar ℝ V] (env : Env ℝ V) {s : OptWorld ℝ V Fact} (hp : Prepared s)
    (hall : ∀ f ∈ s.graph.getAllFactors, (∃ a, ValueOf s.heap f a) ∨ ∃ a b, DifferenceOf s.heap f a b)
    (hfree : ∃ f ∈ s.graph.getAllFactors, ∃ q, some q ∈ f.variables ∧ VarLike.isConst (F := ℝ) (s.heap q) = false)
    {r : List ℝ} (hr : (computeResidual env s.heap s.graph).2 = .ok r) :
    ∃ J, Linearised s.heap s.graph.getAllVariables s.graph.getAllFactors r J := by
  obtain ⟨h0, pre, post, hw, hpre⟩ := hp.history
  have hres := evaluated_isResidual (finalizedAfter_layout hw) (computeResidual_evaluated hr)
  obtain ⟨r', J, hlin⟩ := C26.linearised hp (fun f hf => by
      obtain ⟨segs, _, h2, _⟩ := hres
      obtain ⟨k, hk⟩ := List.getElem?_of_mem hf
      obtain ⟨s, _, h3, h4⟩ := h2 k f hk
      exact ⟨s, h3, h4⟩) (fun f hf => by
      rcases hall f hf with ⟨a, ⟨⟩⟩ | ⟨a, b, ⟨⟩⟩
      · simp only [genericPrior]
        split <;> exact ⟨_, rfl⟩
      · exact ⟨_, rfl⟩) hfree
  obtain rfl := isResidual_unique hlin.residual hres
  exact ⟨J, hlin⟩

/-- **C135, the run.** If some free variable of a network is not connected to anything known or measured directly, a Gauss-Newton run
moves nothing and reports FAILED, and no covariance is reported for any variable. -/
theorem C135_run [LawfulVar ℝ V] (hL : ExactLinAlg L) (env : Env ℝ V) (s : OptWorld ℝ V Fact) (hp : Prepared s)
    (hm : s.opt.settings.method = .gaussNewton) (hpos : 0 < s.opt.settings.maxIterations) (hv : s.opt.hessianValid = false)
    (r : List ℝ) (hr : (computeResidual env s.heap s.graph).2 = .ok r)
    (hall : ∀ f ∈ s.graph.getAllFactors, (∃ a, ValueOf s.heap f a) ∨ ∃ a b, DifferenceOf s.heap f a b)
    (hfree : ∃ f ∈ s.graph.getAllFactors, ∃ q, some q ∈ f.variables ∧ VarLike.isConst (F := ℝ) (s.heap q) = false)
    {v : VRef} (hmem : v ∈ s.graph.getAllVariables) (hc : VarLike.isConst (F := ℝ) (s.heap v) = false)
    (hs : 0 < VarLike.size (F := ℝ) (s.heap v)) (hna : ¬ Anchored s.heap s.graph.getAllFactors v) :
    ∃ s', optimize realArith L env s = (s', .ok ()) ∧ s'.heap = s.heap ∧ s'.opt.stats.status = .failed ∧
      ∃ s'', prepare realArith L s' = (s'', .ok ()) ∧ ∀ v, estimateCovariance realArith L s'' v = .ok none := by
  obtain ⟨h0, pre, post, hw, hpre⟩ := hp.history
  obtain ⟨hn, hclosed⟩ := C111.closed hp
  obtain ⟨J, hlin⟩ := network_linearised env hp hall hfree hr
  obtain ⟨s', h1, h2, h3, _, _, h4⟩ := C76_undetermined hL env s hw hpre hp.ids hp.noRepeats hp.safe hp.proper hp.graph hm hpos r hr J
    hlin hfree ((C135 hn hclosed hlin hall).2 ⟨v, hmem, hc, hs, hna⟩)
  exact ⟨s', h1, h2, h3, h4 hv⟩

/-- The graph of the two variables whose difference is measured twice is accepted, but not determined. -/
example {u v : ℝ} (hu : u ≠ 0) (hv : v ≠ 0) (a c m : ℝ) (o : Settings ℝ) (hm : o.method = .gaussNewton) (hpos : 0 < o.maxIterations)
    (env : Env ℝ (GenVar ℝ)) : ∃ s', optimize realArith Ldlt.linAlg env (C135.start a c m u v o) = (s', .ok ()) ∧
      s'.heap = (C135.start a c m u v o).heap ∧ s'.opt.stats.status = .failed := by
  have hb := C135.built a c m u v
  have hh : (C135.start a c m u v o).heap = TinyWorld.heap a c m := hb.heap
  have hf : (C135.start a c m u v o).graph.getAllFactors = C135.pair u v := hb.facs
  have hvs : (C135.start a c m u v o).graph.getAllVariables = [0, 1, 2] := hb.vars
  have hp := C135.prepared a c m u v o
  obtain ⟨h0, pre, post, hw, hpre⟩ := hp.history
  obtain ⟨⟨g', e, _⟩, _⟩ := C05_residual hw [[u * (c - a - m)], [v * (c - a - m)]] (by
      show _ = (C135.start a c m u v o).graph.getAllFactors.length
      rw [hf]; rfl) (by
      show ∀ (k : Nat) f, (C135.start a c m u v o).graph.getAllFactors[k]? = some f → ∃ s, _ ∧
        f.computeResidual (C135.start a c m u v o).heap = .ok s ∧ _
      rw [hf, hh]
      intro k f hk
      match k with
      | 0 => obtain rfl := Option.some.inj hk; exact ⟨_, rfl, rfl, rfl⟩
      | 1 => obtain rfl := Option.some.inj hk; exact ⟨_, rfl, rfl, rfl⟩
      | k + 2 => simp [C135.pair] at hk) env
  obtain ⟨s', h1, h2, h3, _⟩ := C135_run Ldlt.exact env (C135.start a c m u v o) hp hm hpos rfl _ (congrArg Prod.snd e) (by
      rw [hf, hh]
      intro f hf
      simp only [C135.pair, List.mem_cons, List.not_mem_nil, or_false] at hf
      rcases hf with rfl | rfl
      · exact .inr ⟨0, 1, .mk _ hu (by decide) rfl rfl rfl⟩
      · exact .inr ⟨0, 1, .mk _ hv (by decide) rfl rfl rfl⟩)
    (by rw [hf, hh]; exact ⟨_, .head _, 0, .head _, rfl⟩) (v := 0) (by rw [hvs]; simp) (by rw [hh]; rfl) (by rw [hh]; exact Nat.one_pos)
    (by rw [hf, hh]; exact fun ha => (C135.adrift a c m u v ha).1 rfl)
  exact ⟨s', h1, h2, h3⟩

end

end Factorama.Props
