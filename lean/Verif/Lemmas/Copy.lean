import Verif.Lemmas.Determined
import Verif.Lemmas.Order
import Verif.Lemmas.Defects
import Verif.Spec.Copy

/-!
# A graph and its copy side by side
-/

namespace Factorama.Graph
open Spec SpMat
variable {F V : Type} [Zero F] [VarLike F V]

/-- The same graph with another sparse matrix. -/
def withSparse (m : SpMat F) (g : Graph F V) : Graph F V := { g with sparse := m }

theorem copy_eq (g : Graph F V) : copy g = withSparse g.sparse.copied g := rfl

omit [Zero F] [VarLike F V] in
/-- The stored entries and where they are. -/
theorem copied_columns {m : SpMat F} (hfull : ∀ (c : Nat) col, m.columns[c]? = some col → col.cap = col.entries.length) :
    m.copied.columns = m.columns := by
  apply List.ext_getElem?
  intro i
  simp only [SpMat.copied, List.getElem?_map]
  rcases e : m.columns[i]? with _ | ⟨cap, es⟩
  · rfl
  · have := hfull i _ e
    simp only at this
    simp [this]

/-! ### The evaluations that do not use the sparse matrix -/

theorem computeResidualInto_withSparse (env : Env F V) (h : Heap V) (g : Graph F V) (m : SpMat F) (b : List F) :
    computeResidualInto env (withSparse m g) h b = computeResidualInto env g h b := rfl

theorem computeResidual_withSparse (env : Env F V) (h : Heap V) (m : SpMat F) :
    Blind (withSparse m) (computeResidual env h : SE (Graph F V) (List F)) := by
  intro g
  unfold computeResidual
  simp only [computeResidualInto_withSparse, show (withSparse m g).finalized = g.finalized from rfl,
    show (withSparse m g).resValid = g.resValid from rfl, show (withSparse m g).cachedRes = g.cachedRes from rfl,
    show (withSparse m g).numResiduals = g.numResiduals from rfl]
  split
  · rfl
  · generalize computeResidualInto env g h _ = p
    rcases p with ⟨r, o⟩
    cases o <;> rfl

theorem computeDense_withSparse [LawfulVar F V] (env : Env F V) (h : Heap V) (m : SpMat F) :
    Blind (withSparse m) (computeDense env h : SE (Graph F V) (Mat F)) := by
  intro g
  have hden : denseOne (withSparse m g) h = denseOne g h := by
    funext it
    unfold denseOne
    simp only [denseVars_congr (g := g) (g' := withSparse m g) rfl]
  unfold computeDense
  simp only [hden, show (withSparse m g).finalized = g.finalized from rfl,
    show (withSparse m g).jacValid = g.jacValid from rfl, show (withSparse m g).cachedJac = g.cachedJac from rfl,
    show (withSparse m g).numResiduals = g.numResiduals from rfl, show (withSparse m g).numValues = g.numValues from rfl,
    show (withSparse m g).facPl = g.facPl from rfl]
  split
  · rfl
  · generalize SE.forEach (env.order g.facPl) (denseOne g h) _ = p
    rcases p with ⟨r, o⟩
    cases o <;> rfl

/-! ### The sparse evaluation -/

/-- The same for the working state of the sparse evaluation. -/
def withSparseWork (m : SpMat F) (s : SparseWork F V) : SparseWork F V := ⟨withSparse m s.g, s.cur⟩

omit [Zero F] in
theorem sparseVars_withSparse (m : SpMat F) (h : Heap V) (vs : List (Option VRef)) : ∀ js : List (Mat F),
    Blind (withSparseWork m) (sparseVars h vs js) := by
  induction vs with
  | nil => exact fun _ => .ret _
  | cons o vs ih =>
    intro js
    cases js with
    | nil => cases o <;> exact .undefined
    | cons Ji js =>
      cases o with
      | none => exact .undefined
      | some r =>
        refine .get fun s => ⟨rfl, ?_⟩
        cases s.g.variablePlacement (VarLike.id (h r)) with
        | none => exact ih js
        | some p => exact .bind (fun _ => rfl) fun _ => ih js

theorem sparseOne_withSparse (m : SpMat F) (h : Heap V) (i : Nat) :
    Blind (withSparseWork m) (sparseOne h i : SE (SparseWork F V) Unit) := by
  refine .get fun s => ⟨rfl, ?_⟩
  cases s.g.facPl.lookup i with
  | none => exact .undefined
  | some fp =>
    cases s.g.sparseComps[i]? with
    | none => exact .undefined
    | some buf =>
      dsimp only
      cases fp.factor.computeJacobians h buf with
      | threw => exact .throw
      | ub => exact .undefined
      | ok js => exact .bind (.modify fun _ => rfl) fun _ => sparseVars_withSparse m h _ js

/-- Sparse evaluations of two graphs that differ in the matrix only have the same outcome and store the same entries at the
same places. -/
theorem computeSparse_withSparse {good : Nat → List (Mat F) → Prop} {h : Heap V} {g : Graph F V} {m : SpMat F}
    (hr : Ready good h g) (hr' : Ready good h (withSparse m g))
    (hne : ∃ c, c < g.numValues ∧ colVals c (rowLog g.facPl) ≠ []) :
    (∃ g1 J J', computeSparse h g = (g1, .ok J) ∧ computeSparse h (withSparse m g) = (withSparse J' g1, .ok J') ∧
      g1.sparse = J ∧ J'.rows = J.rows ∧ J'.columns = J.columns) ∨
    (∃ g1, computeSparse h g = (g1, .threw) ∧ computeSparse h (withSparse m g) = (withSparse m g1, .threw) ∧
      g1.sparse = g.sparse ∧ g1.sparseValid = g.sparseValid) ∨
    (computeSparse h g).2 = .ub ∨ (computeSparse h (withSparse m g)).2 = .ub := by
  obtain ⟨c0, hc0, hc1⟩ := hne
  have a1 := hr.alloc c0 hc0 hc1
  have a2 := hr'.alloc c0 hc0 hc1
  have hfr := sparseLoop_frame good h (List.range g.facs.length) ⟨g, List.replicate g.numValues 0⟩ (by
    intro i fp hfp
    simp only at hfp
    rw [lookup_facPl hr.laid, Option.map_eq_some_iff] at hfp
    obtain ⟨f, hf, rfl⟩ := hfp
    exact hr.safe i f hf) hr.comps
  have hfr' := sparseLoop_frame good h (List.range g.facs.length) ⟨withSparse m g, List.replicate g.numValues 0⟩ (by
    intro i fp hfp
    simp only at hfp
    rw [lookup_facPl hr'.laid, Option.map_eq_some_iff] at hfp
    obtain ⟨f, hf, rfl⟩ := hfp
    exact hr'.safe i f hf) hr'.comps
  have hl : SE.forEach (List.range g.facs.length) (sparseOne h) ⟨withSparse m g, List.replicate g.numValues 0⟩ =
    (withSparseWork m (SE.forEach (List.range g.facs.length) (sparseOne h) ⟨g, List.replicate g.numValues 0⟩).1,
      (SE.forEach (List.range g.facs.length) (sparseOne h) ⟨g, List.replicate g.numValues 0⟩).2) :=
    Blind.forEach (l := List.range g.facs.length) (sparseOne_withSparse m h) ⟨g, List.replicate g.numValues 0⟩
  rw [hl] at hfr'
  generalize hL : SE.forEach (List.range g.facs.length) (sparseOne h) ⟨g, List.replicate g.numValues 0⟩ = L at hl hfr hfr'
  unfold computeSparse
  simp only [show (withSparse m g).finalized = g.finalized from rfl, show (withSparse m g).sparseInit = g.sparseInit from rfl,
    show (withSparse m g).facs = g.facs from rfl, show (withSparse m g).numValues = g.numValues from rfl, hl, hL,
    hr.laid.fin, hr.laid.sinit, Bool.not_true, Bool.false_eq_true, if_false]
  rcases L with ⟨s, o⟩
  cases o with
  | ub => exact .inr (.inr (.inl rfl))
  | threw =>
    have e := hfr.eq
    exact .inr (.inl ⟨s.g, rfl, rfl, by rw [e], by rw [e]⟩)
  | ok u =>
    have hs := (hr.scratch hfr).1
    have hs' := (hr'.scratch hfr').1
    have e : s.g.sparse = g.sparse := by rw [hfr.eq]
    have en : s.g.numValues = g.numValues := by rw [hfr.eq]
    simp only at hs hs'
    rcases fill_ok hs with ⟨⟨_, hb⟩, _⟩ | ⟨_, J, e1, e2, e3, e4, e5⟩
    · exact absurd (by rw [← e]; exact hb) a1
    rcases fill_ok hs' with ⟨⟨_, hb⟩, _⟩ | ⟨_, J', f1, f2, f3, f4, f5⟩
    · exact absurd hb a2
    dsimp only
    rw [e1]
    rw [show (withSparseWork m s).g.sparseValid = s.g.sparseValid from rfl] at f1 ⊢
    rw [f1]
    refine .inl ⟨_, J, J', rfl, rfl, rfl, ?_, ?_⟩
    · rw [e2, f2, hs.laid.spRows, hs'.laid.spRows]
      rfl
    · apply List.ext_getElem?
      intro i
      rcases Nat.lt_or_ge i s.g.numValues with hi | hi
      · rw [e5 i hi, f5 i hi]
        rfl
      · rw [List.getElem?_eq_none (by rw [f4]; exact hi), List.getElem?_eq_none (by rw [e4]; exact hi)]

end Factorama.Graph

namespace Factorama.Graph
open Spec SpMat
variable {F V : Type} [Zero F] [VarLike F V]

/-- Nothing is required of the buffers of the factors. -/
abbrev anyBuffer : Nat → List (Mat F) → Prop := fun _ _ => True

/-- A graph and a copy of it on which the same was done since. -/
structure Copied (h : Heap V) (g g' : Graph F V) : Prop where
  ready : Ready anyBuffer h g
  ready' : Ready anyBuffer h g'
  some : ∃ c, c < g.numValues ∧ colVals c (rowLog g.facPl) ≠ []
  same : g.sparseValid = true → g'.sparse.rows = g.sparse.rows ∧ g'.sparse.columns = g.sparse.columns
  twin : ∃ g0 m, Determined h g g0 ∧ g' = withSparse m g0

variable [LawfulVar F V]

theorem Copied.shape {h h' : Heap V} {g g' : Graph F V} (hc : Copied h g g') (hs : SameShape h h') : Copied h' g g' where
  ready := hc.ready.shape hs
  ready' := hc.ready'.shape hs
  some := hc.some
  same := hc.same
  twin := by
    obtain ⟨g0, m, h1, h2⟩ := hc.twin
    exact ⟨g0, m, h1.shape hs, h2⟩

theorem Copied.layout {h : Heap V} {g g' : Graph F V} (hc : Copied h g g') : Layout h g ∧ Layout h g' := by
  obtain ⟨g0, m, ⟨hl, b, M, _, _, rfl⟩, rfl⟩ := hc.twin
  exact ⟨hl, hl.fin, hl.pl, hl.nv, hl.fpl, hl.nr, hl.ids, hl.wp⟩

omit [LawfulVar F V] in
theorem Copied.fields {h : Heap V} {g g' : Graph F V} (hc : Copied h g g') : g'.varsVec = g.varsVec ∧ g'.facs = g.facs ∧
    g'.varPl = g.varPl ∧ g'.sparseValid = g.sparseValid ∧ g'.finalized = g.finalized := by
  obtain ⟨g0, m, ⟨hl, b, M, _, _, rfl⟩, rfl⟩ := hc.twin
  exact ⟨rfl, rfl, rfl, rfl, rfl⟩

omit [LawfulVar F V] in
theorem Copied.jacobian {h : Heap V} {g g' : Graph F V} (hc : Copied h g g') :
    (∃ J J', g.sparseJacobian = .ok J ∧ g'.sparseJacobian = .ok J' ∧ J'.rows = J.rows ∧ J'.columns = J.columns) ∨
    (g.sparseJacobian = .threw ∧ g'.sparseJacobian = .threw) := by
  have hv := hc.fields.2.2.2.1
  unfold sparseJacobian
  rw [hv]
  cases e : g.sparseValid
  · exact .inr ⟨rfl, rfl⟩
  · exact .inl ⟨_, _, rfl, rfl, hc.same e⟩

theorem Copied.residual {env env' : Env F V} {h : Heap V} {g g' : Graph F V} (hc : Copied h g g') (b b' : List F) :
    (∃ r, computeResidualInto env g h b = (r, .ok ()) ∧ computeResidualInto env' g' h b' = (r, .ok ())) ∨
    ((computeResidualInto env g h b).2 = .threw ∧ (computeResidualInto env' g' h b').2 = .threw) ∨
    (computeResidualInto env g h b).2 = .ub ∨ (computeResidualInto env' g' h b').2 = .ub := by
  obtain ⟨g0, m, hd, rfl⟩ := hc.twin
  rw [computeResidualInto_withSparse]
  exact hd.residual b b'

theorem Copied.initial {env env' : Env F V} {h : Heap V} {g g' : Graph F V} (hc : Copied h g g') :
    (∃ g1 g1' r, computeResidual env h g = (g1, .ok r) ∧ computeResidual env' h g' = (g1', .ok r) ∧ Copied h g1 g1') ∨
    (∃ g1 g1', computeResidual env h g = (g1, .threw) ∧ computeResidual env' h g' = (g1', .threw) ∧ Copied h g1 g1') ∨
    (computeResidual env h g).2 = .ub ∨ (computeResidual env' h g').2 = .ub := by
  have hr := computeResidual_frame (env := env) hc.ready
  have hr' := computeResidual_frame (env := env') hc.ready'
  have hsame := hc.same
  have hsome := hc.some
  obtain ⟨g0, m, hd, rfl⟩ := hc.twin
  have hb := computeResidual_withSparse env' h m g0
  have hsp : (computeResidual env h g).1.sparse = g.sparse ∧ (computeResidual env h g).1.sparseValid = g.sparseValid ∧
      (computeResidual env h g).1.numValues = g.numValues ∧ (computeResidual env h g).1.facPl = g.facPl := by
    unfold computeResidual
    split
    · exact ⟨rfl, rfl, rfl, rfl⟩
    · dsimp only
      split <;> exact ⟨rfl, rfl, rfl, rfl⟩
  have key : ∀ g1 g1', (computeResidual env h g).1 = g1 → (computeResidual env' h g0).1 = g1' → Determined h g1 g1' →
      Copied h g1 (withSparse m g1') := by
    rintro g1 g1' rfl rfl hd1
    refine ⟨hr.1, by rw [hb] at hr'; exact hr'.1, ?_, fun hv => ?_, _, m, hd1, rfl⟩
    · rw [hsp.2.2.1, hsp.2.2.2]; exact hsome
    · rw [hsp.2.1] at hv
      rw [hsp.1]
      exact hsame hv
  rw [hb]
  rcases hd.initial (env := env) (env' := env') with ⟨g1, g1', r, e, e', h1⟩ | ⟨g1, g1', e, e', h1⟩ | e | e
  · rw [e, e'] at key ⊢
    exact .inl ⟨g1, _, r, rfl, rfl, key _ _ rfl rfl h1⟩
  · rw [e, e'] at key ⊢
    exact .inr (.inl ⟨g1, _, rfl, rfl, key _ _ rfl rfl h1⟩)
  · exact .inr (.inr (.inl e))
  · exact .inr (.inr (.inr e))

theorem Copied.dense {env env' : Env F V} {h : Heap V} {g g' : Graph F V} (hc : Copied h g g') :
    (∃ g1 g1' J J', computeDense env h g = (g1, .ok J) ∧ computeDense env' h g' = (g1', .ok J') ∧ Copied h g1 g1') ∨
    (∃ g1 g1', computeDense env h g = (g1, .threw) ∧ computeDense env' h g' = (g1', .threw) ∧ Copied h g1 g1') ∨
    (computeDense env h g).2 = .ub ∨ (computeDense env' h g').2 = .ub := by
  have hr := computeDense_frame (env := env) hc.ready
  have hr' := computeDense_frame (env := env') hc.ready'
  have hsame := hc.same
  have hsome := hc.some
  obtain ⟨g0, m, hd, rfl⟩ := hc.twin
  have hb := computeDense_withSparse env' h m g0
  have hsp : (computeDense env h g).1.sparse = g.sparse ∧ (computeDense env h g).1.sparseValid = g.sparseValid ∧
      (computeDense env h g).1.numValues = g.numValues ∧ (computeDense env h g).1.facPl = g.facPl := by
    unfold computeDense
    split
    · exact ⟨rfl, rfl, rfl, rfl⟩
    · dsimp only
      split <;> exact ⟨rfl, rfl, rfl, rfl⟩
  have key : ∀ g1 g1', (computeDense env h g).1 = g1 → (computeDense env' h g0).1 = g1' → Determined h g1 g1' →
      Copied h g1 (withSparse m g1') := by
    rintro g1 g1' rfl rfl hd1
    refine ⟨hr.1, by rw [hb] at hr'; exact hr'.1, ?_, fun hv => ?_, _, m, hd1, rfl⟩
    · rw [hsp.2.2.1, hsp.2.2.2]; exact hsome
    · rw [hsp.2.1] at hv
      rw [hsp.1]
      exact hsame hv
  rw [hb]
  rcases hd.dense (env := env) (env' := env') with ⟨g1, g1', J, J', e, e', h1⟩ | ⟨g1, g1', e, e', h1⟩ | e | e
  · rw [e, e'] at key ⊢
    exact .inl ⟨g1, _, J, J', rfl, rfl, key _ _ rfl rfl h1⟩
  · rw [e, e'] at key ⊢
    exact .inr (.inl ⟨g1, _, rfl, rfl, key _ _ rfl rfl h1⟩)
  · exact .inr (.inr (.inl e))
  · exact .inr (.inr (.inr e))

theorem Copied.sparse {h : Heap V} {g g' : Graph F V} (hc : Copied h g g') :
    (∃ g1 g1' J J', computeSparse h g = (g1, .ok J) ∧ computeSparse h g' = (g1', .ok J') ∧ Copied h g1 g1' ∧
      J'.rows = J.rows ∧ J'.columns = J.columns) ∨
    (∃ g1 g1', computeSparse h g = (g1, .threw) ∧ computeSparse h g' = (g1', .threw) ∧ Copied h g1 g1') ∨
    (computeSparse h g).2 = .ub ∨ (computeSparse h g').2 = .ub := by
  have hr := computeSparse_frame hc.ready
  have hr' := computeSparse_frame hc.ready'
  have hsame := hc.same
  have hsome := hc.some
  have hready := hc.ready
  have hready' := hc.ready'
  obtain ⟨g0, m, hd, rfl⟩ := hc.twin
  have hd0 := hd
  obtain ⟨hl, b, M, hM1, hM2, rfl⟩ := hd
  have hk := computeSparse_kept h g
  have hsome' : ∃ c, c < (computeSparse h g).1.numValues ∧ colVals c (rowLog (computeSparse h g).1.facPl) ≠ [] := by
    rw [hr.2.numValues, hr.2.facPl]; exact hsome
  have hready0 : Ready anyBuffer h (withSparse m g) :=
    { laid := by
        have := hready'.laid
        exact ⟨this.fin, this.sinit, this.pl, this.nv, this.placed, this.fpl, this.nr, this.le, this.rowsLen, this.rows,
          this.dataLen, this.data, this.comps, this.spRows, this.spLen, this.spCap⟩
      ids := hready'.ids
      ident := hready'.ident
      norep := hready'.norep
      safe := hready'.safe
      comps := hready'.comps
      jac := hready.jac
      spNew := hready'.spNew
      spFull := hready'.spFull
      alloc := hready'.alloc }
  have e0 : computeSparse h (withSparse m (dress b M g)) =
      (dress b M (computeSparse h (withSparse m g)).1, (computeSparse h (withSparse m g)).2) :=
    computeSparse_dress b M h (withSparse m g)
  have hcj : (computeSparse h g).1.cachedJac = g.cachedJac :=
    congrArg (fun p => p.1.cachedJac) (computeSparse_dress g.cachedRes g.cachedJac h g)
  have hl1 := hl.kept hk (SameShape.refl h)
  rw [e0] at hr' ⊢
  rcases computeSparse_withSparse hready hready0 hsome with ⟨g1, J, J', e, e', hj, h1, h2⟩ | ⟨g1, e, e', h1, h2⟩ | e | e
  · rw [e] at hr hsome' hl1 hcj ⊢
    rw [e'] at hr' ⊢
    refine .inl ⟨g1, _, J, J', rfl, rfl, ⟨hr.1, hr'.1, hsome', fun _ => ?_, dress b M g1, J', ?_, rfl⟩, h1, h2⟩
    · show J'.rows = g1.sparse.rows ∧ J'.columns = g1.sparse.columns
      rw [hj]
      exact ⟨h1, h2⟩
    · exact ⟨hl1, b, M, by rw [show g1.cachedJac = _ from hcj]; exact hM1, by rw [show g1.cachedJac = _ from hcj]; exact hM2, rfl⟩
  · rw [e] at hr hsome' hl1 hcj ⊢
    rw [e'] at hr' ⊢
    refine .inr (.inl ⟨g1, _, rfl, rfl, ⟨hr.1, hr'.1, hsome', fun hv => ?_, dress b M g1, m, ?_, rfl⟩⟩)
    · rw [show g1.sparseValid = _ from h2] at hv
      rw [h1]
      exact hsame hv
    · exact ⟨hl1, b, M, by rw [show g1.cachedJac = _ from hcj]; exact hM1, by rw [show g1.cachedJac = _ from hcj]; exact hM2, rfl⟩
  · exact .inr (.inr (.inl e))
  · exact .inr (.inr (.inr e))

omit [LawfulVar F V] in
theorem full_columns {good : Nat → List (Mat F) → Prop} {h : Heap V} {g : Graph F V} (hr : Ready good h g)
    (hv : g.sparseValid = true) : g.sparse.copied.columns = g.sparse.columns :=
  copied_columns fun c col hc => by
    have := hr.spFull hv c col hc
    rw [this.1, ← this.2, List.length_map]

/-- Both are copied. -/
theorem Copied.copy {h : Heap V} {g g' : Graph F V} (hc : Copied h g g') : Copied h (copy g) (copy g') where
  ready := hc.ready.copy
  ready' := hc.ready'.copy
  some := hc.some
  same hv := by
    have h1 := full_columns hc.ready hv
    have h2 := full_columns hc.ready' (hc.fields.2.2.2.1.trans hv)
    exact ⟨(hc.same hv).1, h2.trans ((hc.same hv).2.trans h1.symm)⟩
  twin := by
    obtain ⟨g0, m, ⟨hl, b, M, h1, h2, rfl⟩, rfl⟩ := hc.twin
    exact ⟨dress b M (Graph.copy g), m.copied, ⟨⟨hl.fin, hl.pl, hl.nv, hl.fpl, hl.nr, hl.ids, hl.wp⟩, b, M, h1, h2, rfl⟩, rfl⟩

/-- A graph and a copy made of it. -/
theorem Copied.start {h : Heap V} {g : Graph F V} (hl : Layout h g) (hr : Ready anyBuffer h g)
    (hsome : ∃ c, c < g.numValues ∧ colVals c (rowLog g.facPl) ≠ []) : Copied h g (Graph.copy g) where
  ready := hr
  ready' := hr.copy
  some := hsome
  same hv := ⟨rfl, full_columns hr hv⟩
  twin := ⟨g, _, ⟨hl, g.cachedRes, g.cachedJac, rfl, rfl, rfl⟩, rfl⟩

end Factorama.Graph

namespace Factorama.Opt
open Spec Graph
variable {F V Fact : Type} [Zero F] [VarLike F V] [LawfulVar F V]

theorem copied_laws {A : Arith F} {L : LinAlg F Fact} (hL : IgnoresStorage L) (env env' : Env F V) :
    TwinLaws A L env env' (Copied (F := F) (V := V)) Copied where
  weaken := id
  vars hc := hc.fields.1
  place hc := hc.fields.2.2.1
  shape := Copied.shape
  shape1 := Copied.shape
  residual b b' hd := by
    rcases hd.residual (env := env) (env' := env') b b' with ⟨r, e, e'⟩ | h | h | h
    · exact .inl ⟨r, r, e, e', rfl⟩
    · exact .inr (.inl h)
    · exact .inr (.inr (.inl h))
    · exact .inr (.inr (.inr h))
  initial hd := by
    rcases hd.initial (env := env) (env' := env') with ⟨g1, g1', r, e, e', h⟩ | h | h | h
    · exact .inl ⟨g1, g1', r, r, e, e', rfl, h⟩
    · exact .inr (.inl h)
    · exact .inr (.inr (.inl h))
    · exact .inr (.inr (.inr h))
  sparse {h g g'} hd := by
    rcases hd.sparse with ⟨g1, g1', J, J', e, e', h1, h2, h3⟩ | h | h | h
    · refine .inl ⟨g1, g1', J, J', e, e', h1, (hL J J' h2 h3).1.symm, fun r r' hr hr' => ?_⟩
      have a1 := evaluated_isResidual hd.layout.1 hr
      have a2 := evaluated_isResidual hd.layout.2 hr'
      rw [hd.fields.2.1] at a2
      rw [isResidual_unique a1 a2]
      exact ((hL J J' h2 h3).2 _).symm
    · exact .inr (.inl h)
    · exact .inr (.inr (.inl h))
    · exact .inr (.inr (.inr h))
  jac {h g g'} hd := by
    rcases hd.jacobian with ⟨J, J', e, e', h2, h3⟩ | h
    · exact .inl ⟨J, J', e, e', (hL J J' h2 h3).1.symm⟩
    · exact .inr h

/-- A call on variables through the graph or its copy. -/
theorem copied_heap {α : Type} {m : Graph F V → SE (Heap V) α} {s s' : OptWorld F V Fact}
    (hm : ∀ g', Copied s.heap s.graph g' → m g' = m s.graph) (hsh : SameShape s.heap (m s.graph s.heap).1)
    (ht : Twin Copied anyPair s s') :
    let p := World.onHeap m ⟨s.heap, s.graph⟩
    let p' := World.onHeap m ⟨s'.heap, s'.graph⟩
    p'.2 = p.2 ∧ (Twin Copied anyPair { s with heap := p.1.heap, graph := p.1.graph }
      { s' with heap := p'.1.heap, graph := p'.1.graph }) := by
  obtain ⟨g', a, b, rfl, hd, _⟩ := ht
  dsimp only [World.onHeap]
  rw [hm g' hd]
  exact ⟨rfl, _, a, b, rfl, hd.shape hsh, trivial⟩

/-- One call on a graph and on its copy. -/
theorem copied_call {A : Arith F} {L : LinAlg F Fact} (hL : IgnoresStorage L) {env env' : Env F V} {c : Call F V}
    {s s' : OptWorld F V Fact} (hc : ¬ changesStructure c) (ht : Twin Copied anyPair s s')
    (h1 : (step A L env c s).2 ≠ .ub) (h2 : (step A L env' c s').2 ≠ .ub) :
    (step A L env' c s').2 = (step A L env c s).2 ∧ Twin Copied anyPair (step A L env c s).1 (step A L env' c s').1 := by
  cases c with
  | setup g st =>
    obtain ⟨g', a, b, rfl, hd, _⟩ := ht
    exact ⟨rfl, g', a, b, rfl, hd, trivial⟩
  | prepare =>
    have := Rel.prepare (A := A) (copied_laws (A := A) hL env env').jac s s' ht
    simp only [step] at h1 h2 ⊢
    generalize Opt.prepare A L s = p, Opt.prepare A L s' = p' at this h1 h2 ⊢
    cases this with
    | ok h => exact ⟨rfl, h⟩
    | threw h => exact ⟨rfl, h⟩
    | left => simp at h1
    | right => simp at h2
  | optimize =>
    have := Rel.optimize (copied_laws (A := A) hL env env') s s' ht
    simp only [step] at h1 h2 ⊢
    generalize Opt.optimize A L env s = p, Opt.optimize A L env' s' = p' at this h1 h2 ⊢
    cases this with
    | ok h => exact ⟨rfl, h.1⟩
    | threw h => exact ⟨rfl, h⟩
    | left => simp at h1
    | right => simp at h2
  | user op =>
    cases op with
    | addVariable p => exact absurd trivial hc
    | addFactor p => exact absurd trivial hc
    | finalize => exact absurd trivial hc
    | setConstant r b => exact absurd trivial hc
    | setValue r x =>
      exact copied_heap (m := fun _ => mutate r fun v => VarLike.setValue v x) (fun _ _ => rfl)
        (mutate_setValue_shape r x _) ht
    | incrOne r x =>
      exact copied_heap (m := fun _ => mutate r fun v => VarLike.applyIncr v x) (fun _ _ => rfl)
        (mutate_applyIncr_shape r x _) ht
    | setVector x =>
      refine copied_heap (m := fun g => setVariableValuesFromVector g x) (fun g' hd => ?_) (setVectorLoop_shape x _ 0 _) ht
      unfold setVariableValuesFromVector
      rw [hd.fields.1]
    | applyIncrement x =>
      refine copied_heap (m := fun g => Graph.applyIncrement g x) (fun g' hd => ?_) (applyIncrement_shape _ x _) ht
      obtain ⟨g0, m, ⟨hl, b, M, _, _, rfl⟩, rfl⟩ := hd.twin
      rfl
    | copy =>
      obtain ⟨g', a, b, rfl, hd, _⟩ := ht
      exact ⟨rfl, _, a, b, rfl, hd.copy, trivial⟩
    | residualInto buf =>
      obtain ⟨g', a, b, rfl, hd, _⟩ := ht
      simp only [step, World.step] at h1 h2 ⊢
      refine ⟨?_, g', a, b, rfl, hd, trivial⟩
      rcases hd.residual (env := env) (env' := env') buf buf with ⟨r, e, e'⟩ | ⟨e, e'⟩ | e | e
      · rw [e, e']
      · rw [e, e']
      · exact absurd e h1
      · exact absurd e h2
    | residual =>
      obtain ⟨g', a, b, rfl, hd, _⟩ := ht
      simp only [step, World.step, World.onGraph] at h1 h2 ⊢
      rcases hd.initial (env := env) (env' := env') with ⟨g1, g1', r, e, e', hd'⟩ | ⟨g1, g1', e, e', hd'⟩ | e | e
      · rw [e, e']; exact ⟨rfl, g1', a, b, rfl, hd', trivial⟩
      · rw [e, e']; exact ⟨rfl, g1', a, b, rfl, hd', trivial⟩
      · rw [e] at h1; exact absurd rfl h1
      · rw [e] at h2; exact absurd rfl h2
    | dense =>
      obtain ⟨g', a, b, rfl, hd, _⟩ := ht
      simp only [step, World.step, World.onGraph] at h1 h2 ⊢
      rcases hd.dense (env := env) (env' := env') with ⟨g1, g1', J, J', e, e', hd'⟩ | ⟨g1, g1', e, e', hd'⟩ | e | e
      · rw [e, e']; exact ⟨rfl, g1', a, b, rfl, hd', trivial⟩
      · rw [e, e']; exact ⟨rfl, g1', a, b, rfl, hd', trivial⟩
      · rw [e] at h1; exact absurd rfl h1
      · rw [e] at h2; exact absurd rfl h2
    | denseAndResidual =>
      obtain ⟨g', a, b, rfl, hd, _⟩ := ht
      simp only [step, World.step, World.onGraph] at h1 h2 ⊢
      have hf : ¬ (!s.graph.finalized) = true := by simp [hd.ready.laid.fin]
      have hf' : ¬ (!g'.finalized) = true := by simp [hd.ready'.laid.fin]
      unfold computeDenseAndResidual at h1 h2 ⊢
      simp only [if_neg hf, if_neg hf'] at h1 h2 ⊢
      rcases hd.dense (env := env) (env' := env') with ⟨g1, g1', J, J', e, e', hd'⟩ | ⟨g1, g1', e, e', hd'⟩ | e | e
      · rw [SE.bind_ok e] at h1 ⊢
        rw [SE.bind_ok e'] at h2 ⊢
        rcases hd'.initial (env := env) (env' := env') with ⟨g2, g2', r, f, f', hd''⟩ | ⟨g2, g2', f, f', hd''⟩ | f | f
        · rw [SE.bind_ok f, SE.bind_ok f']; exact ⟨rfl, g2', a, b, rfl, hd'', trivial⟩
        · rw [SE.bind_threw f, SE.bind_threw f']; exact ⟨rfl, g2', a, b, rfl, hd'', trivial⟩
        · rcases hx : computeResidual env s.heap g1 with ⟨y, o⟩
          rw [hx] at f
          obtain rfl : o = .ub := f
          rw [SE.bind_ub hx] at h1
          exact absurd rfl h1
        · rcases hx : computeResidual env' s.heap g1' with ⟨y, o⟩
          rw [hx] at f
          obtain rfl : o = .ub := f
          rw [SE.bind_ub hx] at h2
          exact absurd rfl h2
      · rw [SE.bind_threw e, SE.bind_threw e']; exact ⟨rfl, g1', a, b, rfl, hd', trivial⟩
      · rcases hx : computeDense env s.heap s.graph with ⟨y, o⟩
        rw [hx] at e
        obtain rfl : o = .ub := e
        rw [SE.bind_ub hx] at h1
        exact absurd rfl h1
      · rcases hx : computeDense env' s.heap g' with ⟨y, o⟩
        rw [hx] at e
        obtain rfl : o = .ub := e
        rw [SE.bind_ub hx] at h2
        exact absurd rfl h2
    | sparse =>
      obtain ⟨g', a, b, rfl, hd, _⟩ := ht
      simp only [step, World.step, World.onGraph] at h1 h2 ⊢
      rcases hd.sparse with ⟨g1, g1', J, J', e, e', hd', _⟩ | ⟨g1, g1', e, e', hd'⟩ | e | e
      · rw [e, e']; exact ⟨rfl, g1', a, b, rfl, hd', trivial⟩
      · rw [e, e']; exact ⟨rfl, g1', a, b, rfl, hd', trivial⟩
      · rw [e] at h1; exact absurd rfl h1
      · rw [e] at h2; exact absurd rfl h2

/-- Programs. -/
theorem copied_runs {A : Arith F} {L : LinAlg F Fact} (hL : IgnoresStorage L) {s t : OptWorld F V Fact}
    {evs : List (Call F V × Res Unit)} (hrun : Runs A L s evs t) :
    ∀ {evs' : List (Call F V × Res Unit)} {s' t' : OptWorld F V Fact}, Runs A L s' evs' t' →
    evs'.map (·.1) = evs.map (·.1) → (∀ ev ∈ evs, ¬ changesStructure ev.1) → Twin Copied anyPair s s' →
    evs' = evs ∧ Twin Copied anyPair t t' := by
  induction hrun with
  | nil s =>
    intro evs' s' t' hrun' hm _ hp
    cases hrun' with
    | nil => exact ⟨rfl, hp⟩
    | cons => simp at hm
  | @cons s s1 s2 c evs r env e hne hrest ih =>
    intro evs' s' t' hrun' hm hq hp
    cases hrun' with
    | nil => simp at hm
    | @cons _ s1' _ c' evs' r' env' e' hne' hrest' =>
      simp only [List.map_cons, List.cons.injEq] at hm
      obtain ⟨rfl, hm⟩ := hm
      have := copied_call (A := A) (c := c') hL (env := env) (env' := env') (hq (c', r) (by simp)) hp (by rw [e]; exact hne) (by rw [e']; exact hne')
      rw [e, e'] at this
      obtain ⟨rfl, hp'⟩ := this
      have := ih hrest' hm (fun ev hev => hq ev (by simp [hev])) hp'
      exact ⟨by rw [this.1], this.2⟩

end Factorama.Opt

namespace Factorama.Opt
open Spec Graph
variable {F V Fact : Type} [Zero F] [VarLike F V] [LawfulVar F V]

/-- The two graphs of a shared state, with their common variables. -/
structure SharedInv (w : World F V) (s : Shared F V Fact) : Prop where
  layout : Layout s.heap s.original
  layout' : Layout s.heap s.duplicate
  ready : Ready (ownBuffers w.graph.facs) s.heap s.original
  ready' : Ready (ownBuffers w.graph.facs) s.heap s.duplicate
  same : SameStructure w.graph s.original
  same' : SameStructure w.graph s.duplicate
  shape : SameShape w.heap s.heap

theorem sharedInv_step {A : Arith F} {L : LinAlg F Fact} {env : Env F V} {w : World F V} {s s' : Shared F V Fact}
    {c : SharedCall F V} {r : Res Unit} (hi : SharedInv w s) (hc : ¬ c.changesStructure)
    (he : s.step A L env c = (s', r)) (hr : r ≠ .ub) : SharedInv w s' := by
  cases c with
  | original op =>
    have hop : op.isValueOp := Classical.byContradiction hc
    simp only [Shared.step, Prod.mk.injEq] at he
    obtain ⟨rfl, rfl⟩ := he
    obtain ⟨h1, h2, h3⟩ := ready_step (env := env) (w := ⟨s.heap, s.original⟩) hop hi.ready
    have hrun : World.Runs ⟨s.heap, s.original⟩ [(op, (World.step env op ⟨s.heap, s.original⟩).2)]
        (World.step env op ⟨s.heap, s.original⟩).1 := .cons env rfl hr (.nil _)
    have hk := kept_runs hrun (by simpa using hop)
    exact ⟨hi.layout.kept hk.1 hk.2, hi.layout'.kept (Kept.refl _) h3, h1, hi.ready'.shape h3, hi.same.trans h2, hi.same',
      hi.shape.trans h3⟩
  | duplicate c =>
    simp only [Shared.step, Prod.mk.injEq] at he
    obtain ⟨rfl, rfl⟩ := he
    obtain ⟨evs, hv, hrun⟩ := reach_call (A := A) (L := L) (env := env) (s := ⟨s.heap, s.duplicate, s.opt⟩) hc rfl hr
    obtain ⟨h1, h2, h3⟩ := ready_runs hrun hv hi.ready'
    have hk := kept_runs hrun hv
    exact ⟨hi.layout.kept (Kept.refl _) h3, hi.layout'.kept hk.1 hk.2, hi.ready.shape h3, h1, hi.same, hi.same'.trans h2,
      hi.shape.trans h3⟩

theorem sharedInv_runs {A : Arith F} {L : LinAlg F Fact} {w : World F V} {s s' : Shared F V Fact}
    {evs : List (SharedCall F V × Res Unit)} (hrun : Shared.Runs A L s evs s') (hi : SharedInv w s)
    (hc : ∀ ev ∈ evs, ¬ ev.1.changesStructure) : SharedInv w s' := by
  induction hrun with
  | nil => exact hi
  | @cons s s1 s2 c evs r env e hne _ ih =>
    exact ih (sharedInv_step hi (hc (c, r) (by simp)) e hne) fun ev hev => hc ev (by simp [hev])

omit [LawfulVar F V] in
/-- Sparse matrices described by the same columns. -/
theorem sameEntries_of {J J' : SpMat F} {n : Nat} {f : Nat → List (Nat × F)} (h0 : J'.rows = J.rows)
    (h1 : J.columns.length = n) (h2 : J'.columns.length = n) (h3 : ∀ c, c < n → ∃ cap, J.columns[c]? = some ⟨cap, f c⟩)
    (h4 : ∀ c, c < n → ∃ cap, J'.columns[c]? = some ⟨cap, f c⟩) : SameEntries J J' := by
  refine ⟨h0, ?_⟩
  apply List.ext_getElem?
  intro i
  simp only [List.getElem?_map]
  rcases Nat.lt_or_ge i n with hi | hi
  · obtain ⟨a, e⟩ := h3 i hi
    obtain ⟨b, e'⟩ := h4 i hi
    rw [e, e']; rfl
  · rw [List.getElem?_eq_none (by omega), List.getElem?_eq_none (by omega)]

end Factorama.Opt
