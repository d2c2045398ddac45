import Verif.Lemmas.Twin
import Verif.Lemmas.OptSystem
import Verif.Lemmas.ResidualRows
import Verif.Spec.Order

/-! Helper lemmas: graphs with the same factors in another order. -/

namespace Factorama
open Spec

section rows
variable {F V : Type} [Zero F] [VarLike F V]

omit [Zero F] [VarLike F V] in
/-- The rows, factor by factor. -/
theorem map_range_rowTotal {α : Type} (facs : List (Factor F V)) (ρ : Nat → α) :
    (List.range (rowTotal facs)).map ρ = (List.range facs.length).flatMap fun k => match facs[k]? with
      | none => []
      | some f => (List.range f.residualSize).map fun i => ρ (rowStart facs k + i) := by
  induction facs generalizing ρ with
  | nil => rfl
  | cons f facs ih =>
    have e : rowTotal (f :: facs) = f.residualSize + rowTotal facs := by simp [rowTotal]
    rw [e, List.range_add, List.map_append, List.map_map, ih, List.length_cons, List.range_succ_eq_map, List.flatMap_cons,
      List.flatMap_map]
    congr 1
    · simp [rowStart, rowTotal]
    · congr 1
      funext k
      simp only [List.getElem?_cons_succ]
      cases facs[k]? with
      | none => rfl
      | some f' =>
        simp only [Function.comp_apply]
        apply List.map_congr_left
        intro i _
        congr 1
        simp [rowStart, rowTotal, Nat.add_assoc]

omit [Zero F] [VarLike F V] in
/-- Lists of rows of two lists of factors that differ by a permutation, when the rows of a factor are the same in both. -/
theorem perm_rows {α : Type} {facs facs' : List (Factor F V)} (hp : facs.Perm facs') {ρ ρ' : Nat → α}
    (hself : ∀ (k k' : Nat) f, facs[k]? = some f → facs[k']? = some f → ∀ i, i < f.residualSize →
      ρ (rowStart facs k + i) = ρ (rowStart facs k' + i))
    (hsame : ∀ (k k' : Nat) f, facs[k]? = some f → facs'[k']? = some f → ∀ i, i < f.residualSize →
      ρ (rowStart facs k + i) = ρ' (rowStart facs' k' + i)) :
    ((List.range (rowTotal facs)).map ρ).Perm ((List.range (rowTotal facs')).map ρ') := by
  classical
  let φ : Factor F V → List α := fun f =>
    if hf : ∃ k : Nat, facs[k]? = some f then (List.range f.residualSize).map fun i => ρ (rowStart facs hf.choose + i) else []
  have hφ : ∀ (f : Factor F V) (hf : ∃ k : Nat, facs[k]? = some f),
      φ f = (List.range f.residualSize).map fun i => ρ (rowStart facs hf.choose + i) := fun f hf => dif_pos hf
  have e1 : (List.range (rowTotal facs)).map ρ = facs.flatMap φ := by
    rw [map_range_rowTotal, Graph.flatMap_range_getElem facs φ]
    congr 1
    funext k
    cases hk : facs[k]? with
    | none => rfl
    | some f =>
      dsimp only
      rw [hφ f ⟨k, hk⟩]
      apply List.map_congr_left
      intro i hi
      exact hself _ _ f hk (Exists.choose_spec (⟨k, hk⟩ : ∃ k : Nat, facs[k]? = some f)) i (by simpa using hi)
  have e2 : (List.range (rowTotal facs')).map ρ' = facs'.flatMap φ := by
    rw [map_range_rowTotal, Graph.flatMap_range_getElem facs' φ]
    congr 1
    funext k
    cases hk : facs'[k]? with
    | none => rfl
    | some f =>
      dsimp only
      have hf : ∃ k : Nat, facs[k]? = some f := List.mem_iff_getElem?.1 (hp.mem_iff.2 (List.mem_of_getElem? hk))
      rw [hφ f hf]
      apply List.map_congr_left
      intro i hi
      exact (hsame _ _ f hf.choose_spec hk i (by simpa using hi)).symm
  rw [e1, e2]
  exact hp.flatMap_right φ

/-- The rows of a factor in two stacked Jacobians are the same. -/
theorem stacked_row {h : Heap V} {vars : List VRef} {facs facs' : List (Factor F V)} {blocks blocks' : Nat → List (Mat F)}
    {M M' : Nat → Nat → F} (hnd : vars.Nodup)
    (hb : ∀ (k : Nat) f, facs[k]? = some f → f.computeJacobians h [] = .ok (blocks k) ∧ ProperBlocks h f (blocks k))
    (hb' : ∀ (k : Nat) f, facs'[k]? = some f → f.computeJacobians h [] = .ok (blocks' k) ∧ ProperBlocks h f (blocks' k))
    (h1 : IsStackedJacobian h vars facs blocks M) (h2 : IsStackedJacobian h vars facs' blocks' M')
    {k k' : Nat} {f : Factor F V} (hk : facs[k]? = some f) (hk' : facs'[k']? = some f) {i : Nat} (hi : i < f.residualSize)
    {c : Nat} (hc : c < freeTotal h vars) : M (rowStart facs k + i) c = M' (rowStart facs' k' + i) c := by
  obtain ⟨r, hr, j, hj, rfl⟩ := Graph.col_decomp h vars hnd c hc
  have hc := Graph.nonconst_of_freeSize hj
  rw [Graph.freeSize_of_nonconst hc] at hj
  have hbb : blocks' k' = blocks k := by
    have e1 := (hb k f hk).1
    rw [(hb' k' f hk').1] at e1
    exact Res.ok.inj e1
  by_cases hm : some r ∈ f.variables
  · obtain ⟨q, hq⟩ := List.mem_iff_getElem?.mp hm
    obtain ⟨J, hJ, _⟩ := (hb k f hk).2 q r hq
    rw [(h1 k f hk i hi).1 q r J hq hc hJ j hj, (h2 k' f hk' i hi).1 q r J hq hc (by rw [hbb]; exact hJ) j hj]
  · rw [(h1 k f hk i hi).2 r hr hc hm j hj, (h2 k' f hk' i hi).2 r hr hc hm j hj]

/-- The entries of a factor in two stacked residuals are the same. -/
theorem residual_row {h : Heap V} {facs facs' : List (Factor F V)} {r r' : List F} (h1 : IsResidual h facs r)
    (h2 : IsResidual h facs' r') {k k' : Nat} {f : Factor F V} (hk : facs[k]? = some f) (hk' : facs'[k']? = some f)
    {i : Nat} (hi : i < f.residualSize) : r[rowStart facs k + i]? = r'[rowStart facs' k' + i]? := by
  obtain ⟨s, e1, _, e3⟩ := isResidual_row h1 hk
  obtain ⟨s', e1', _, e3'⟩ := isResidual_row h2 hk'
  rw [e3 i hi, e3' i hi]
  rw [e1] at e1'
  rw [Res.ok.inj e1']

theorem map_range_getD (r : List F) : (List.range r.length).map (fun i => r[i]?.getD 0) = r := by
  apply List.ext_getElem
  · simp
  · intro i h1 h2
    simp [h2]

theorem isResidual_perm {h : Heap V} {facs facs' : List (Factor F V)} {r r' : List F} (hp : facs.Perm facs')
    (h1 : IsResidual h facs r) (h2 : IsResidual h facs' r') : r.Perm r' := by
  have := perm_rows hp (ρ := fun i => r[i]?.getD 0) (ρ' := fun i => r'[i]?.getD 0)
    (fun k k' f hk hk' i hi => by simp only [residual_row h1 h1 hk hk' hi])
    (fun k k' f hk hk' i hi => by simp only [residual_row h1 h2 hk hk' hi])
  rwa [← isResidual_length h1, ← isResidual_length h2, map_range_getD, map_range_getD] at this

theorem isResidual_exists_perm {h : Heap V} {facs facs' : List (Factor F V)} {r : List F} (hp : facs.Perm facs')
    (h1 : IsResidual h facs r) : ∃ r', IsResidual h facs' r' := by
  have hall : ∀ f ∈ facs', ∃ s, f.computeResidual h = .ok s ∧ s.length = f.residualSize := by
    intro f hf
    obtain ⟨k, hk⟩ := List.mem_iff_getElem?.1 (hp.mem_iff.2 hf)
    obtain ⟨s, e1, e2, _⟩ := isResidual_row h1 hk
    exact ⟨s, e1, e2⟩
  refine ⟨_, facs'.map (fun f => match f.computeResidual h with | .ok s => s | _ => []), by simp, fun k f hk => ?_, rfl⟩
  obtain ⟨s, e1, e2⟩ := hall f (List.mem_of_getElem? hk)
  exact ⟨s, by simp [hk, e1], e1, e2⟩

end rows

namespace Opt
open Graph
variable {F V Fact : Type} [Zero F] [VarLike F V]

/-- Two graphs with the same variables and the same factors, the latter possibly in another order. -/
structure Shuffled (h : Heap V) (g g' : Graph F V) : Prop where
  layout : Layout h g
  layout' : Layout h g'
  ready : Ready (ownBuffers g.facs) h g
  ready' : Ready (ownBuffers g'.facs) h g'
  vars : g'.varsVec = g.varsVec
  facs : g.facs.Perm g'.facs
  safe : ∀ f ∈ g.facs, ReuseSafe f
  proper : ∀ h', SameShape h h' → ∀ f ∈ g.facs, ∀ js, f.computeJacobians h' [] = .ok js → ProperBlocks h' f js
  free : ∃ f ∈ g.facs, ∃ r, some r ∈ f.variables ∧ VarLike.isConst (h r) = false

/-- In addition, the sparse Jacobians give the same normal matrix. -/
def ShuffledJac (L : LinAlg F Fact) (h : Heap V) (g g' : Graph F V) : Prop :=
  Shuffled h g g' ∧ ((∃ J J', g.sparseJacobian = .ok J ∧ g'.sparseJacobian = .ok J' ∧ L.gram J = L.gram J') ∨
    (g.sparseJacobian = .threw ∧ g'.sparseJacobian = .threw))

variable [LawfulVar F V]

theorem Shuffled.shape {h h' : Heap V} {g g' : Graph F V} (hs : Shuffled h g g') (hh : SameShape h h') :
    Shuffled h' g g' where
  layout := hs.layout.kept (Kept.refl g) hh
  layout' := hs.layout'.kept (Kept.refl g') hh
  ready := hs.ready.shape hh
  ready' := hs.ready'.shape hh
  vars := hs.vars
  facs := hs.facs
  safe := hs.safe
  proper h2 h3 := hs.proper h2 (hh.trans h3)
  free := by
    obtain ⟨f, hf, r, h1, h2⟩ := hs.free
    exact ⟨f, hf, r, h1, by rw [(hh r).2.1]; exact h2⟩

/-- The parts of a graph that evaluations keep. -/
theorem Shuffled.evaluated {h : Heap V} {g g' g1 g1' : Graph F V} (hs : Shuffled h g g')
    (h1 : Ready (ownBuffers g.facs) h g1 ∧ SameStructure g g1) (h1' : Ready (ownBuffers g'.facs) h g1' ∧ SameStructure g' g1')
    (hk : Kept g g1) (hk' : Kept g' g1') : Shuffled h g1 g1' where
  layout := hs.layout.kept hk (SameShape.refl h)
  layout' := hs.layout'.kept hk' (SameShape.refl h)
  ready := by rw [h1.2.facs]; exact h1.1
  ready' := by rw [h1'.2.facs]; exact h1'.1
  vars := by rw [h1.2.varsVec, h1'.2.varsVec, hs.vars]
  facs := by rw [h1.2.facs, h1'.2.facs]; exact hs.facs
  safe := by rw [h1.2.facs]; exact hs.safe
  proper := by rw [h1.2.facs]; exact hs.proper
  free := by rw [h1.2.facs]; exact hs.free

theorem into_outcome {env : Env F V} {h : Heap V} {g : Graph F V} {b : List F} :
    (∃ r, computeResidualInto env g h b = (r, .ok ())) ∨ (computeResidualInto env g h b).2 = .threw ∨
    (computeResidualInto env g h b).2 = .ub := by
  rcases e : computeResidualInto env g h b with ⟨r, x⟩
  cases x with
  | ok _ => exact .inl ⟨r, rfl⟩
  | threw => exact .inr (.inl rfl)
  | ub => exact .inr (.inr rfl)

theorem Shuffled.symm {h : Heap V} {g g' : Graph F V} (hs : Shuffled h g g') : Shuffled h g' g where
  layout := hs.layout'
  layout' := hs.layout
  ready := hs.ready'
  ready' := hs.ready
  vars := hs.vars.symm
  facs := hs.facs.symm
  safe := fun f hf => hs.safe f (hs.facs.mem_iff.2 hf)
  proper := fun h2 h3 f hf => hs.proper h2 h3 f (hs.facs.mem_iff.2 hf)
  free := by
    obtain ⟨f, hf, h1⟩ := hs.free
    exact ⟨f, hs.facs.mem_iff.1 hf, h1⟩

theorem Shuffled.residual_ok {h : Heap V} {g g' : Graph F V} (hs : Shuffled h g g') {env : Env F V} (env' : Env F V)
    {b r : List F} (b' : List F) (e : computeResidualInto env g h b = (r, .ok ())) :
    ∃ r', computeResidualInto env' g' h b' = (r', .ok ()) ∧ r.Perm r' := by
  have h1 := evaluated_isResidual hs.layout ⟨b, e⟩
  obtain ⟨r', h2⟩ := isResidual_exists_perm hs.facs h1
  exact ⟨r', isResidual_evaluates hs.layout' h2 b', isResidual_perm hs.facs h1 h2⟩

theorem Shuffled.sparse_ok {h : Heap V} {g g' g1 : Graph F V} (hs : Shuffled h g g') {J : SpMat F}
    (e : computeSparse h g = (g1, .ok J)) : ∃ g1' J', computeSparse h g' = (g1', .ok J') := by
  have hfac := computeSparse_factors hs.ready hs.safe e
  let blocks : Nat → List (Mat F) := fun k => match g'.facs[k]? with
    | none => []
    | some f => match f.computeJacobians h [] with
      | .ok js => js
      | _ => []
  have hblocks : ∀ (k : Nat) f, g'.facs[k]? = some f →
      f.computeJacobians h [] = .ok (blocks k) ∧ ProperBlocks h f (blocks k) := by
    intro k f hf
    have hm := hs.facs.mem_iff.2 (List.mem_of_getElem? hf)
    obtain ⟨js, hjs⟩ := hfac f hm
    have : blocks k = js := by simp only [blocks, hf, hjs]
    rw [this]
    exact ⟨hjs, hs.proper h (SameShape.refl h) f hm js hjs⟩
  have hfree := hs.symm.free
  obtain ⟨g2, m, e1, _⟩ := computeSparse_ok hs.ready' blocks hblocks
    (fun k f hf h buf hb => hs.symm.safe f (List.mem_of_getElem? hf) h buf (hb f hf))
    (fun hc => alloc_pos hs.ready' blocks (fun k f hf => (hblocks k f hf).2) hfree hc.2)
  exact ⟨g2, m, e1⟩

omit [LawfulVar F V] in
theorem computeSparse_cached {h : Heap V} {g g1 : Graph F V} {J : SpMat F} (e : computeSparse h g = (g1, .ok J)) :
    g1.sparseJacobian = .ok J := by
  unfold computeSparse at e
  split at e
  · cases e
  split at e
  · cases e
  split at e
  · cases e
  · cases e
  · dsimp only at e
    split at e
    · cases e
    · cases e
    · cases e
      rfl

/-- The laws of the simulation for graphs with permuted factors. -/
theorem shuffled_laws {A : Arith F} {L : LinAlg F Fact} (hA : RowOrderFree A L) (env env' : Env F V) :
    TwinLaws A L env env' Shuffled (ShuffledJac L) where
  weaken h := h.1
  vars h := h.vars
  place h := by rw [h.layout.pl, h.layout'.pl, h.vars]
  shape h hh := h.shape hh
  shape1 h hh := ⟨h.1.shape hh, h.2⟩
  residual {h g g'} b b' hs := by
    rcases into_outcome (env := env) (h := h) (g := g) (b := b) with ⟨r, e⟩ | e | e
    · obtain ⟨r', e', hp⟩ := hs.residual_ok env' b' e
      exact .inl ⟨r, r', e, e', hA.sqNorm _ _ hp⟩
    · rcases into_outcome (env := env') (h := h) (g := g') (b := b') with ⟨r', e'⟩ | e' | e'
      · obtain ⟨r, e2, _⟩ := hs.symm.residual_ok env b e'
        rw [e2] at e
        cases e
      · exact .inr (.inl ⟨e, e'⟩)
      · exact .inr (.inr (.inr e'))
    · exact .inr (.inr (.inl e))
  initial {h g g'} hs := by
    have hf := computeResidual_frame (env := env) hs.1.ready
    have hf' := computeResidual_frame (env := env') hs.1.ready'
    have hk := computeResidual_kept env h g
    have hk' := computeResidual_kept env' h g'
    have hsh := hs.1.evaluated hf hf' hk hk'
    have hj : ∀ (env : Env F V) (g : Graph F V), (computeResidual env h g).1.sparseJacobian = g.sparseJacobian := by
      intro env g
      unfold computeResidual
      split
      · rfl
      · dsimp only
        split <;> rfl
    have key : ∀ (env : Env F V) (g : Graph F V), Layout h g →
        (∀ r, (computeResidual env h g).2 = .ok r → computeResidualInto env g h
          (if g.resValid then g.cachedRes else List.replicate g.numResiduals 0) = (r, .ok ())) ∧
        (∀ r b, computeResidualInto env g h b = (r, .ok ()) → (computeResidual env h g).2 = .ok r) := by
      intro env g hl
      refine ⟨fun r hr => ?_, fun r b e => ?_⟩
      · unfold computeResidual at hr
        rw [if_neg (by simp [hl.fin])] at hr
        dsimp only at hr
        split at hr
        · rename_i buf heq
          rw [← Res.ok.inj hr]; exact heq
        · cases hr
        · cases hr
      · have := isResidual_evaluates (env := env) hl (evaluated_isResidual hl ⟨b, e⟩)
          (if g.resValid then g.cachedRes else List.replicate g.numResiduals 0)
        unfold computeResidual
        rw [if_neg (by simp [hl.fin])]
        dsimp only
        rw [this]
    have k1 := key env g hs.1.layout
    have k2 := key env' g' hs.1.layout'
    rcases e : computeResidual env h g with ⟨g1, x⟩
    rcases e' : computeResidual env' h g' with ⟨g1', x'⟩
    have j1 := hj env g
    have j2 := hj env' g'
    rw [e] at k1 hsh j1
    rw [e'] at k2 hsh j2
    dsimp only at k1 k2 hsh j1 j2
    cases x with
    | ok r =>
      obtain ⟨r', e2, hp⟩ := hs.1.residual_ok env' [] (k1.1 r rfl)
      obtain rfl := k2.2 r' _ e2
      exact .inl ⟨g1, g1', r, r', rfl, rfl, hA.sqNorm _ _ hp, hsh, by rw [j1, j2]; exact hs.2⟩
    | threw =>
      cases x' with
      | ok r' =>
        obtain ⟨r, e2, hp⟩ := hs.1.symm.residual_ok env [] (k2.1 r' rfl)
        cases k1.2 r _ e2
      | threw => exact .inr (.inl ⟨g1, g1', rfl, rfl, hsh⟩)
      | ub => exact .inr (.inr (.inr rfl))
    | ub => exact .inr (.inr (.inl rfl))
  sparse {h g g'} hs := by
    have hf := computeSparse_frame hs.ready
    have hf' := computeSparse_frame hs.ready'
    have hk := computeSparse_kept h g
    have hk' := computeSparse_kept h g'
    have hsh := hs.evaluated hf hf' hk hk'
    rcases e : computeSparse h g with ⟨g1, x⟩
    rcases e' : computeSparse h g' with ⟨g1', x'⟩
    rw [e, e'] at hsh
    dsimp only at hsh
    cases x with
    | ok J =>
      obtain ⟨g2, J', e2⟩ := hs.sparse_ok e
      rw [e'] at e2
      simp only [Prod.mk.injEq] at e2
      obtain ⟨rfl, rfl⟩ := e2
      obtain ⟨a1, a2, a3, bl, a4, a5⟩ := computeSparse_stacked hs.ready hs.safe (hs.proper h (SameShape.refl h)) e
      obtain ⟨b1, b2, b3, bl', b4, b5⟩ := computeSparse_stacked hs.ready' hs.symm.safe
        (hs.symm.proper h (SameShape.refl h)) e'
      rw [hs.vars] at b3 b5
      have hcols : J.columns.length = J'.columns.length := by rw [a3, b3]
      have hgram : L.gram J = L.gram J' := by
        refine hA.gram _ _ hcols ?_
        unfold rowsOfMat
        rw [a2, b2, a3, b3]
        refine perm_rows hs.facs (fun k k' f hk hk' i hi => ?_) fun k k' f hk hk' i hi => ?_
        · exact List.map_congr_left fun c hc =>
            stacked_row hs.layout.nodup a4 a4 a5 a5 hk hk' hi (by simpa using hc)
        · exact List.map_congr_left fun c hc =>
            stacked_row hs.layout.nodup a4 b4 a5 b5 hk hk' hi (by simpa using hc)
      refine .inl ⟨g1, g1', J, J', rfl, rfl, ⟨hsh, .inl ⟨J, J', ?_, ?_, hgram⟩⟩, hgram, fun r r' hr hr' => ?_⟩
      · exact computeSparse_cached e
      · exact computeSparse_cached e'
      · have h1 := evaluated_isResidual hs.layout hr
        have h2 := evaluated_isResidual hs.layout' hr'
        refine hA.rhs _ _ _ _ hcols ?_
        unfold rowsWith
        rw [a2, b2, a3, b3]
        refine perm_rows hs.facs (fun k k' f hk hk' i hi => ?_) fun k k' f hk hk' i hi => ?_
        · rw [residual_row h1 h1 hk hk' hi]
          congr 1
          exact List.map_congr_left fun c hc =>
            stacked_row hs.layout.nodup a4 a4 a5 a5 hk hk' hi (by simpa using hc)
        · rw [residual_row h1 h2 hk hk' hi]
          congr 1
          exact List.map_congr_left fun c hc =>
            stacked_row hs.layout.nodup a4 b4 a5 b5 hk hk' hi (by simpa using hc)
    | threw =>
      cases x' with
      | ok J' =>
        obtain ⟨g2, J, e2⟩ := hs.symm.sparse_ok e'
        rw [e] at e2
        cases e2
      | threw => exact .inr (.inl ⟨g1, g1', rfl, rfl, hsh⟩)
      | ub => exact .inr (.inr (.inr rfl))
    | ub => exact .inr (.inr (.inl rfl))
  jac h := h.2

end Opt
end Factorama
