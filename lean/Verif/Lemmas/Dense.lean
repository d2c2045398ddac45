import Verif.Lemmas.Eval

/-! Helper lemmas: dense Jacobian evaluation. -/

set_option linter.unusedSectionVars false

namespace Factorama
open Spec
namespace Graph
variable {F V : Type} [Zero F] [VarLike F V]

/-- Whatever happens, the inner dense loop keeps the matrix size and only touches the factor's rows in
the columns of its placed variables. -/
theorem denseVars_frame (g : Graph F V) (h : Heap V) (fp : FacPlacement F V) (vs : List (Option VRef))
    (js : List (Mat F)) (J : Mat F) :
    (denseVars g h fp vs js J).1.rows = J.rows ∧ (denseVars g h fp vs js J).1.cols = J.cols ∧
    ∀ a b, (¬ (fp.residualIndex ≤ a ∧ a < fp.residualIndex + fp.residualDim) ∨
        ∀ v, some v ∈ vs → ∀ p, g.varPl (VarLike.id (h v)) = some p → ¬ (p.index ≤ b ∧ b < p.index + p.dim)) →
      (denseVars g h fp vs js J).1.entry a b = J.entry a b := by
  induction vs generalizing js J with
  | nil => exact ⟨rfl, rfl, fun _ _ _ => rfl⟩
  | cons o vs ih =>
    cases js with
    | nil => cases o <;> exact ⟨rfl, rfl, fun _ _ _ => rfl⟩
    | cons Ji js =>
      cases o with
      | none => exact ⟨rfl, rfl, fun _ _ _ => rfl⟩
      | some r =>
        have ih' : ∀ J, (denseVars g h fp vs js J).1.rows = J.rows ∧ (denseVars g h fp vs js J).1.cols = J.cols ∧
            ∀ a b, (¬ (fp.residualIndex ≤ a ∧ a < fp.residualIndex + fp.residualDim) ∨
                ∀ v, some v ∈ some r :: vs → ∀ p, g.varPl (VarLike.id (h v)) = some p →
                  ¬ (p.index ≤ b ∧ b < p.index + p.dim)) →
              (denseVars g h fp vs js J).1.entry a b = J.entry a b := by
          intro J
          refine ⟨(ih js J).1, (ih js J).2.1, fun a b hab => (ih js J).2.2 a b ?_⟩
          rcases hab with hab | hab
          · exact Or.inl hab
          · exact Or.inr fun v hv => hab v (by simp [hv])
        rw [denseVars]
        split
        · split
          · exact ih' J
          · exact ⟨rfl, rfl, fun _ _ _ => rfl⟩
        · cases hp : g.variablePlacement (VarLike.id (h r)) with
          | none => exact ih' J
          | some p =>
            simp only [SE.bind_get]
            split
            · exact ⟨rfl, rfl, fun _ _ _ => rfl⟩
            · split
              · exact ⟨rfl, rfl, fun _ _ _ => rfl⟩
              · split
                · exact ⟨rfl, rfl, fun _ _ _ => rfl⟩
                · rename_i h1 h2 h3
                  simp only [SE.bind_put]
                  have := ih' (J.setBlock fp.residualIndex p.index Ji)
                  refine ⟨this.1, this.2.1, fun a b hab => ?_⟩
                  rw [this.2.2 a b hab]
                  simp only [Mat.setBlock]
                  rw [if_neg]
                  intro hc
                  simp only [Decidable.not_not] at h2 h3
                  rcases hab with hab | hab
                  · apply hab; omega
                  · apply hab r (by simp) p hp; omega

/-- The inner dense loop succeeds on proper blocks and leaves every block in its place. -/
theorem denseVars_ok {g : Graph F V} {h : Heap V} {fp : FacPlacement F V} (vs : List (Option VRef))
    (js : List (Mat F)) (J : Mat F)
    (hrow : fp.residualIndex + fp.residualDim ≤ J.rows)
    (hok : ∀ (q : Nat) o, vs[q]? = some o → ∃ r, o = some r ∧ ∃ Ji : Mat F, js[q]? = some Ji ∧
      (VarLike.isConst (h r) = true → Ji.isEmpty = true) ∧
      (VarLike.isConst (h r) = false → Ji.isEmpty = false ∧ Ji.rows = fp.residualDim ∧
        ∃ p, g.varPl (VarLike.id (h r)) = some p ∧ p.dim = Ji.cols ∧ p.index + p.dim ≤ J.cols))
    (hdis : ∀ (q q' : Nat) r r' p p', vs[q]? = some (some r) → vs[q']? = some (some r') → q ≠ q' →
      g.varPl (VarLike.id (h r)) = some p → g.varPl (VarLike.id (h r')) = some p' →
      p.dim = 0 ∨ p'.dim = 0 ∨ p.index + p.dim ≤ p'.index ∨ p'.index + p'.dim ≤ p.index) :
    ∃ J', denseVars g h fp vs js J = (J', .ok ()) ∧
      ∀ (q : Nat) r Ji p, vs[q]? = some (some r) → VarLike.isConst (h r) = false → js[q]? = some Ji →
        g.varPl (VarLike.id (h r)) = some p → ∀ i j, i < Ji.rows → j < Ji.cols →
          J'.entry (fp.residualIndex + i) (p.index + j) = Ji.entry i j := by
  induction vs generalizing js J with
  | nil => exact ⟨J, by simp [denseVars], by simp⟩
  | cons o vs ih =>
    obtain ⟨r, rfl, Ji, hj, hconst, hnon⟩ := hok 0 _ rfl
    cases js with
    | nil => simp at hj
    | cons Ji' js =>
      simp at hj; subst hj
      have hdis' : ∀ (q q' : Nat) r r' p p', vs[q]? = some (some r) → vs[q']? = some (some r') → q ≠ q' →
          g.varPl (VarLike.id (h r)) = some p → g.varPl (VarLike.id (h r')) = some p' →
          p.dim = 0 ∨ p'.dim = 0 ∨ p.index + p.dim ≤ p'.index ∨ p'.index + p'.dim ≤ p.index :=
        fun q q' r r' p p' h1 h2 h3 => hdis (q+1) (q'+1) r r' p p' (by simpa using h1) (by simpa using h2) (by omega)
      by_cases hc : VarLike.isConst (h r)
      · obtain ⟨J', h1, h2⟩ := ih js J hrow (fun q o hq => by simpa using hok (q+1) o (by simpa using hq)) hdis'
        refine ⟨J', by simp [denseVars, hconst hc, hc, h1], ?_⟩
        intro q r' Jq p hq hcq hjq hp
        cases q with
        | zero => simp at hq; subst hq; simp [hc] at hcq
        | succ q => exact h2 q r' Jq p (by simpa using hq) hcq (by simpa using hjq) hp
      · simp at hc
        obtain ⟨he, hr, p, hp, hd, hcol⟩ := hnon hc
        obtain ⟨J', h1, h2⟩ := ih js (J.setBlock fp.residualIndex p.index Ji') hrow
          (fun q o hq => by simpa [Mat.setBlock] using hok (q+1) o (by simpa using hq)) hdis'
        have hfr := denseVars_frame g h fp vs js (J.setBlock fp.residualIndex p.index Ji')
        rw [h1] at hfr
        refine ⟨J', ?_, ?_⟩
        · have e1 : ¬ (fp.residualIndex + Ji'.rows > J.rows ∨ p.index + Ji'.cols > J.cols) := by omega
          simp only [denseVars, he, variablePlacement, hp, SE.bind_get, Bool.false_eq_true, if_false, if_neg e1]
          rw [if_neg (by simp [hr]), if_neg (by simp [hd])]
          exact h1
        · intro q r' Jq pq hq hcq hjq hpq i j hi hj'
          cases q with
          | zero =>
            simp at hq hjq; subst hq hjq
            obtain rfl : p = pq := by simpa [hp] using hpq
            rw [hfr.2.2]
            · simp [Mat.setBlock, hi, hj']
            · right
              intro v hv pv hpv hcontra
              obtain ⟨qv, hqv⟩ := List.mem_iff_getElem?.mp hv
              have := hdis 0 (qv+1) r v p pv rfl (by simpa using hqv) (by omega) hp hpv
              omega
          | succ q => exact h2 q r' Jq pq (by simpa using hq) hcq (by simpa using hjq) hpq i j hi hj'

/-- Entries of the stacked Jacobian on columns of variables a factor does not mention are zero. -/
def ZeroOff (h : Heap V) (vars : List VRef) (facs : List (Factor F V)) (J : Mat F) : Prop :=
  ∀ (k : Nat) f, facs[k]? = some f → ∀ i, i < f.residualSize → ∀ r ∈ vars, VarLike.isConst (h r) = false →
    some r ∉ f.variables → ∀ j, j < VarLike.size (h r) →
      J.entry (rowStart facs k + i) (colStart h vars r + j) = 0

theorem denseOne_frame {g : Graph F V} {h : Heap V} (hl : Laid h g)
    (hn : (g.varsVec.map fun r => VarLike.id (h r)).Nodup) (hid : IdsIdentify h g.varsVec g.facs)
    {it : Nat × FacPlacement F V} (hit : it ∈ g.facPl) (J : Mat F) :
    (denseOne g h it J).1.rows = J.rows ∧ (denseOne g h it J).1.cols = J.cols ∧
    (∀ a b, ¬ (it.2.residualIndex ≤ a ∧ a < it.2.residualIndex + it.2.residualDim) →
      (denseOne g h it J).1.entry a b = J.entry a b) ∧
    (ZeroOff h g.varsVec g.facs J → ZeroOff h g.varsVec g.facs (denseOne g h it J).1) := by
  unfold denseOne
  cases hjs : it.2.factor.computeJacobians h [] with
  | threw => exact ⟨rfl, rfl, fun _ _ _ => rfl, id⟩
  | ub => exact ⟨rfl, rfl, fun _ _ _ => rfl, id⟩
  | ok js =>
    simp only [SE.bind_lift_ok]
    obtain ⟨h1, h2, h3⟩ := denseVars_frame g h it.2 it.2.factor.variables js J
    refine ⟨h1, h2, fun a b hab => h3 a b (Or.inl hab), ?_⟩
    intro hz k f hf i hi r hr hc hnot j hj
    rw [h3, hz k f hf i hi r hr hc hnot j hj]
    by_cases hrow : it.2.residualIndex ≤ rowStart g.facs k + i ∧
        rowStart g.facs k + i < it.2.residualIndex + it.2.residualDim
    · right
      intro v hv p hp hcol
      rw [hl.fpl] at hit
      obtain ⟨f', hf', hfac, hri, hrd⟩ := mem_placedList hit
      rw [hri, hrd] at hrow
      have hk := row_unique hf hf' ⟨by omega, by omega⟩ hrow
      rw [← hk, hf] at hf'
      obtain rfl : f = f' := by simpa using hf'
      rw [hfac] at hv
      rw [hl.pl] at hp
      obtain ⟨r', hr', hid'⟩ := plOf_isSome.mp (show (plOf h g.varsVec (VarLike.id (h v))).isSome by simp [hp])
      obtain rfl := hid f (List.mem_of_getElem? hf) v hv r' hr' hid'
      rw [plOf_mem hn hr'] at hp
      simp at hp; subst hp
      simp at hcol
      have := col_unique hr' hr hcol ⟨by omega, by rw [freeSize_of_nonconst hc]; omega⟩
      subst this
      exact hnot hv
    · exact Or.inl hrow

theorem denseLoop_frame {g : Graph F V} {h : Heap V} (hl : Laid h g)
    (hn : (g.varsVec.map fun r => VarLike.id (h r)).Nodup) (hid : IdsIdentify h g.varsVec g.facs)
    (l : List (Nat × FacPlacement F V)) (hsub : ∀ it ∈ l, it ∈ g.facPl) (J : Mat F) :
    (SE.forEach l (denseOne g h) J).1.rows = J.rows ∧ (SE.forEach l (denseOne g h) J).1.cols = J.cols ∧
    (ZeroOff h g.varsVec g.facs J → ZeroOff h g.varsVec g.facs (SE.forEach l (denseOne g h) J).1) := by
  induction l generalizing J with
  | nil => exact ⟨rfl, rfl, id⟩
  | cons it l ih =>
    rw [SE.forEach_cons]
    unfold SE.bind
    obtain ⟨h1, h2, _, h3⟩ := denseOne_frame hl hn hid (hsub it (by simp)) J
    have ih' := fun J => ih (fun it' h' => hsub it' (by simp [h'])) J
    split
    · rename_i s' a hs; rw [hs] at h1 h2 h3
      exact ⟨(ih' s').1.trans h1, (ih' s').2.1.trans h2, fun hz => (ih' s').2.2 (h3 hz)⟩
    · rename_i s' hs; rw [hs] at h1 h2 h3; exact ⟨h1, h2, h3⟩
    · rename_i s' hs; rw [hs] at h1 h2 h3; exact ⟨h1, h2, h3⟩

/-- A mentioned, placed variable of a factor sits at the columns of the graph variable. -/
theorem varPl_of_mem {g : Graph F V} {h : Heap V} (hl : Laid h g)
    (hn : (g.varsVec.map fun r => VarLike.id (h r)).Nodup) (hid : IdsIdentify h g.varsVec g.facs)
    {f : Factor F V} (hf : f ∈ g.facs) {v : VRef} (hv : some v ∈ f.variables)
    {p : VarPlacement} (hp : g.varPl (VarLike.id (h v)) = some p) :
    v ∈ g.varsVec ∧ p = ⟨v, colStart h g.varsVec v, freeSize (h v)⟩ := by
  rw [hl.pl] at hp
  obtain ⟨r', hr', hid'⟩ := plOf_isSome.mp (show (plOf h g.varsVec (VarLike.id (h v))).isSome by simp [hp])
  obtain rfl := hid f hf v hv r' hr' hid'
  rw [plOf_mem hn hr'] at hp
  simp at hp; exact ⟨hr', hp.symm⟩

theorem placed_of_nonconst {g : Graph F V} {h : Heap V} (hl : Laid h g)
    (hn : (g.varsVec.map fun r => VarLike.id (h r)).Nodup) (hid : IdsIdentify h g.varsVec g.facs)
    {f : Factor F V} (hf : f ∈ g.facs) {v : VRef} (hv : some v ∈ f.variables)
    (hc : VarLike.isConst (h v) = false) :
    v ∈ g.varsVec ∧ g.varPl (VarLike.id (h v)) = some ⟨v, colStart h g.varsVec v, freeSize (h v)⟩ := by
  obtain ⟨r, hr, hsome⟩ := hl.placed f hf _ hv
  simp at hr; subst hr
  obtain ⟨p, hp⟩ := Option.isSome_iff_exists.mp (hsome hc)
  rw [← hl.pl] at hp
  obtain ⟨h1, h2⟩ := varPl_of_mem hl hn hid hf hv hp
  exact ⟨h1, by rw [hp, h2]⟩

/-- Distinct variables of one factor occupy disjoint columns. -/
theorem factor_cols_disjoint {g : Graph F V} {h : Heap V} (hl : Laid h g)
    (hn : (g.varsVec.map fun r => VarLike.id (h r)).Nodup) (hid : IdsIdentify h g.varsVec g.facs)
    (hrep : NoRepeats g.facs) {f : Factor F V} (hf : f ∈ g.facs) (q q' : Nat) (r r' : VRef)
    (p p' : VarPlacement) (h1 : f.variables[q]? = some (some r)) (h2 : f.variables[q']? = some (some r'))
    (hq : q ≠ q') (hp : g.varPl (VarLike.id (h r)) = some p) (hp' : g.varPl (VarLike.id (h r')) = some p') :
    p.dim = 0 ∨ p'.dim = 0 ∨ p.index + p.dim ≤ p'.index ∨ p'.index + p'.dim ≤ p.index := by
  obtain ⟨m1, rfl⟩ := varPl_of_mem hl hn hid hf (List.mem_of_getElem? h1) hp
  obtain ⟨m2, rfl⟩ := varPl_of_mem hl hn hid hf (List.mem_of_getElem? h2) hp'
  have hne : r ≠ r' := by
    intro e; subst e
    exact hq (hrep f hf q q' r h1 h2)
  have := col_disjoint (h := h) m1 m2 hne
  simp only; omega

theorem denseOne_ok {g : Graph F V} {h : Heap V} (hl : Laid h g)
    (hn : (g.varsVec.map fun r => VarLike.id (h r)).Nodup) (hid : IdsIdentify h g.varsVec g.facs)
    (hrep : NoRepeats g.facs) {it : Nat × FacPlacement F V} (hit : it ∈ g.facPl) {f : Factor F V}
    (hf : g.facs[it.1]? = some f) {js : List (Mat F)} (hjs : f.computeJacobians h [] = .ok js)
    (hprop : ProperBlocks h f js) (J : Mat F) (hJr : J.rows = g.numResiduals) (hJc : J.cols = g.numValues) :
    ∃ J', denseOne g h it J = (J', .ok ()) ∧
      ∀ (q : Nat) r Ji, f.variables[q]? = some (some r) → VarLike.isConst (h r) = false → js[q]? = some Ji →
        ∀ i j, i < f.residualSize → j < VarLike.size (h r) →
          J'.entry (rowStart g.facs it.1 + i) (colStart h g.varsVec r + j) = Ji.entry i j := by
  rw [hl.fpl] at hit
  obtain ⟨f', hf', hfac, hri, hrd⟩ := mem_placedList hit
  rw [hf] at hf'
  obtain rfl : f = f' := by simpa using hf'
  have hmem := List.mem_of_getElem? hf
  obtain ⟨J', h1, h2⟩ := denseVars_ok (g := g) (h := h) (fp := it.2) f.variables js J
    (by rw [hri, hrd, hJr, hl.nr]; exact row_end_le hf)
    (by
      intro q o hq
      obtain ⟨r, rfl, _⟩ := hl.placed f hmem o (List.mem_of_getElem? hq)
      obtain ⟨Ji, e1, e2, e3⟩ := hprop q r hq
      refine ⟨r, rfl, Ji, e1, e2, fun hc => ?_⟩
      obtain ⟨e4, e5, e6⟩ := e3 hc
      obtain ⟨m, hpl⟩ := placed_of_nonconst hl hn hid hmem (List.mem_of_getElem? hq) hc
      refine ⟨e4, by rw [e5, hrd], _, hpl, by simp [e6, freeSize_of_nonconst hc], ?_⟩
      rw [hJc, hl.nv]; exact col_end_le m)
    (fun q q' r r' p p' => factor_cols_disjoint hl hn hid hrep hmem q q' r r' p p')
  refine ⟨J', ?_, ?_⟩
  · unfold denseOne
    rw [hfac, hjs]
    simp only [SE.bind_lift_ok]
    exact h1
  · intro q r Ji hq hc hJi i j hi hj
    obtain ⟨m, hpl⟩ := placed_of_nonconst hl hn hid hmem (List.mem_of_getElem? hq) hc
    obtain ⟨Ji', e1, e2, e3⟩ := hprop q r hq
    obtain rfl : Ji = Ji' := by simpa [hJi] using e1
    obtain ⟨e4, e5, e6⟩ := e3 hc
    have := h2 q r Ji _ hq hc hJi hpl i j (by omega) (by omega)
    rw [hri] at this
    exact this

/-- The dense loop over any arrangement of the factors computes the stacked Jacobian, from any matrix
which is zero away from the factors' blocks. -/
theorem denseLoop_ok {g : Graph F V} {h : Heap V} (hl : Laid h g)
    (hn : (g.varsVec.map fun r => VarLike.id (h r)).Nodup) (hid : IdsIdentify h g.varsVec g.facs)
    (hrep : NoRepeats g.facs) (blocks : Nat → List (Mat F))
    (hblocks : ∀ (k : Nat) f, g.facs[k]? = some f → f.computeJacobians h [] = .ok (blocks k) ∧
      ProperBlocks h f (blocks k))
    (l : List (Nat × FacPlacement F V)) (hperm : l.Perm g.facPl)
    (J : Mat F) (hJr : J.rows = g.numResiduals) (hJc : J.cols = g.numValues)
    (hz : ZeroOff h g.varsVec g.facs J) :
    ∃ J', SE.forEach l (denseOne g h) J = (J', .ok ()) ∧ J'.rows = g.numResiduals ∧ J'.cols = g.numValues ∧
      IsStackedJacobian h g.varsVec g.facs blocks J'.entry ∧ ZeroOff h g.varsVec g.facs J' := by
  have hkeys : (l.map (·.1)).Nodup := (hperm.map (·.1)).nodup_iff.mpr (by
    rw [hl.fpl]; exact placedList_keys h _ g.facs)
  obtain ⟨J', h1, h2, h3, h4, h5⟩ := SE.forEach_inv (body := denseOne g h)
    (fun pre J => J.rows = g.numResiduals ∧ J.cols = g.numValues ∧ ZeroOff h g.varsVec g.facs J ∧
      ∀ it ∈ pre, ∀ f, g.facs[it.1]? = some f → ∀ i, i < f.residualSize →
        ∀ (q : Nat) r Ji, f.variables[q]? = some (some r) → VarLike.isConst (h r) = false →
          (blocks it.1)[q]? = some Ji → ∀ j, j < VarLike.size (h r) →
          J.entry (rowStart g.facs it.1 + i) (colStart h g.varsVec r + j) = Ji.entry i j) l J
    ⟨hJr, hJc, hz, by simp⟩ (by
      intro pre it post J hlsplit ⟨hr, hc, hzz, hpre⟩
      have hm : it ∈ g.facPl := hperm.mem_iff.mp (by rw [hlsplit]; simp)
      have hm' := hm
      rw [hl.fpl] at hm'
      obtain ⟨f, hf, hfac, hri, hrd⟩ := mem_placedList hm'
      obtain ⟨hb1, hb2⟩ := hblocks it.1 f hf
      obtain ⟨J', e1, e2⟩ := denseOne_ok hl hn hid hrep hm hf hb1 hb2 J hr hc
      obtain ⟨f1, f2, f3, f4⟩ := denseOne_frame hl hn hid hm J
      rw [e1] at f1 f2 f3 f4
      refine ⟨J', e1, f1.trans hr, f2.trans hc, f4 hzz, ?_⟩
      intro it' hit' f' hf' i hi q r Ji hq hcr hJi j hj
      rcases List.mem_append.mp hit' with hit' | hit'
      · have hne : it'.1 ≠ it.1 := by
          intro e
          rw [hlsplit, List.map_append, List.nodup_append] at hkeys
          exact hkeys.2.2 it'.1 (List.mem_map.mpr ⟨it', hit', rfl⟩) it.1 (by simp) e
        rw [f3]
        · exact hpre it' hit' f' hf' i hi q r Ji hq hcr hJi j hj
        · intro hcon
          rw [hri, hrd] at hcon
          exact hne (row_unique hf' hf (by omega) hcon)
      · simp at hit'
        subst hit'
        obtain rfl : f = f' := by simpa [hf] using hf'
        exact e2 q r Ji hq hcr hJi i j hi hj)
  refine ⟨J', h1, h2, h3, ?_, h4⟩
  intro k f hf i hi
  refine ⟨?_, fun r hr hc hnot j hj => h4 k f hf i hi r hr hc hnot j hj⟩
  intro q r Ji hq hc hJi j hj
  have hm : (k, (⟨f, rowStart g.facs k, f.residualSize, (colsOf h (plOf h g.varsVec) f.variables).map (·.1),
      (colsOf h (plOf h g.varsVec) f.variables).map (·.2)⟩ : FacPlacement F V)) ∈ l := by
    rw [hperm.mem_iff, hl.fpl, List.mem_iff_getElem?]
    exact ⟨k, by simp [getElem?_placedList, hf]⟩
  exact h5 _ hm f hf i hi q r Ji hq hc hJi j hj

end Graph
end Factorama
