import Verif.Lemmas.SparseMat

/-! Helper lemmas: sparse Jacobian evaluation. -/

set_option linter.unusedSectionVars false

namespace Factorama
open Spec
namespace Graph
variable {F V : Type} [Zero F] [VarLike F V]

/-! ### The log of matrix entries produced by one evaluation -/

/-- The entries (column, (row, value)) of one factor, in the order in which they are produced. -/
def elogVars (pl : Int → Option VarPlacement) (h : Heap V) (base : Nat) :
    List (Option VRef) → List (Mat F) → List (Nat × (Nat × F))
  | some r :: vs, Ji :: js =>
    (match pl (VarLike.id (h r)) with
     | none => []
     | some p => blockWrites p.index Ji.rows Ji.cols fun i j => (base + i, Ji.entry i j)) ++
    elogVars pl h base vs js
  | none :: vs, _ :: js => elogVars pl h base vs js
  | _, _ => []

/-- The data part of an entry. -/
def dataOf (l : List (Nat × (Nat × F))) : List (Nat × F) := l.map fun w => (w.1, w.2.2)
/-- The row part of an entry. -/
def rowsOf (l : List (Nat × (Nat × F))) : List (Nat × Nat) := l.map fun w => (w.1, w.2.1)

@[simp] theorem dataOf_append (l l' : List (Nat × (Nat × F))) : dataOf (l ++ l') = dataOf l ++ dataOf l' := by
  simp [dataOf]
@[simp] theorem rowsOf_append (l l' : List (Nat × (Nat × F))) : rowsOf (l ++ l') = rowsOf l ++ rowsOf l' := by
  simp [rowsOf]
theorem dataOf_block (b R C base : Nat) (x : Nat → Nat → F) :
    dataOf (blockWrites b R C fun i j => (base + i, x i j)) = blockWrites b R C x := by
  simp only [dataOf, blockWrites_map b R C (fun i j => (base + i, x i j)) (·.2)]
theorem rowsOf_block (b R C base : Nat) (x : Nat → Nat → F) :
    rowsOf (blockWrites b R C fun i j => (base + i, x i j)) = blockWrites b R C fun i _ => base + i := by
  simp only [rowsOf, blockWrites_map b R C (fun i j => (base + i, x i j)) (·.1)]

theorem sparseVars_ok (h : Heap V) (base : Nat) (vs : List (Option VRef)) (js : List (Mat F))
    (hvs : ∀ o ∈ vs, ∃ r, o = some r) (hlen : vs.length ≤ js.length) (s : SparseWork F V)
    (d : List (List F)) (c : List Nat)
    (hsc : SE.forEach (dataOf (elogVars s.g.varPl h base vs js)) (scatterOne .threw) (s.g.sparseData, s.cur) =
      ((d, c), .ok ())) :
    sparseVars h vs js s = (⟨{ s.g with sparseData := d }, c⟩, .ok ()) := by
  induction vs generalizing js s with
  | nil =>
    simp [elogVars, dataOf] at hsc
    obtain ⟨rfl, rfl⟩ := hsc
    simp [sparseVars]
  | cons o vs ih =>
    obtain ⟨r, rfl⟩ := hvs o (by simp)
    cases js with
    | nil => simp at hlen
    | cons Ji js =>
      have ih' := ih js (fun o ho => hvs o (by simp [ho])) (by simpa using hlen)
      simp only [sparseVars, SE.bind_get]
      cases hp : s.g.variablePlacement (VarLike.id (h r)) with
      | none =>
        simp only
        apply ih'
        simp only [variablePlacement] at hp
        simpa [elogVars, hp] using hsc
      | some p =>
        simp only
        simp only [variablePlacement] at hp
        simp only [elogVars, hp, dataOf_append, dataOf_block, SE.forEach_append] at hsc
        unfold SE.bind at hsc
        split at hsc
        · rename_i s1 u hs1
          have e1 : scatterData (blockWrites p.index Ji.rows Ji.cols Ji.entry) s =
              (⟨{ s.g with sparseData := s1.1 }, s1.2⟩, .ok u) := by
            simp [scatterData, hs1]
          rw [SE.bind_ok e1]
          rw [ih' ⟨{ s.g with sparseData := s1.1 }, s1.2⟩ hsc]
        · simp at hsc
        · simp at hsc

/-! ### Frame: what a sparse evaluation can change, whatever the factors return -/

theorem scatterOne_lengths {α : Type} (bad : Res Unit) (w : Nat × α) (s : List (List α) × List Nat) :
    ((scatterOne bad w s).1.1.map List.length) = s.1.map List.length ∧
      (scatterOne bad w s).1.2.length = s.2.length := by
  unfold scatterOne
  split
  · exact ⟨rfl, rfl⟩
  · split
    · exact ⟨rfl, rfl⟩
    · rename_i col hcol
      split
      · refine ⟨?_, by simp⟩
        apply List.ext_getElem?
        intro i
        simp only [List.getElem?_map]
        by_cases hi : w.1 = i
        · subst hi
          have hlt := (List.getElem?_eq_some_iff.mp hcol).1
          simp [List.getElem?_set_self hlt, hcol]
        · rw [List.getElem?_set_ne hi]
      · exact ⟨rfl, rfl⟩

theorem scatter_lengths {α : Type} (bad : Res Unit) (l : List (Nat × α)) (s : List (List α) × List Nat) :
    ((SE.forEach l (scatterOne bad) s).1.1.map List.length) = s.1.map List.length := by
  induction l generalizing s with
  | nil => rfl
  | cons w l ih =>
    rw [SE.forEach_cons]
    have h1 := (scatterOne_lengths bad w s).1
    unfold SE.bind
    split
    · rename_i s' a hs; rw [hs] at h1; rw [ih, h1]
    · rename_i s' hs; rw [hs] at h1; exact h1
    · rename_i s' hs; rw [hs] at h1; exact h1

/-- `g'` agrees with `g` except for the scratch buffers of the sparse evaluation, whose shape is kept. -/
structure ScratchOnly (good : Nat → List (Mat F) → Prop) (g g' : Graph F V) : Prop where
  eq : g' = { g with sparseComps := g'.sparseComps, sparseData := g'.sparseData }
  comps : g'.sparseComps.length = g.sparseComps.length
  data : g'.sparseData.map List.length = g.sparseData.map List.length
  good : (∀ (k : Nat) b, g.sparseComps[k]? = some b → good k b) →
    ∀ (k : Nat) b, g'.sparseComps[k]? = some b → good k b

theorem ScratchOnly.refl (good : Nat → List (Mat F) → Prop) (g : Graph F V) : ScratchOnly good g g :=
  ⟨rfl, rfl, rfl, id⟩

theorem ScratchOnly.trans {good : Nat → List (Mat F) → Prop} {g g' g'' : Graph F V}
    (h1 : ScratchOnly good g g') (h2 : ScratchOnly good g' g'') : ScratchOnly good g g'' := by
  refine ⟨?_, h2.comps.trans h1.comps, h2.data.trans h1.data, fun hg => h2.good (h1.good hg)⟩
  rw [h2.eq, h1.eq]

theorem sparseVars_frame (good : Nat → List (Mat F) → Prop) (h : Heap V) (vs : List (Option VRef))
    (js : List (Mat F)) (s : SparseWork F V) :
    ScratchOnly good s.g (sparseVars h vs js s).1.g := by
  induction vs generalizing js s with
  | nil => simp [sparseVars]; exact ScratchOnly.refl good s.g
  | cons o vs ih =>
    cases js with
    | nil => cases o <;> exact ScratchOnly.refl good s.g
    | cons Ji js =>
      cases o with
      | none => exact ScratchOnly.refl good s.g
      | some r =>
        simp only [sparseVars, SE.bind_get]
        cases hp : s.g.variablePlacement (VarLike.id (h r)) with
        | none => exact ih js s
        | some p =>
          simp only
          have hsd : ∀ ws, ScratchOnly good s.g (scatterData ws s).1.g := by
            intro ws
            have := scatter_lengths (.threw) ws (s.g.sparseData, s.cur)
            simp only [scatterData]
            exact ⟨rfl, rfl, this, id⟩
          have h1 := hsd (blockWrites p.index Ji.rows Ji.cols Ji.entry)
          unfold SE.bind
          split
          · rename_i s' a hs; rw [hs] at h1; exact h1.trans (ih js s')
          · rename_i s' hs; rw [hs] at h1; exact h1
          · rename_i s' hs; rw [hs] at h1; exact h1

/-- Predicate on re-used output buffers that holds initially and after each evaluation. -/
structure BufferSafe (f : Factor F V) (good : List (Mat F) → Prop) : Prop where
  nil : good []
  out : ∀ h buf js, good buf → f.computeJacobians h buf = .ok js → good js

theorem sparseOne_frame (good : Nat → List (Mat F) → Prop) (h : Heap V) (i : Nat) (s : SparseWork F V)
    (hgood : ∀ fp, s.g.facPl.lookup i = some fp → BufferSafe fp.factor (good i)) :
    (∀ (k : Nat) b, s.g.sparseComps[k]? = some b → good k b) →
    ScratchOnly good s.g (sparseOne h i s).1.g := by
  intro hg
  simp only [sparseOne, SE.bind_get]
  cases hl : s.g.facPl.lookup i with
  | none => exact ScratchOnly.refl good s.g
  | some fp =>
    cases hb : s.g.sparseComps[i]? with
    | none => exact ScratchOnly.refl good s.g
    | some buf =>
      simp only
      cases hj : fp.factor.computeJacobians h buf with
      | threw => exact ScratchOnly.refl good s.g
      | ub => exact ScratchOnly.refl good s.g
      | ok js =>
        simp only [SE.bind_modify]
        refine ScratchOnly.trans (g' := { s.g with sparseComps := s.g.sparseComps.set i js }) ?_
          (sparseVars_frame good h fp.factor.variables js
            { s with g := { s.g with sparseComps := s.g.sparseComps.set i js } })
        refine ⟨rfl, by simp, rfl, fun _ k b hk => ?_⟩
        simp only at hk
        by_cases hki : i = k
        · subst hki
          rw [List.getElem?_set_self (List.getElem?_eq_some_iff.mp hb).1] at hk
          simp at hk; subst hk
          exact (hgood fp hl).out h buf js (hg i buf hb) hj
        · rw [List.getElem?_set_ne hki] at hk
          exact hg k b hk

theorem sparseLoop_frame (good : Nat → List (Mat F) → Prop) (h : Heap V) (is : List Nat) (s : SparseWork F V)
    (hgood : ∀ i fp, s.g.facPl.lookup i = some fp → BufferSafe fp.factor (good i))
    (hg : ∀ (k : Nat) b, s.g.sparseComps[k]? = some b → good k b) :
    ScratchOnly good s.g (SE.forEach is (sparseOne h) s).1.g := by
  induction is generalizing s with
  | nil => exact ScratchOnly.refl good s.g
  | cons i is ih =>
    rw [SE.forEach_cons]
    have h1 := sparseOne_frame good h i s (hgood i) hg
    unfold SE.bind
    split
    · rename_i s' a hs
      rw [hs] at h1
      refine h1.trans (ih s' ?_ (h1.good hg))
      intro i' fp hfp
      rw [h1.eq] at hfp
      exact hgood i' fp hfp
    · rename_i s' hs; rw [hs] at h1; exact h1
    · rename_i s' hs; rw [hs] at h1; exact h1

/-! ### The loop over the factors as one scatter -/

/-- The entries of factor `k`. -/
def elogAt (g : Graph F V) (h : Heap V) (blocks : Nat → List (Mat F)) (k : Nat) : List (Nat × (Nat × F)) :=
  match g.facs[k]? with
  | none => []
  | some f => elogVars g.varPl h (rowStart g.facs k) f.variables (blocks k)

/-- All entries of one evaluation. -/
def elog (g : Graph F V) (h : Heap V) (blocks : Nat → List (Mat F)) : List (Nat × (Nat × F)) :=
  (List.range g.facs.length).flatMap (elogAt g h blocks)

theorem flatMap_range_getElem {α β : Type} (l : List α) (φ : α → List β) :
    l.flatMap φ = (List.range l.length).flatMap fun k => match l[k]? with
      | none => []
      | some a => φ a := by
  induction l with
  | nil => rfl
  | cons a l ih =>
    rw [List.flatMap_cons, List.length_cons, List.range_succ_eq_map, List.flatMap_cons, List.flatMap_map, ih]
    simp

theorem lookup_facPl {g : Graph F V} {h : Heap V} (hl : Laid h g) (k : Nat) :
    g.facPl.lookup k = (g.facs[k]?).map fun f =>
      ⟨f, rowStart g.facs k, f.residualSize, (colsOf h g.varPl f.variables).map (·.1),
        (colsOf h g.varPl f.variables).map (·.2)⟩ := by
  have := lookup_placedList h (plOf h g.varsVec) g.facs 0 0 k
  rw [Nat.zero_add] at this
  rw [hl.fpl, this, getElem?_placedList, hl.pl]
  simp only [Option.map_map, Nat.zero_add]
  rfl

theorem elogVars_rows {g : Graph F V} {h : Heap V} (hl : Laid h g)
    (hn : (g.varsVec.map fun r => VarLike.id (h r)).Nodup) (hid : IdsIdentify h g.varsVec g.facs)
    {f : Factor F V} (hf : f ∈ g.facs) (base : Nat) (vs : List (Option VRef)) (js : List (Mat F))
    (hsub : ∀ o ∈ vs, o ∈ f.variables)
    (hprop : ∀ (p : Nat) (r : VRef), vs[p]? = some (some r) → ∃ J : Mat F, js[p]? = some J ∧
      (VarLike.isConst (h r) = true → J.isEmpty = true) ∧
      (VarLike.isConst (h r) = false →
        J.isEmpty = false ∧ J.rows = f.residualSize ∧ J.cols = VarLike.size (h r))) :
    rowsOf (elogVars g.varPl h base vs js) = (colsOf h g.varPl vs).flatMap fun cd =>
      blockWrites cd.1 f.residualSize cd.2 fun r _ => base + r := by
  induction vs generalizing js with
  | nil => simp [elogVars, colsOf, rowsOf]
  | cons o vs ih =>
    obtain ⟨r, rfl, _⟩ := hl.placed f hf o (hsub o (by simp))
    obtain ⟨J, hJ, hconst, hnon⟩ := hprop 0 r rfl
    cases js with
    | nil => simp at hJ
    | cons J' js =>
      simp at hJ; subst hJ
      have ih' := ih js (fun o ho => hsub o (by simp [ho])) (fun p r hp => by
        simpa using hprop (p + 1) r (by simpa using hp))
      by_cases hc : VarLike.isConst (h r)
      · have hcols : colsOf h g.varPl (some r :: vs) = colsOf h g.varPl vs := by simp [colsOf, hc]
        have he := hconst hc
        simp only [Mat.isEmpty, Bool.or_eq_true, beq_iff_eq] at he
        rw [hcols, ← ih', elogVars]
        cases g.varPl (VarLike.id (h r)) with
        | none => simp
        | some p => simp [blockWrites_empty he]
      · simp at hc
        obtain ⟨m, hp⟩ := placed_of_nonconst hl hn hid hf (hsub (some r) (by simp)) hc
        obtain ⟨e1, e2, e3⟩ := hnon hc
        have hcols : colsOf h g.varPl (some r :: vs) =
            (colStart h g.varsVec r, freeSize (h r)) :: colsOf h g.varPl vs := by simp [colsOf, hc, hp]
        rw [hcols, List.flatMap_cons, ← ih']
        simp only [elogVars, hp, rowsOf_append, rowsOf_block, e2, e3, freeSize_of_nonconst hc]

theorem rowLog_eq {g : Graph F V} {h : Heap V} (hl : Laid h g)
    (hn : (g.varsVec.map fun r => VarLike.id (h r)).Nodup) (hid : IdsIdentify h g.varsVec g.facs)
    (blocks : Nat → List (Mat F))
    (hblocks : ∀ (k : Nat) f, g.facs[k]? = some f → ProperBlocks h f (blocks k)) :
    rowLog g.facPl = rowsOf (elog g h blocks) := by
  rw [rowLog, flatMap_range_getElem, elog, rowsOf, List.map_flatMap]
  have hlen : g.facPl.length = g.facs.length := by rw [hl.fpl, length_placedList]
  rw [hlen]
  congr 1
  funext k
  rw [hl.fpl, getElem?_placedList, elogAt]
  cases hf : g.facs[k]? with
  | none => simp
  | some f =>
    have := elogVars_rows hl hn hid (List.mem_of_getElem? hf) (rowStart g.facs k) f.variables (blocks k)
      (fun _ h => h) (hblocks k f hf)
    simp only [rowsOf] at this
    rw [hl.pl] at this
    simp only [Option.map_some, rowIndexWrites, zip_map_fst_snd, Nat.zero_add, hl.pl]
    exact this.symm

theorem elog_lt {g : Graph F V} {h : Heap V} (hl : Laid h g)
    (hn : (g.varsVec.map fun r => VarLike.id (h r)).Nodup) (hid : IdsIdentify h g.varsVec g.facs)
    (blocks : Nat → List (Mat F))
    (hblocks : ∀ (k : Nat) f, g.facs[k]? = some f → ProperBlocks h f (blocks k)) :
    ∀ w ∈ elog g h blocks, w.1 < g.numValues := by
  intro w hw
  have h1 : (w.1, w.2.1) ∈ rowLog g.facPl := by
    rw [rowLog_eq hl hn hid blocks hblocks]
    exact List.mem_map.mpr ⟨w, hw, rfl⟩
  rw [hl.fpl] at h1
  have := rowLog_lt g.facs (freeTotal h g.varsVec) 0 0 (fun f _ => colsOf_bound f.variables) _ h1
  rw [hl.nv]; exact this

theorem length_colVals_dataOf (c : Nat) (l : List (Nat × (Nat × F))) :
    (colVals c (dataOf l)).length = (colVals c (rowsOf l)).length := by
  simp only [dataOf, rowsOf]
  rw [colVals_map c l (·.2), colVals_map c l (·.1)]
  simp

/-- The loop over the factors succeeds on proper blocks and fills every data column. -/
theorem sparseLoop_ok {g : Graph F V} {h : Heap V} (hl : Laid h g)
    (hn : (g.varsVec.map fun r => VarLike.id (h r)).Nodup) (hid : IdsIdentify h g.varsVec g.facs)
    (good : Nat → List (Mat F) → Prop)
    (hsafe : ∀ (k : Nat) f, g.facs[k]? = some f → BufferSafe f (good k))
    (hsame : ∀ (k : Nat) f, g.facs[k]? = some f → ∀ h buf, good k buf → f.computeJacobians h buf = f.computeJacobians h [])
    (hg : ∀ (k : Nat) b, g.sparseComps[k]? = some b → good k b)
    (blocks : Nat → List (Mat F))
    (hblocks : ∀ (k : Nat) f, g.facs[k]? = some f → f.computeJacobians h [] = .ok (blocks k) ∧
      ProperBlocks h f (blocks k)) :
    ∃ s', SE.forEach (List.range g.facs.length) (sparseOne h) ⟨g, List.replicate g.numValues 0⟩ = (s', .ok ()) ∧
      ScratchOnly good g s'.g ∧
      (∀ c, c < g.numValues → s'.g.sparseData[c]? = some (colVals c (dataOf (elog g h blocks)))) := by
  have hpb : ∀ (k : Nat) f, g.facs[k]? = some f → ProperBlocks h f (blocks k) := fun k f hf => (hblocks k f hf).2
  have hrl := rowLog_eq hl hn hid blocks hpb
  -- scattering any prefix of the log succeeds
  have hscat : ∀ pre : List Nat, ∀ post, List.range g.facs.length = pre ++ post →
      ∃ arr cur, SE.forEach (dataOf (pre.flatMap (elogAt g h blocks))) (scatterOne .threw)
        (g.sparseData, List.replicate g.numValues 0) = ((arr, cur), .ok ()) ∧
        (∀ c a, c < g.numValues → g.sparseData[c]? = some a →
          arr[c]? = some (colVals c (dataOf (pre.flatMap (elogAt g h blocks))) ++
            a.drop (colVals c (dataOf (pre.flatMap (elogAt g h blocks)))).length)) := by
    intro pre post hsplit
    have hel : elog g h blocks = pre.flatMap (elogAt g h blocks) ++ post.flatMap (elogAt g h blocks) := by
      rw [elog, hsplit, List.flatMap_append]
    obtain ⟨arr, cur, e1, e2, e3, e4⟩ := scatter_spec (α := F) .threw (dataOf (pre.flatMap (elogAt g h blocks)))
      g.numValues g.sparseData (List.replicate g.numValues 0) hl.dataLen (by simp) (by
        intro w hw
        simp only [dataOf, List.mem_map] at hw
        obtain ⟨w', hw', rfl⟩ := hw
        exact elog_lt hl hn hid blocks hpb w' (by rw [hel]; simp only [List.mem_append]; exact Or.inl hw')) (by
        intro c hc a k ha hk
        simp [hc] at hk
        subst hk
        rw [hl.data c a ha, hrl, hel, rowsOf_append, colVals_append, List.length_append, length_colVals_dataOf]
        omega)
    refine ⟨arr, cur, e1, ?_⟩
    intro c a hc ha
    have := (e4 c a 0 ha (by simp [hc])).1
    simpa using this
  obtain ⟨s', h1, h2, h3, h4⟩ := SE.forEach_inv (body := sparseOne h)
    (fun pre s => ScratchOnly good g s.g ∧ (∀ (k : Nat) b, s.g.sparseComps[k]? = some b → good k b) ∧
      SE.forEach (dataOf (pre.flatMap (elogAt g h blocks))) (scatterOne .threw)
        (g.sparseData, List.replicate g.numValues 0) = ((s.g.sparseData, s.cur), .ok ()))
    (List.range g.facs.length) ⟨g, List.replicate g.numValues 0⟩
    ⟨ScratchOnly.refl good g, hg, by simp [dataOf]⟩ (by
      intro pre i post s hsplit ⟨hso, hgs, hsc⟩
      have hi : i < g.facs.length := by
        have : i ∈ List.range g.facs.length := by rw [hsplit]; simp
        simpa using this
      obtain ⟨f, hf⟩ : ∃ f, g.facs[i]? = some f := ⟨g.facs[i], by simp [hi]⟩
      obtain ⟨hb1, hb2⟩ := hblocks i f hf
      have hfpl : s.g.facPl.lookup i = some ⟨f, rowStart g.facs i, f.residualSize,
          (colsOf h g.varPl f.variables).map (·.1), (colsOf h g.varPl f.variables).map (·.2)⟩ := by
        rw [hso.eq]
        simp only
        rw [lookup_facPl hl, hf]
        rfl
      have hvpl : s.g.varPl = g.varPl := by rw [hso.eq]
      obtain ⟨buf, hbuf⟩ : ∃ buf, s.g.sparseComps[i]? = some buf := by
        have : i < s.g.sparseComps.length := by rw [hso.comps, hl.comps]; exact hi
        exact ⟨s.g.sparseComps[i], by simp⟩
      have hjs : f.computeJacobians h buf = .ok (blocks i) := by
        rw [hsame i f hf h buf (hgs i buf hbuf), hb1]
      obtain ⟨arr, cur, hsc2, _⟩ := hscat (pre ++ [i]) post (by rw [hsplit]; simp)
      have hlog : dataOf ((pre ++ [i]).flatMap (elogAt g h blocks)) =
          dataOf (pre.flatMap (elogAt g h blocks)) ++ dataOf (elogAt g h blocks i) := by
        simp [List.flatMap_append]
      have hsc3 := hsc2
      rw [hlog, SE.forEach_append, SE.bind_ok hsc] at hsc3
      have hea : elogAt g h blocks i = elogVars g.varPl h (rowStart g.facs i) f.variables (blocks i) := by
        simp [elogAt, hf]
      rw [hea] at hsc3
      have hvlen : f.variables.length ≤ (blocks i).length := by
        rcases Nat.lt_or_ge (blocks i).length f.variables.length with hlt | hge
        · obtain ⟨o, ho⟩ : ∃ o, f.variables[(blocks i).length]? = some o := ⟨f.variables[(blocks i).length], by simp [hlt]⟩
          obtain ⟨r, rfl, _⟩ := hl.placed f (List.mem_of_getElem? hf) o (List.mem_of_getElem? ho)
          obtain ⟨J, hJ, _⟩ := hb2 _ r ho
          simp at hJ
        · exact hge
      have hsv := sparseVars_ok h (rowStart g.facs i) f.variables (blocks i)
        (fun o ho => by obtain ⟨r, hr, _⟩ := hl.placed f (List.mem_of_getElem? hf) o ho; exact ⟨r, hr⟩)
        hvlen { s with g := { s.g with sparseComps := s.g.sparseComps.set i (blocks i) } } arr cur
        (by simpa only [hvpl] using hsc3)
      have hone : sparseOne h i s =
          (⟨{ s.g with sparseComps := s.g.sparseComps.set i (blocks i), sparseData := arr }, cur⟩, .ok ()) := by
        simp only [sparseOne, SE.bind_get, hfpl, hbuf, hjs, SE.bind_modify]
        exact hsv
      have hfr := sparseOne_frame good h i s (fun fp hfp => by
        rw [hfpl] at hfp
        simp at hfp; subst hfp
        exact hsafe i f hf) hgs
      rw [hone] at hfr
      exact ⟨_, hone, hso.trans hfr, hfr.good hgs, hsc2⟩)
  refine ⟨s', h1, h2, ?_⟩
  intro c hc
  obtain ⟨arr, cur, e1, e2⟩ := hscat (List.range g.facs.length) [] (by simp)
  rw [e1] at h4
  simp at h4
  obtain ⟨a, ha⟩ : ∃ a, g.sparseData[c]? = some a := ⟨g.sparseData[c]'(by rw [hl.dataLen]; exact hc), by simp⟩
  rw [← h4.1, e2 c a hc ha]
  have hlen : (colVals c (dataOf ((List.range g.facs.length).flatMap (elogAt g h blocks)))).length = a.length := by
    rw [length_colVals_dataOf, hl.data c a ha, hrl]; rfl
  rw [List.drop_eq_nil_of_le (by omega), List.append_nil]
  rfl

/-! ### Rows of a column are strictly increasing -/

theorem colsOf_disjoint {g : Graph F V} {h : Heap V} (hl : Laid h g)
    (hn : (g.varsVec.map fun r => VarLike.id (h r)).Nodup) (hid : IdsIdentify h g.varsVec g.facs)
    (hrep : NoRepeats g.facs) {f : Factor F V} (hf : f ∈ g.facs) :
    (colsOf h g.varPl f.variables).Pairwise fun a b =>
      a.2 = 0 ∨ b.2 = 0 ∨ a.1 + a.2 ≤ b.1 ∨ b.1 + b.2 ≤ a.1 := by
  unfold colsOf
  rw [List.pairwise_filterMap, List.pairwise_iff_getElem]
  intro i j hi hj hij a ha b hb
  have hmap : ∀ (q : Nat) (hq : q < f.variables.length) (a : Nat × Nat),
      (match f.variables[q] with
        | none => none
        | some r => if VarLike.isConst (h r) = true then none
            else Option.map (fun p => (p.index, p.dim)) (g.varPl (VarLike.id (h r)))) = some a →
      ∃ r p, f.variables[q]? = some (some r) ∧ g.varPl (VarLike.id (h r)) = some p ∧ a = (p.index, p.dim) := by
    intro q hq a ha
    cases hv : f.variables[q] with
    | none => simp [hv] at ha
    | some r =>
      rw [hv] at ha
      simp only at ha
      split at ha
      · simp at ha
      · rw [Option.map_eq_some_iff] at ha
        obtain ⟨p, hp, rfl⟩ := ha
        exact ⟨r, p, by rw [List.getElem?_eq_getElem hq, hv], hp, rfl⟩
  obtain ⟨r, p, e1, e2, rfl⟩ := hmap i hi a ha
  obtain ⟨r', p', e1', e2', rfl⟩ := hmap j hj b hb
  exact factor_cols_disjoint hl hn hid hrep hf i j r r' p p' e1 e1' (by omega) e2 e2'

theorem colVals_rowIndex (cols : List (Nat × Nat))
    (hd : cols.Pairwise fun a b => a.2 = 0 ∨ b.2 = 0 ∨ a.1 + a.2 ≤ b.1 ∨ b.1 + b.2 ≤ a.1)
    (R base c : Nat) :
    colVals c (cols.flatMap fun cd => blockWrites cd.1 R cd.2 fun r _ => base + r) = [] ∨
    colVals c (cols.flatMap fun cd => blockWrites cd.1 R cd.2 fun r _ => base + r) =
      (List.range R).map fun r => base + r := by
  induction cols with
  | nil => simp
  | cons cd cols ih =>
    rw [List.flatMap_cons, colVals_append, colVals_blockWrites]
    rw [List.pairwise_cons] at hd
    by_cases hc : cd.1 ≤ c ∧ c < cd.1 + cd.2
    · rw [if_pos hc]
      right
      have : colVals c (cols.flatMap fun cd => blockWrites cd.1 R cd.2 fun r _ => base + r) = [] := by
        rw [colVals_flatMap, List.flatMap_eq_nil_iff]
        intro cd' hcd'
        rw [colVals_blockWrites, if_neg]
        have := hd.1 cd' hcd'
        omega
      rw [this, List.append_nil]
    · rw [if_neg hc, List.nil_append]
      exact ih hd.2

theorem rows_sorted {g : Graph F V} {h : Heap V} (hl : Laid h g)
    (hn : (g.varsVec.map fun r => VarLike.id (h r)).Nodup) (hid : IdsIdentify h g.varsVec g.facs)
    (hrep : NoRepeats g.facs) (c : Nat) :
    (colVals c (rowLog g.facPl)).Pairwise (· < ·) ∧ ∀ r ∈ colVals c (rowLog g.facPl), r < g.numResiduals := by
  suffices H : ∀ (k : Nat) fs, g.facs.drop k = fs → ∀ i,
      (colVals c (rowLog (placedList h (plOf h g.varsVec) fs i (rowStart g.facs k)))).Pairwise (· < ·) ∧
      ∀ r ∈ colVals c (rowLog (placedList h (plOf h g.varsVec) fs i (rowStart g.facs k))),
        rowStart g.facs k ≤ r ∧ r < rowTotal g.facs by
    have := H 0 g.facs (by simp) 0
    rw [show rowStart g.facs 0 = 0 by simp [rowStart]] at this
    rw [hl.fpl, hl.nr]
    exact ⟨this.1, fun r hr => (this.2 r hr).2⟩
  intro k fs
  induction fs generalizing k with
  | nil => intro _ i; simp [placedList, rowLog]
  | cons f fs ih =>
    intro hdrop i
    have hk : g.facs[k]? = some f := by
      have : (g.facs.drop k)[0]? = some f := by rw [hdrop]; rfl
      simpa using this
    have hdrop' : g.facs.drop (k + 1) = fs := by
      rw [← List.drop_drop, hdrop]; rfl
    have ih' := ih (k + 1) hdrop' (i + 1)
    rw [rowStart_succ hk] at ih'
    have hmem := List.mem_of_getElem? hk
    have hend := row_end_le hk
    have hd := colsOf_disjoint hl hn hid hrep hmem
    rw [hl.pl] at hd
    simp only [placedList, rowLog, List.flatMap_cons, colVals_append, rowIndexWrites, zip_map_fst_snd]
    rcases colVals_rowIndex _ hd f.residualSize (rowStart g.facs k) c with e | e
    · rw [e, List.nil_append]
      exact ⟨ih'.1, fun r hr => ⟨by have := (ih'.2 r hr).1; omega, (ih'.2 r hr).2⟩⟩
    · rw [e]
      refine ⟨?_, ?_⟩
      · rw [List.pairwise_append]
        refine ⟨?_, ih'.1, ?_⟩
        · rw [List.pairwise_map]
          exact List.pairwise_lt_range.imp (by intro a b hab; omega)
        · intro a ha b hb
          simp at ha
          obtain ⟨a', ha', rfl⟩ := ha
          have := (ih'.2 b hb).1
          omega
      · intro r hr
        rcases List.mem_append.mp hr with hr | hr
        · simp at hr
          obtain ⟨a', ha', rfl⟩ := hr
          omega
        · have := ih'.2 r hr
          omega

end Graph
end Factorama
