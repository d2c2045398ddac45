import Verif.Lemmas.Layout

/-! Helper lemmas: the state left by a successful `finalize_structure`. -/

set_option linter.unusedSectionVars false

namespace Factorama
open Spec
namespace Graph
variable {F V : Type} [Zero F] [VarLike F V]

theorem placeVariables_bound (h : Heap V) (rs : List VRef) (off : Nat) (m : Int → Option VarPlacement)
    (i : Int) (p : VarPlacement) (hp : (placeVariables h rs off m).1 i = some p) :
    m i = some p ∨ (off ≤ p.index ∧ p.index + p.dim ≤ off + freeTotal h rs) := by
  induction rs generalizing off m with
  | nil => exact Or.inl (by simpa [placeVariables] using hp)
  | cons r rs ih =>
    rw [placeVariables] at hp
    rcases ih _ _ hp with h1 | h1
    · by_cases hi : i = VarLike.id (h r)
      · simp only [mapSet, hi, if_true, Option.some.injEq] at h1
        subst h1
        right
        simp [placedDim_eq]
      · simp only [mapSet, hi, if_false] at h1
        exact Or.inl h1
    · right
      simp only [freeTotal_cons, placedDim_eq] at *
      omega

theorem placeVariables_some_iff (h : Heap V) (rs : List VRef) (off : Nat) (m : Int → Option VarPlacement)
    (i : Int) : ((placeVariables h rs off m).1 i).isSome ↔ (m i).isSome ∨ ∃ r ∈ rs, VarLike.id (h r) = i := by
  induction rs generalizing off m with
  | nil => simp [placeVariables]
  | cons r rs ih =>
    rw [placeVariables, ih]
    by_cases hi : i = VarLike.id (h r)
    · simp [mapSet, hi]
    · simp [mapSet, hi, Ne.symm hi]

/-- The variable placement computed by `finalize_structure`. -/
def plOf (h : Heap V) (vars : List VRef) : Int → Option VarPlacement :=
  (placeVariables h vars 0 (fun _ => none)).1

theorem plOf_bound {h : Heap V} {vars : List VRef} {i : Int} {p : VarPlacement}
    (hp : plOf h vars i = some p) : p.index + p.dim ≤ freeTotal h vars := by
  rcases placeVariables_bound h vars 0 _ i p hp with h1 | h1
  · simp at h1
  · omega

theorem plOf_isSome {h : Heap V} {vars : List VRef} {i : Int} :
    (plOf h vars i).isSome ↔ ∃ r ∈ vars, VarLike.id (h r) = i := by
  simp [plOf, placeVariables_some_iff]

theorem plOf_mem {h : Heap V} {vars : List VRef} (hn : (vars.map fun r => VarLike.id (h r)).Nodup)
    {r : VRef} (hr : r ∈ vars) :
    plOf h vars (VarLike.id (h r)) = some ⟨r, colStart h vars r, freeSize (h r)⟩ :=
  placeVariables_mem h vars hn r hr

theorem colsOf_bound {h : Heap V} {vars : List VRef} (vs : List (Option VRef)) :
    ∀ cd ∈ colsOf h (plOf h vars) vs, cd.1 + cd.2 ≤ freeTotal h vars := by
  intro cd hcd
  simp only [colsOf, List.mem_filterMap] at hcd
  obtain ⟨o, _, ho⟩ := hcd
  cases o with
  | none => simp at ho
  | some r =>
    simp only at ho
    split at ho
    · simp at ho
    · rw [Option.map_eq_some_iff] at ho
      obtain ⟨p, hp, rfl⟩ := ho
      exact plOf_bound hp

theorem placed_iff {h : Heap V} {vars : List VRef} {vs : List (Option VRef)} :
    Placed h (plOf h vars) vs ↔ ∀ p ∈ vs, ∃ r, p = some r ∧
      (VarLike.isConst (h r) = false → ∃ r' ∈ vars, VarLike.id (h r') = VarLike.id (h r)) := by
  simp only [Placed, plOf_isSome]

theorem placeVariables_eq (h : Heap V) (vars : List VRef) :
    placeVariables h vars 0 (fun _ => none) = (plOf h vars, freeTotal h vars) := by
  apply Prod.ext
  · rfl
  · simp [placeVariables_snd]

/-- What a successful `finalize_structure` establishes about the structure part of the graph; `h` is
the heap at that time. -/
structure Laid (h : Heap V) (g : Graph F V) : Prop where
  fin : g.finalized = true
  sinit : g.sparseInit = true
  pl : g.varPl = plOf h g.varsVec
  nv : g.numValues = freeTotal h g.varsVec
  placed : ∀ f ∈ g.facs, Placed h (plOf h g.varsVec) f.variables
  fpl : g.facPl = placedList h (plOf h g.varsVec) g.facs 0 0
  nr : g.numResiduals = rowTotal g.facs
  le : freeTotal h g.varsVec ≤ rowTotal g.facs
  rowsLen : g.sparseRows.length = g.numValues
  rows : ∀ c, c < g.numValues → g.sparseRows[c]? = some (colVals c (rowLog g.facPl))
  dataLen : g.sparseData.length = g.numValues
  data : ∀ (c : Nat) d, g.sparseData[c]? = some d → d.length = (colVals c (rowLog g.facPl)).length
  comps : g.sparseComps.length = g.facs.length
  spRows : g.sparse.rows = g.numResiduals
  spLen : g.sparse.columns.length = g.numValues
  spCap : ∀ (c : Nat) col, g.sparse.columns[c]? = some col → col.cap ≤ (colVals c (rowLog g.facPl)).length

theorem finalize_ok {h : Heap V} {g : Graph F V} (hw : WellPosed h g.varsVec g.facs) :
    ∃ g', finalizeStructure h g = (g', .ok ()) ∧ Laid h g' ∧
      g'.varsMap = g.varsMap ∧ g'.varsVec = g.varsVec ∧ g'.facsMap = g.facsMap ∧ g'.facs = g.facs ∧
      g'.cachedJac = g.cachedJac ∧ g'.jacValid = g.jacValid ∧
      g'.cachedRes = g.cachedRes ∧ g'.resValid = g.resValid ∧ g'.sparseValid = g.sparseValid ∧
      g'.sparseComps = List.replicate g.facs.length [] ∧
      (∀ (c : Nat) col, g'.sparse.columns[c]? = some col → col.entries = []) ∧
      g'.sparse = g.sparse.reserveFresh (rowTotal g.facs)
        ((List.range (freeTotal h g.varsVec)).map fun c => (colVals c (rowLog g'.facPl)).length) := by
  obtain ⟨hp, hle⟩ := hw
  have hpl : ∀ f ∈ g.facs, Placed h (plOf h g.varsVec) f.variables := fun f hf => placed_iff.mpr (hp f hf)
  have hpv := placeVariables_eq h g.varsVec
  have hbound : ∀ f ∈ g.facs, ∀ cd ∈ colsOf h (plOf h g.varsVec) f.variables,
      cd.1 + cd.2 ≤ freeTotal h g.varsVec := fun f _ => colsOf_bound f.variables
  have hcount := countRows_ok g.facs hpl 0 0 (List.replicate (freeTotal h g.varsVec) 0)
    (by simpa using hbound)
  have hc' : (List.replicate (freeTotal h g.varsVec) 0).mapIdx
      (fun c x => x + (colVals c (rowLog (placedList h (plOf h g.varsVec) g.facs 0 0))).length) =
      (List.range (freeTotal h g.varsVec)).map
        (fun c => (colVals c (rowLog (placedList h (plOf h g.varsVec) g.facs 0 0))).length) := by
    apply List.ext_getElem?
    intro i
    by_cases hi : i < freeTotal h g.varsVec
    · simp [hi]
    · simp [hi, List.getElem?_replicate]
  rw [hc'] at hcount
  generalize hL : rowLog (placedList h (plOf h g.varsVec) g.facs 0 0) = L at hcount
  have hlt : ∀ w ∈ L, w.1 < freeTotal h g.varsVec := by
    rw [← hL]; exact rowLog_lt g.facs _ 0 0 hbound
  generalize hn : freeTotal h g.varsVec = n at *
  obtain ⟨arr', cur', hs, hl1, hl2, hs'⟩ := scatter_spec Res.ub L n
    (((List.range n).map fun c => (colVals c L).length).map fun n => List.replicate n 0)
    (List.replicate n 0) (by simp) (by simp) hlt (by
      intro c hc a k ha hk
      simp [hc] at ha hk
      subst ha hk
      simp)
  have hplace := placeFactors_ok (h := h) (pl := plOf h g.varsVec) g.facs hpl 0 0 []
  simp only [List.nil_append, Nat.zero_add] at hplace
  have hnlt : ¬ rowTotal g.facs < n := by omega
  simp only [rowLog] at hL
  refine ⟨{ g with
      varPl := plOf h g.varsVec
      facPl := placedList h (plOf h g.varsVec) g.facs 0 0
      numResiduals := rowTotal g.facs
      numValues := n
      sparseData := ((List.range n).map fun c => (colVals c L).length).map fun n => List.replicate n 0
      sparseRows := arr'
      sparse := g.sparse.reserveFresh (rowTotal g.facs) ((List.range n).map fun c => (colVals c L).length)
      sparseInit := true
      sparseComps := List.replicate g.facs.length []
      finalized := true }, ?_, ?_, rfl, rfl, rfl, rfl, rfl, rfl, rfl, rfl, rfl, rfl, ?_, ?_⟩
  · unfold finalizeStructure
    simp only [hpv, hplace, if_neg hnlt, hcount, hL, hs]
  · refine ⟨rfl, rfl, rfl, hn.symm, hpl, rfl, rfl, by simpa [hn] using hle, hl1, ?_, by simp, ?_, by simp, rfl,
      by simp [SpMat.reserveFresh], ?_⟩
    · intro c hc
      simp only at hc ⊢
      have := (hs' c (List.replicate (colVals c L).length 0) 0 (by simp [hc]) (by simp [hc])).1
      rw [this]
      simp [rowLog, hL]
    · intro c d hd
      simp only [List.getElem?_map, List.map_map] at hd
      rw [Option.map_eq_some_iff] at hd
      obtain ⟨c', hc', rfl⟩ := hd
      obtain ⟨hlt', rfl⟩ : ∃ _ : c < n, c' = c := by
        rw [List.getElem?_eq_some_iff] at hc'
        obtain ⟨h1, h2⟩ := hc'
        simp at h1 h2
        exact ⟨h1, h2.symm⟩
      simp [rowLog, hL]
    · intro c col hd
      simp only [SpMat.reserveFresh, List.getElem?_map, List.map_map] at hd
      rw [Option.map_eq_some_iff] at hd
      obtain ⟨c', hc', rfl⟩ := hd
      obtain ⟨hlt', rfl⟩ : ∃ _ : c < n, c' = c := by
        rw [List.getElem?_eq_some_iff] at hc'
        obtain ⟨h1, h2⟩ := hc'
        simp at h1 h2
        exact ⟨h1, h2.symm⟩
      simp [rowLog, hL]
  · intro c col hd
    simp only [SpMat.reserveFresh, List.getElem?_map, List.map_map] at hd
    rw [Option.map_eq_some_iff] at hd
    obtain ⟨c', hc', rfl⟩ := hd
    rfl
  · simp only [rowLog, hL]

theorem finalize_threw {h : Heap V} {g : Graph F V} (hw : ¬ WellPosed h g.varsVec g.facs) :
    ∃ g', finalizeStructure h g = (g', .threw) ∧ g'.finalized = g.finalized ∧
      g'.varsMap = g.varsMap ∧ g'.varsVec = g.varsVec ∧ g'.facsMap = g.facsMap ∧ g'.facs = g.facs ∧
      g'.cachedJac = g.cachedJac ∧ g'.jacValid = g.jacValid ∧
      g'.cachedRes = g.cachedRes ∧ g'.resValid = g.resValid ∧ g'.sparseValid = g.sparseValid ∧
      g'.sparseComps = g.sparseComps ∧ g'.sparse = g.sparse ∧ g'.sparseInit = g.sparseInit := by
  have hpv := placeVariables_eq h g.varsVec
  by_cases hpl : ∀ f ∈ g.facs, Placed h (plOf h g.varsVec) f.variables
  · have hlt : rowTotal g.facs < freeTotal h g.varsVec := by
      apply Nat.lt_of_not_le
      intro hge
      exact hw ⟨fun f hf => placed_iff.mp (hpl f hf), hge⟩
    have hplace := placeFactors_ok (h := h) (pl := plOf h g.varsVec) g.facs hpl 0 0 []
    simp only [List.nil_append, Nat.zero_add] at hplace
    refine ⟨{ g with
        varPl := plOf h g.varsVec
        facPl := placedList h (plOf h g.varsVec) g.facs 0 0
        numResiduals := rowTotal g.facs
        numValues := freeTotal h g.varsVec }, ?_, by simp⟩
    unfold finalizeStructure
    simp only [hpv, hplace, if_pos hlt]
  · obtain ⟨acc, hacc⟩ := placeFactors_threw (h := h) (pl := plOf h g.varsVec) g.facs hpl 0 0 []
    refine ⟨{ g with varPl := plOf h g.varsVec, facPl := acc }, ?_, by simp⟩
    unfold finalizeStructure
    simp only [hpv, hacc]

end Graph
end Factorama
