import Verif.Lemmas.Scatter
import Verif.Spec.Graph

/-! Helper lemmas: the placements computed by `finalize_structure`. -/

set_option linter.unusedSectionVars false

namespace Factorama
open Spec
namespace Graph
variable {F V : Type} [Zero F] [VarLike F V]

theorem placedDim_eq (v : V) : placedDim v = freeSize v := rfl

@[simp] theorem freeTotal_nil (h : Heap V) : freeTotal h [] = 0 := rfl
@[simp] theorem freeTotal_cons (h : Heap V) (r : VRef) (rs : List VRef) :
    freeTotal h (r :: rs) = freeSize (h r) + freeTotal h rs := by simp [freeTotal]
@[simp] theorem freeTotal_append (h : Heap V) (rs rs' : List VRef) :
    freeTotal h (rs ++ rs') = freeTotal h rs + freeTotal h rs' := by simp [freeTotal]
@[simp] theorem rowTotal_nil : rowTotal ([] : List (Factor F V)) = 0 := rfl
@[simp] theorem rowTotal_cons (f : Factor F V) (fs : List (Factor F V)) :
    rowTotal (f :: fs) = f.residualSize + rowTotal fs := by simp [rowTotal]
@[simp] theorem rowTotal_append (fs fs' : List (Factor F V)) :
    rowTotal (fs ++ fs') = rowTotal fs + rowTotal fs' := by simp [rowTotal]

theorem placeVariables_snd (h : Heap V) (rs : List VRef) (off : Nat) (m : Int → Option VarPlacement) :
    (placeVariables h rs off m).2 = off + freeTotal h rs := by
  induction rs generalizing off m with
  | nil => simp [placeVariables]
  | cons r rs ih => simp [placeVariables, ih, placedDim_eq]; omega

theorem placeVariables_notin (h : Heap V) (rs : List VRef) (off : Nat) (m : Int → Option VarPlacement)
    (i : Int) (hi : ∀ r ∈ rs, VarLike.id (h r) ≠ i) : (placeVariables h rs off m).1 i = m i := by
  induction rs generalizing off m with
  | nil => simp [placeVariables]
  | cons r rs ih =>
    rw [placeVariables, ih _ _ (fun r' hr' => hi r' (by simp [hr']))]
    have : i ≠ VarLike.id (h r) := fun e => hi r (by simp) e.symm
    simp [mapSet, this]

theorem placeVariables_in (h : Heap V) (pre : List VRef) (r : VRef) (post : List VRef) (off : Nat)
    (m : Int → Option VarPlacement)
    (hn : ((pre ++ r :: post).map fun r => VarLike.id (h r)).Nodup) :
    (placeVariables h (pre ++ r :: post) off m).1 (VarLike.id (h r)) =
      some ⟨r, off + freeTotal h pre, freeSize (h r)⟩ := by
  induction pre generalizing off m with
  | nil =>
    simp only [List.nil_append, placeVariables, freeTotal_nil, placedDim_eq]
    rw [placeVariables_notin]
    · simp [mapSet]
    · intro r' hr' e
      simp at hn
      exact hn.1 r' hr' e
  | cons a pre ih =>
    simp only [List.cons_append, placeVariables]
    rw [ih]
    · simp [placedDim_eq]; omega
    · simpa using (List.nodup_cons.mp (by simpa using hn)).2

theorem takeWhile_ne_append {r : VRef} {pre post : List VRef} (hr : r ∉ pre) :
    (pre ++ r :: post).takeWhile (fun r' => r' != r) = pre := by
  induction pre with
  | nil => simp
  | cons a pre ih =>
    simp at hr
    have : (a != r) = true := by simp; exact fun e => hr.1 e.symm
    simp [this, ih hr.2]

theorem nodup_of_ids_nodup {h : Heap V} {rs : List VRef}
    (hn : (rs.map fun r => VarLike.id (h r)).Nodup) : rs.Nodup := by
  induction rs with
  | nil => simp
  | cons a rs ih =>
    simp only [List.map_cons, List.nodup_cons] at hn ⊢
    refine ⟨fun hm => hn.1 (List.mem_map.mpr ⟨a, hm, rfl⟩), ih hn.2⟩

theorem colStart_append {h : Heap V} {pre post : List VRef} {r : VRef} (hr : r ∉ pre) :
    colStart h (pre ++ r :: post) r = freeTotal h pre := by
  rw [colStart, takeWhile_ne_append hr]

theorem placeVariables_mem (h : Heap V) (rs : List VRef) (hn : (rs.map fun r => VarLike.id (h r)).Nodup)
    (r : VRef) (hr : r ∈ rs) :
    (placeVariables h rs 0 (fun _ => none)).1 (VarLike.id (h r)) =
      some ⟨r, colStart h rs r, freeSize (h r)⟩ := by
  obtain ⟨pre, post, rfl⟩ := List.append_of_mem hr
  have hnd := nodup_of_ids_nodup hn
  rw [placeVariables_in h pre r post 0 _ hn, colStart_append]
  · simp
  · intro hm
    have := List.nodup_append.mp hnd
    exact this.2.2 r hm r (by simp) rfl

/-- Columns (start, width) of the placed non-constant variables of a factor. -/
def colsOf (h : Heap V) (pl : Int → Option VarPlacement) (vs : List (Option VRef)) : List (Nat × Nat) :=
  vs.filterMap fun o => match o with
    | none => none
    | some r => if VarLike.isConst (h r) then none
                else (pl (VarLike.id (h r))).map fun p => (p.index, p.dim)

/-- A factor whose variables are non-null and placed unless constant. -/
def Placed (h : Heap V) (pl : Int → Option VarPlacement) (vs : List (Option VRef)) : Prop :=
  ∀ p ∈ vs, ∃ r, p = some r ∧ (VarLike.isConst (h r) = false → (pl (VarLike.id (h r))).isSome)

theorem factorColumns_ok {h : Heap V} {pl : Int → Option VarPlacement} {vs : List (Option VRef)}
    (hp : Placed h pl vs) :
    factorColumns h pl vs = .ok ((colsOf h pl vs).map (·.1), (colsOf h pl vs).map (·.2)) := by
  induction vs with
  | nil => rfl
  | cons o vs ih =>
    obtain ⟨r, rfl, hr⟩ := hp o (by simp)
    have ih := ih (fun p hp' => hp p (by simp [hp']))
    by_cases hc : VarLike.isConst (h r)
    · simp [factorColumns, hc, ih, colsOf]
    · simp at hc
      obtain ⟨p, hp⟩ := Option.isSome_iff_exists.mp (hr hc)
      simp [factorColumns, hc, hp, ih, colsOf]

theorem factorColumns_threw {h : Heap V} {pl : Int → Option VarPlacement} {vs : List (Option VRef)}
    (hp : ¬ Placed h pl vs) : factorColumns h pl vs = .threw := by
  induction vs with
  | nil => exact absurd (fun p hp => by simp at hp) hp
  | cons o vs ih =>
    cases o with
    | none => rfl
    | some r =>
      by_cases hc : VarLike.isConst (h r)
      · simp only [factorColumns, hc, if_true]
        apply ih
        intro hv
        apply hp
        intro p hm
        rcases List.mem_cons.mp hm with rfl | hm
        · exact ⟨r, rfl, by simp [hc]⟩
        · exact hv p hm
      · simp at hc
        simp only [factorColumns, hc, Bool.false_eq_true, if_false]
        cases hpl : pl (VarLike.id (h r)) with
        | none => rfl
        | some p =>
          simp only
          rw [ih]
          intro hv
          apply hp
          intro q hm
          rcases List.mem_cons.mp hm with rfl | hm
          · exact ⟨r, rfl, by simp [hpl]⟩
          · exact hv q hm

/-- The entries `finalize_structure` puts into `factor_placement_`. -/
def placedList (h : Heap V) (pl : Int → Option VarPlacement) :
    List (Factor F V) → Nat → Nat → List (Nat × FacPlacement F V)
  | [], _, _ => []
  | f :: fs, i, off =>
    (i, ⟨f, off, f.residualSize, (colsOf h pl f.variables).map (·.1), (colsOf h pl f.variables).map (·.2)⟩) ::
      placedList h pl fs (i + 1) (off + f.residualSize)

theorem placeFactors_ok {h : Heap V} {pl : Int → Option VarPlacement} (fs : List (Factor F V))
    (hp : ∀ f ∈ fs, Placed h pl f.variables) (i off : Nat) (acc : List (Nat × FacPlacement F V)) :
    placeFactors h pl fs i off acc =
      (acc ++ placedList h pl fs i off, .ok (off + rowTotal fs)) := by
  induction fs generalizing i off acc with
  | nil => simp [placeFactors, placedList]
  | cons f fs ih =>
    simp only [placeFactors, factorColumns_ok (hp f (by simp)), SE.bind_lift_ok, SE.bind_modify]
    rw [ih (fun f' hf' => hp f' (by simp [hf']))]
    simp [placedList]; omega

theorem placeFactors_threw {h : Heap V} {pl : Int → Option VarPlacement} (fs : List (Factor F V))
    (hp : ¬ ∀ f ∈ fs, Placed h pl f.variables) (i off : Nat) (acc : List (Nat × FacPlacement F V)) :
    ∃ acc', placeFactors h pl fs i off acc = (acc', .threw) := by
  induction fs generalizing i off acc with
  | nil => exact absurd (fun f hf => by simp at hf) hp
  | cons f fs ih =>
    by_cases hf : Placed h pl f.variables
    · simp only [placeFactors, factorColumns_ok hf, SE.bind_lift_ok, SE.bind_modify]
      apply ih
      intro hall
      apply hp
      intro f' hf'
      rcases List.mem_cons.mp hf' with rfl | hf'
      · exact hf
      · exact hall f' hf'
    · exact ⟨acc, by simp [placeFactors, factorColumns_threw hf]⟩

theorem length_placedList (h : Heap V) (pl : Int → Option VarPlacement) (fs : List (Factor F V)) (i off : Nat) :
    (placedList h pl fs i off).length = fs.length := by
  induction fs generalizing i off with
  | nil => rfl
  | cons f fs ih => simp [placedList, ih]

theorem getElem?_placedList (h : Heap V) (pl : Int → Option VarPlacement) (fs : List (Factor F V)) (i off k : Nat) :
    (placedList h pl fs i off)[k]? = (fs[k]?).map fun f =>
      (i + k, ⟨f, off + rowStart fs k, f.residualSize, (colsOf h pl f.variables).map (·.1),
        (colsOf h pl f.variables).map (·.2)⟩) := by
  induction fs generalizing i off k with
  | nil => simp [placedList]
  | cons f fs ih =>
    cases k with
    | zero => simp [placedList, rowStart]
    | succ k =>
      simp only [placedList, List.getElem?_cons_succ, ih, rowStart, List.take_succ_cons, rowTotal_cons]
      congr 1
      funext f'
      simp; omega

theorem lookup_placedList (h : Heap V) (pl : Int → Option VarPlacement) (fs : List (Factor F V)) (i off k : Nat) :
    (placedList h pl fs i off).lookup (i + k) = ((placedList h pl fs i off)[k]?).map (·.2) := by
  induction fs generalizing i off k with
  | nil => simp [placedList]
  | cons f fs ih =>
    cases k with
    | zero => simp [placedList, List.lookup]
    | succ k =>
      have : (i + (k + 1) == i) = false := by simp
      simp only [placedList, List.lookup_cons, this, List.getElem?_cons_succ]
      have := ih (i + 1) (off + f.residualSize) k
      rw [show i + 1 + k = i + (k + 1) by omega] at this
      simpa using this

/-! ### Row counting and the row index lists -/

/-- The write log of the second loop of `finalize_structure`. -/
def rowLog (fpl : List (Nat × FacPlacement F V)) : List (Nat × Nat) :=
  fpl.flatMap fun it => rowIndexWrites it.2

theorem zip_map_fst_snd {α β : Type} (l : List (α × β)) : (l.map (·.1)).zip (l.map (·.2)) = l := by
  induction l with
  | nil => rfl
  | cons a l ih => simp [ih]

theorem length_colVals_block {α : Type} (c base R C : Nat) (x : Nat → Nat → α) :
    (colVals c (blockWrites base R C x)).length = if base ≤ c ∧ c < base + C then R else 0 := by
  rw [colVals_blockWrites]; split <;> simp

theorem mapIdx_id' {α : Type} (l : List α) : l.mapIdx (fun _ x => x) = l := by
  apply List.ext_getElem? ; intro i; simp

/-- Number of rows a list of column ranges contributes to column `c`. -/
def rangeCount (cols : List (Nat × Nat)) (d c : Nat) : Nat :=
  (cols.map fun cd => if cd.1 ≤ c ∧ c < cd.1 + cd.2 then d else 0).sum

theorem countVars_ok {h : Heap V} {pl : Int → Option VarPlacement} {vs : List (Option VRef)}
    (hp : Placed h pl vs) (d : Nat) (counts : List Nat)
    (hb : ∀ cd ∈ colsOf h pl vs, cd.1 + cd.2 ≤ counts.length) :
    countVars h pl d vs counts = .ok (counts.mapIdx fun c x => x + rangeCount (colsOf h pl vs) d c) := by
  induction vs generalizing counts with
  | nil =>
    simp only [countVars, colsOf, rangeCount, List.filterMap_nil, List.map_nil, List.sum_nil, Nat.add_zero]
    rw [mapIdx_id']
  | cons o vs ih =>
    obtain ⟨r, rfl, hr⟩ := hp o (by simp)
    have hp' : Placed h pl vs := fun p hm => hp p (by simp [hm])
    by_cases hc : VarLike.isConst (h r)
    · have hcols : colsOf h pl (some r :: vs) = colsOf h pl vs := by simp [colsOf, hc]
      rw [hcols] at hb ⊢
      simp only [countVars, hc, if_true]
      exact ih hp' counts hb
    · simp at hc
      obtain ⟨p, hpp⟩ := Option.isSome_iff_exists.mp (hr hc)
      have hcols : colsOf h pl (some r :: vs) = (p.index, p.dim) :: colsOf h pl vs := by
        simp [colsOf, hc, hpp]
      rw [hcols] at hb ⊢
      have hb0 := hb (p.index, p.dim) (by simp)
      simp only [countVars, hc, hpp, addRange, Bool.false_eq_true, if_false]
      rw [if_pos (Or.inr hb0)]
      simp only
      rw [ih hp' _ (by intro cd hcd; simpa using hb cd (by simp [hcd]))]
      congr 1
      rw [List.mapIdx_mapIdx]
      congr 1
      funext c x
      simp only [Function.comp, rangeCount, List.map_cons, List.sum_cons]
      split <;> omega

theorem countRows_ok {h : Heap V} {pl : Int → Option VarPlacement} (fs : List (Factor F V))
    (hp : ∀ f ∈ fs, Placed h pl f.variables) (i off : Nat) (counts : List Nat)
    (hb : ∀ f ∈ fs, ∀ cd ∈ colsOf h pl f.variables, cd.1 + cd.2 ≤ counts.length) :
    countRows h pl (placedList h pl fs i off) counts =
      .ok (counts.mapIdx fun c x => x + (colVals c (rowLog (placedList h pl fs i off))).length) := by
  induction fs generalizing i off counts with
  | nil =>
    simp only [countRows, placedList, rowLog, List.flatMap_nil, colVals_nil, List.length_nil, Nat.add_zero]
    rw [mapIdx_id']
  | cons f fs ih =>
    simp only [placedList, countRows]
    rw [countVars_ok (hp f (by simp)) _ _ (hb f (by simp))]
    simp only
    rw [ih (fun f' hf' => hp f' (by simp [hf'])) _ _ _
      (by intro f' hf' cd hcd; simpa using hb f' (by simp [hf']) cd hcd)]
    congr 1
    rw [List.mapIdx_mapIdx]
    congr 1
    funext c x
    simp only [Function.comp, rowLog, List.flatMap_cons, colVals_append, List.length_append]
    have : (colVals c (rowIndexWrites (⟨f, off, f.residualSize, (colsOf h pl f.variables).map (·.1),
        (colsOf h pl f.variables).map (·.2)⟩ : FacPlacement F V))).length =
        rangeCount (colsOf h pl f.variables) f.residualSize c := by
      simp only [rowIndexWrites, zip_map_fst_snd, colVals_flatMap, List.length_flatMap,
        length_colVals_block, rangeCount]
    rw [this]; omega

theorem rowLog_lt {h : Heap V} {pl : Int → Option VarPlacement} (fs : List (Factor F V)) (n i off : Nat)
    (hb : ∀ f ∈ fs, ∀ cd ∈ colsOf h pl f.variables, cd.1 + cd.2 ≤ n) :
    ∀ w ∈ rowLog (placedList h pl fs i off), w.1 < n := by
  induction fs generalizing i off with
  | nil => simp [placedList, rowLog]
  | cons f fs ih =>
    intro w hw
    simp only [placedList, rowLog, List.flatMap_cons, List.mem_append] at hw
    rcases hw with hw | hw
    · simp only [rowIndexWrites, zip_map_fst_snd, List.mem_flatMap] at hw
      obtain ⟨cd, hcd, hw⟩ := hw
      have := mem_blockWrites hw
      have := hb f (by simp) cd hcd
      omega
    · exact ih (i + 1) (off + f.residualSize) (fun f' hf' => hb f' (by simp [hf'])) w hw

end Graph
end Factorama
