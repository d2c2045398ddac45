import Verif.Lemmas.Finalize
import Verif.Model.History

/-! Helper lemmas: the layout only depends on the shape of the heap, and value operations keep the shape. -/

set_option linter.unusedSectionVars false

namespace Factorama
open Spec
namespace Spec
variable {F V : Type} [VarLike F V]

theorem SameShape.refl (h : Heap V) : SameShape h h := fun _ => ⟨rfl, rfl, rfl⟩
theorem SameShape.symm {h h' : Heap V} (hs : SameShape h h') : SameShape h' h :=
  fun r => ⟨(hs r).1.symm, (hs r).2.1.symm, (hs r).2.2.symm⟩
theorem SameShape.trans {h h' h'' : Heap V} (h1 : SameShape h h') (h2 : SameShape h' h'') : SameShape h h'' :=
  fun r => ⟨(h2 r).1.trans (h1 r).1, (h2 r).2.1.trans (h1 r).2.1, (h2 r).2.2.trans (h1 r).2.2⟩

theorem SameShape.freeSize_eq {h h' : Heap V} (hs : SameShape h h') (r : VRef) :
    freeSize (h' r) = freeSize (h r) := by simp [freeSize, (hs r).2.1, (hs r).2.2]

theorem SameShape.freeTotal_eq {h h' : Heap V} (hs : SameShape h h') (rs : List VRef) :
    freeTotal h' rs = freeTotal h rs := by simp [freeTotal, hs.freeSize_eq]

theorem SameShape.colStart_eq {h h' : Heap V} (hs : SameShape h h') (vars : List VRef) (r : VRef) :
    colStart h' vars r = colStart h vars r := by simp [colStart, hs.freeTotal_eq]

theorem SameShape.ids_eq {h h' : Heap V} (hs : SameShape h h') (vars : List VRef) :
    (vars.map fun r => VarLike.id (h' r)) = vars.map fun r => VarLike.id (h r) := by
  simp [fun r => (hs r).1]

theorem SameShape.set {h : Heap V} {r : VRef} {v : V} (h1 : VarLike.id v = VarLike.id (h r))
    (h2 : VarLike.isConst v = VarLike.isConst (h r)) (h3 : VarLike.size v = VarLike.size (h r)) :
    SameShape h (h.set r v) := by
  intro r'
  by_cases hr : r' = r
  · subst hr; simp [Heap.set, h1, h2, h3]
  · simp [Heap.set, hr]

end Spec

namespace Graph
variable {F V : Type} [Zero F] [VarLike F V]

theorem placeVariables_shape {h h' : Heap V} (hs : SameShape h h') (rs : List VRef) (off : Nat)
    (m : Int → Option VarPlacement) : placeVariables h' rs off m = placeVariables h rs off m := by
  induction rs generalizing off m with
  | nil => rfl
  | cons r rs ih =>
    simp only [placeVariables, ih, (hs r).1, placedDim_eq, hs.freeSize_eq]

theorem plOf_shape {h h' : Heap V} (hs : SameShape h h') (vars : List VRef) : plOf h' vars = plOf h vars := by
  simp [plOf, placeVariables_shape hs]

theorem colsOf_shape {h h' : Heap V} (hs : SameShape h h') (pl : Int → Option VarPlacement)
    (vs : List (Option VRef)) : colsOf h' pl vs = colsOf h pl vs := by
  unfold colsOf
  congr 1
  funext o
  cases o with
  | none => rfl
  | some r => simp [(hs r).1, (hs r).2.1]

theorem Placed.shape {h h' : Heap V} (hs : SameShape h h') {pl : Int → Option VarPlacement}
    {vs : List (Option VRef)} (hp : Placed h pl vs) : Placed h' pl vs := by
  intro p hm
  obtain ⟨r, hr, h2⟩ := hp p hm
  exact ⟨r, hr, by rw [(hs r).1, (hs r).2.1]; exact h2⟩

theorem placedList_shape {h h' : Heap V} (hs : SameShape h h') (pl : Int → Option VarPlacement)
    (fs : List (Factor F V)) (i off : Nat) : placedList h' pl fs i off = placedList h pl fs i off := by
  induction fs generalizing i off with
  | nil => rfl
  | cons f fs ih => simp only [placedList, ih, colsOf_shape hs]

theorem Laid.shape {h h' : Heap V} (hs : SameShape h h') {g : Graph F V} (hl : Laid h g) : Laid h' g where
  fin := hl.fin
  sinit := hl.sinit
  pl := by rw [plOf_shape hs]; exact hl.pl
  nv := by rw [hs.freeTotal_eq]; exact hl.nv
  placed := fun f hf => by rw [plOf_shape hs]; exact (hl.placed f hf).shape hs
  fpl := by rw [plOf_shape hs, placedList_shape hs]; exact hl.fpl
  nr := hl.nr
  le := by rw [hs.freeTotal_eq]; exact hl.le
  rowsLen := hl.rowsLen
  rows := hl.rows
  dataLen := hl.dataLen
  data := hl.data
  comps := hl.comps
  spRows := hl.spRows
  spLen := hl.spLen
  spCap := hl.spCap

/-! ### Value operations keep the shape -/

variable [LawfulVar F V]

theorem mutate_setValue_shape (r : VRef) (x : List F) (h : Heap V) :
    SameShape h (mutate r (fun v => VarLike.setValue v x) h).1 := by
  unfold mutate
  split
  · rename_i v hv
    exact SameShape.set (LawfulVar.id_setValue _ _ _ hv) (LawfulVar.isConst_setValue _ _ _ hv)
      (LawfulVar.size_setValue _ _ _ hv)
  · exact SameShape.refl h
  · exact SameShape.refl h

theorem mutate_applyIncr_shape (r : VRef) (x : List F) (h : Heap V) :
    SameShape h (mutate r (fun v => VarLike.applyIncr v x) h).1 := by
  unfold mutate
  split
  · rename_i v hv
    exact SameShape.set (LawfulVar.id_applyIncr _ _ _ hv) (LawfulVar.isConst_applyIncr _ _ _ hv)
      (LawfulVar.size_applyIncr _ _ _ hv)
  · exact SameShape.refl h
  · exact SameShape.refl h

theorem bind_shape {α β : Type} {m : SE (Heap V) α} {k : α → SE (Heap V) β} {h : Heap V}
    (hm : SameShape h (m h).1) (hk : ∀ a h', SameShape h' (k a h').1) :
    SameShape h (SE.bind m k h).1 := by
  unfold SE.bind
  split
  · rename_i s' a hs
    rw [hs] at hm
    exact hm.trans (hk a s')
  · rename_i s' hs; rw [hs] at hm; exact hm
  · rename_i s' hs; rw [hs] at hm; exact hm

theorem setVectorLoop_shape (x : List F) (rs : List VRef) (off : Nat) (h : Heap V) :
    SameShape h (setVectorLoop x rs off h).1 := by
  induction rs generalizing off h with
  | nil => exact SameShape.refl h
  | cons r rs ih =>
    simp only [setVectorLoop, SE.bind_get]
    split
    · exact ih off h
    · refine bind_shape (SameShape.refl h) ?_
      intro seg h1
      refine bind_shape (mutate_setValue_shape r seg h1) ?_
      intro _ h2
      exact ih _ h2

theorem forEach_shape {β : Type} (bs : List β) (body : β → SE (Heap V) Unit)
    (hb : ∀ b h', SameShape h' (body b h').1) (h : Heap V) : SameShape h (SE.forEach bs body h).1 := by
  induction bs generalizing h with
  | nil => exact SameShape.refl h
  | cons b bs ih => exact bind_shape (hb b h) (fun _ h' => ih h')

theorem applyIncrementOne_shape (g : Graph F V) (dx : List F) (r : VRef) (h : Heap V) :
    SameShape h (applyIncrementOne g dx r h).1 := by
  simp only [applyIncrementOne, SE.bind_get]
  split
  · exact SameShape.refl h
  · cases g.variablePlacement (VarLike.id (h r)) with
    | none => exact SameShape.refl h
    | some p =>
      simp only
      split
      · exact SameShape.refl h
      · exact bind_shape (SameShape.refl h) (fun seg h' => mutate_applyIncr_shape r seg h')

theorem applyIncrement_shape (g : Graph F V) (dx : List F) (h : Heap V) :
    SameShape h (applyIncrement g dx h).1 := by
  unfold applyIncrement
  split
  · exact SameShape.refl h
  · split
    · exact SameShape.refl h
    · exact forEach_shape _ _ (fun r h' => applyIncrementOne_shape g dx r h') h

end Graph
end Factorama
