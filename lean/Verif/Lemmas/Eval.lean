import Verif.Lemmas.Shape

/-! Helper lemmas: residual vector and dense Jacobian evaluation. -/

set_option linter.unusedSectionVars false

namespace Factorama
open Spec
namespace Graph
variable {F V : Type} [Zero F] [VarLike F V]

/-! ### Rows -/

theorem rowStart_succ {facs : List (Factor F V)} {k : Nat} {f : Factor F V} (hf : facs[k]? = some f) :
    rowStart facs (k + 1) = rowStart facs k + f.residualSize := by
  simp [rowStart, List.take_add_one, hf]

theorem rowStart_mono {facs : List (Factor F V)} {k k' : Nat} (h : k ≤ k') :
    rowStart facs k ≤ rowStart facs k' := by
  induction h with
  | refl => exact Nat.le_refl _
  | @step m _ ih =>
    refine Nat.le_trans ih ?_
    cases hf : facs[m]? with
    | none => simp [rowStart, List.take_add_one, hf]
    | some f => rw [rowStart_succ hf]; omega

theorem rowStart_le_total (facs : List (Factor F V)) (k : Nat) : rowStart facs k ≤ rowTotal facs := by
  have : rowTotal facs = rowStart facs k + rowTotal (facs.drop k) := by
    rw [rowStart, ← rowTotal_append, List.take_append_drop]
  omega

theorem row_end_le {facs : List (Factor F V)} {k : Nat} {f : Factor F V} (hf : facs[k]? = some f) :
    rowStart facs k + f.residualSize ≤ rowTotal facs := by
  rw [← rowStart_succ hf]; exact rowStart_le_total _ _

theorem row_unique {facs : List (Factor F V)} {k k' : Nat} {f f' : Factor F V}
    (hf : facs[k]? = some f) (hf' : facs[k']? = some f') {a : Nat}
    (h1 : rowStart facs k ≤ a ∧ a < rowStart facs k + f.residualSize)
    (h2 : rowStart facs k' ≤ a ∧ a < rowStart facs k' + f'.residualSize) : k = k' := by
  rcases Nat.lt_trichotomy k k' with h | h | h
  · have := rowStart_mono (facs := facs) (show k + 1 ≤ k' from h)
    rw [rowStart_succ hf] at this; omega
  · exact h
  · have := rowStart_mono (facs := facs) (show k' + 1 ≤ k from h)
    rw [rowStart_succ hf'] at this; omega

theorem row_decomp (facs : List (Factor F V)) (a : Nat) (ha : a < rowTotal facs) :
    ∃ k f i, facs[k]? = some f ∧ i < f.residualSize ∧ a = rowStart facs k + i := by
  induction facs generalizing a with
  | nil => simp at ha
  | cons f facs ih =>
    by_cases h : a < f.residualSize
    · exact ⟨0, f, a, rfl, h, by simp [rowStart]⟩
    · obtain ⟨k, f', i, h1, h2, h3⟩ := ih (a - f.residualSize) (by simp at ha; omega)
      exact ⟨k + 1, f', i, by simpa using h1, h2, by simp [rowStart] at h3 ⊢; omega⟩

/-! ### Columns -/

theorem col_end_le {h : Heap V} {vars : List VRef} {r : VRef} (hr : r ∈ vars) :
    colStart h vars r + freeSize (h r) ≤ freeTotal h vars := by
  have hsplit : ∃ pre post, vars = pre ++ r :: post ∧ r ∉ pre := by
    induction vars with
    | nil => simp at hr
    | cons a vars ih =>
      by_cases har : a = r
      · exact ⟨[], vars, by simp [har], by simp⟩
      · obtain ⟨pre, post, h1, h2⟩ := ih (by simpa [Ne.symm har] using hr)
        exact ⟨a :: pre, post, by simp [h1], by simp [h2, Ne.symm har]⟩
  obtain ⟨pre, post, rfl, h2⟩ := hsplit
  rw [colStart_append h2]
  simp

theorem col_disjoint {h : Heap V} {vars : List VRef} {r r' : VRef} (hr : r ∈ vars) (hr' : r' ∈ vars)
    (hne : r ≠ r') : colStart h vars r + freeSize (h r) ≤ colStart h vars r' ∨
      colStart h vars r' + freeSize (h r') ≤ colStart h vars r := by
  unfold colStart
  induction vars with
  | nil => simp at hr
  | cons a vars ih =>
    by_cases h1 : a = r
    · subst h1
      left
      have : (a != r') = true := by simpa using hne
      simp [this]
    · by_cases h2 : a = r'
      · subst h2
        right
        have : (a != r) = true := by simpa using h1
        simp [this]
      · have e1 : (a != r) = true := by simpa using h1
        have e2 : (a != r') = true := by simpa using h2
        have := ih (by simpa [Ne.symm h1] using hr) (by simpa [Ne.symm h2] using hr')
        simp [e1, e2]
        omega

theorem col_unique {h : Heap V} {vars : List VRef} {r r' : VRef} (hr : r ∈ vars) (hr' : r' ∈ vars) {b : Nat}
    (h1 : colStart h vars r ≤ b ∧ b < colStart h vars r + freeSize (h r))
    (h2 : colStart h vars r' ≤ b ∧ b < colStart h vars r' + freeSize (h r')) : r = r' := by
  by_cases hne : r = r'
  · exact hne
  · rcases col_disjoint (h := h) hr hr' hne with h3 | h3 <;> omega

theorem col_decomp (h : Heap V) (vars : List VRef) (hnd : vars.Nodup) (b : Nat) (hb : b < freeTotal h vars) :
    ∃ r ∈ vars, ∃ j, j < freeSize (h r) ∧ b = colStart h vars r + j := by
  induction vars generalizing b with
  | nil => simp at hb
  | cons a vars ih =>
    by_cases hlt : b < freeSize (h a)
    · exact ⟨a, by simp, b, hlt, by simp [colStart]⟩
    · obtain ⟨r, hr, j, h1, h2⟩ := ih (List.nodup_cons.mp hnd).2 (b - freeSize (h a)) (by simp at hb; omega)
      refine ⟨r, by simp [hr], j, h1, ?_⟩
      have hne : (a != r) = true := by
        simp; intro e; subst e; exact (List.nodup_cons.mp hnd).1 hr
      have e : colStart h (a :: vars) r = freeSize (h a) + colStart h vars r := by
        simp [colStart, hne]
      omega

theorem freeSize_of_nonconst {v : V} (h : VarLike.isConst v = false) : freeSize v = VarLike.size v := by
  simp [freeSize, h]

theorem nonconst_of_freeSize {v : V} {j : Nat} (h : j < freeSize v) : VarLike.isConst v = false := by
  by_cases hc : VarLike.isConst v
  · simp [freeSize, hc] at h
  · simpa using hc

/-! ### Residual vector -/

theorem residualOne_length {h : Heap V} {it : Nat × FacPlacement F V} (buf : List F) :
    (residualOne h it buf).1.length = buf.length := by
  unfold residualOne
  simp only
  split
  · rfl
  · cases hr : it.2.factor.computeResidual h with
    | threw => rfl
    | ub => rfl
    | ok seg =>
      simp only
      split
      · simp; omega
      · rfl

theorem residualLoop_length {h : Heap V} (l : List (Nat × FacPlacement F V)) (buf : List F) :
    (SE.forEach l (residualOne h) buf).1.length = buf.length := by
  induction l generalizing buf with
  | nil => rfl
  | cons it l ih =>
    rw [SE.forEach_cons]
    unfold SE.bind
    have h1 := residualOne_length (h := h) (it := it) buf
    split
    · rename_i s' a hs; rw [hs] at h1; rw [ih, h1]
    · rename_i s' hs; rw [hs] at h1; exact h1
    · rename_i s' hs; rw [hs] at h1; exact h1

theorem mem_placedList {h : Heap V} {pl : Int → Option VarPlacement} {fs : List (Factor F V)}
    {it : Nat × FacPlacement F V} (hm : it ∈ placedList h pl fs 0 0) :
    ∃ f, fs[it.1]? = some f ∧ it.2.factor = f ∧ it.2.residualIndex = rowStart fs it.1 ∧
      it.2.residualDim = f.residualSize := by
  obtain ⟨k, hk⟩ := List.mem_iff_getElem?.mp hm
  rw [getElem?_placedList, Option.map_eq_some_iff] at hk
  obtain ⟨f, hf, rfl⟩ := hk
  exact ⟨f, by simpa using hf, rfl, by simp, rfl⟩

theorem placedList_keys (h : Heap V) (pl : Int → Option VarPlacement) (fs : List (Factor F V)) :
    ((placedList h pl fs 0 0).map (·.1)).Nodup := by
  have : (placedList h pl fs 0 0).map (·.1) = List.range fs.length := by
    apply List.ext_getElem?
    intro i
    rw [List.getElem?_map, getElem?_placedList]
    by_cases hi : i < fs.length
    · simp [hi]
    · simp [hi]
  rw [this]; exact List.nodup_range

theorem getElem?_splice {α : Type} {buf seg : List α} {o : Nat} (hlen : o + seg.length ≤ buf.length) (a : Nat) :
    (buf.take o ++ seg ++ buf.drop (o + seg.length))[a]? =
      if o ≤ a ∧ a < o + seg.length then seg[a - o]? else buf[a]? := by
  have ho : (buf.take o).length = o := by simp; omega
  by_cases h1 : a < o
  · rw [List.append_assoc, List.getElem?_append_left (by omega)]
    have : ¬ (o ≤ a ∧ a < o + seg.length) := by omega
    simp [h1, this, List.getElem?_take]
  · by_cases h2 : a < o + seg.length
    · rw [List.append_assoc, List.getElem?_append_right (by omega), ho, List.getElem?_append_left (by omega)]
      simp [show o ≤ a by omega, h2]
    · rw [List.getElem?_append_right (by simp [ho]; omega)]
      have : ¬ (o ≤ a ∧ a < o + seg.length) := by omega
      simp only [this, if_false, List.getElem?_drop, List.length_append, ho]
      congr 1; omega

/-- The residual loop over any arrangement of the placed factors writes every factor's segment. -/
theorem residualLoop_spec {h : Heap V} {pl : Int → Option VarPlacement} {fs : List (Factor F V)}
    (l : List (Nat × FacPlacement F V)) (hl : l.Perm (placedList h pl fs 0 0))
    (seg : Nat → List F)
    (hseg : ∀ (k : Nat) f, fs[k]? = some f → f.computeResidual h = .ok (seg k) ∧ (seg k).length = f.residualSize)
    (buf : List F) (hbuf : buf.length = rowTotal fs) :
    ∃ buf', SE.forEach l (residualOne h) buf = (buf', .ok ()) ∧ buf'.length = rowTotal fs ∧
      ∀ (k : Nat) f, fs[k]? = some f → ∀ i, i < f.residualSize → buf'[rowStart fs k + i]? = (seg k)[i]? := by
  have hkeys : (l.map (·.1)).Nodup := (hl.map (·.1)).nodup_iff.mpr (placedList_keys h pl fs)
  obtain ⟨buf', h1, h2, h3⟩ := SE.forEach_inv (body := residualOne h)
    (fun pre b => b.length = rowTotal fs ∧ ∀ it ∈ pre, ∀ f, fs[it.1]? = some f → ∀ i, i < f.residualSize →
      b[rowStart fs it.1 + i]? = (seg it.1)[i]?) l buf ⟨hbuf, by simp⟩ (by
      intro pre it post b hlsplit ⟨hb1, hb2⟩
      have hm : it ∈ l := by rw [hlsplit]; simp
      obtain ⟨f, hf, hfac, hri, hrd⟩ := mem_placedList (hl.mem_iff.mp hm)
      obtain ⟨hs1, hs2⟩ := hseg it.1 f hf
      have hend := row_end_le hf
      have hlen : it.2.residualIndex + it.2.residualDim ≤ b.length := by rw [hri, hrd, hb1]; exact hend
      refine ⟨b.take it.2.residualIndex ++ seg it.1 ++ b.drop (it.2.residualIndex + it.2.residualDim), ?_, ?_, ?_⟩
      · unfold residualOne
        simp only [hfac, hs1]
        rw [if_neg (by omega), if_pos (by rw [hs2, hrd])]
      · simp [hs2, hrd, hri, hb1]; omega
      · rw [hrd, ← hs2]
        intro it' hit' f' hf' i hi
        rw [getElem?_splice (by rw [hs2, ← hrd]; exact hlen)]
        rcases List.mem_append.mp hit' with hit' | hit'
        · have hne : it'.1 ≠ it.1 := by
            intro e
            rw [hlsplit, List.map_append, List.nodup_append] at hkeys
            exact hkeys.2.2 it'.1 (List.mem_map.mpr ⟨it', hit', rfl⟩) it.1 (by simp) e
          have : ¬ (it.2.residualIndex ≤ rowStart fs it'.1 + i ∧
              rowStart fs it'.1 + i < it.2.residualIndex + (seg it.1).length) := by
            intro hc
            rw [hri, hs2] at hc
            exact hne (row_unique hf' hf (by omega) hc)
          rw [if_neg this]
          exact hb2 it' hit' f' hf' i hi
        · simp at hit'
          subst hit'
          obtain rfl : f = f' := by simpa [hf] using hf'
          rw [hri, if_pos (by rw [hs2]; omega)]
          congr 1; omega)
  refine ⟨buf', h1, h2, ?_⟩
  intro k f hf i hi
  have hm : (k, (⟨f, rowStart fs k, f.residualSize, (colsOf h pl f.variables).map (·.1),
      (colsOf h pl f.variables).map (·.2)⟩ : FacPlacement F V)) ∈ l := by
    rw [hl.mem_iff, List.mem_iff_getElem?]
    exact ⟨k, by simp [getElem?_placedList, hf]⟩
  exact h3 _ hm f hf i hi

/-- Pointwise description of the concatenation of the factors' residuals. -/
theorem getElem?_flatten_seg (fs : List (Factor F V)) (segs : List (List F)) (hlen : segs.length = fs.length)
    (hseg : ∀ (k : Nat) f, fs[k]? = some f → ∃ s, segs[k]? = some s ∧ s.length = f.residualSize)
    {k : Nat} {f : Factor F V} (hf : fs[k]? = some f) {s : List F} (hs : segs[k]? = some s)
    {i : Nat} (hi : i < f.residualSize) : segs.flatten[rowStart fs k + i]? = s[i]? := by
  induction fs generalizing segs k with
  | nil => simp at hf
  | cons f0 fs ih =>
    cases segs with
    | nil => simp at hlen
    | cons s0 segs =>
      obtain ⟨s0', h0, h0l⟩ := hseg 0 f0 rfl
      simp at h0; subst h0
      cases k with
      | zero =>
        simp at hf hs; subst hf hs
        simp [rowStart, List.getElem?_append_left (show i < s0.length by omega)]
      | succ k =>
        simp at hf hs
        have := ih segs (by simpa using hlen) (fun k f hk => by simpa using hseg (k+1) f (by simpa using hk)) hf hs
        simp only [rowStart, List.take_succ_cons, rowTotal_cons, List.flatten_cons] at this ⊢
        rw [List.getElem?_append_right (by omega), ← this]
        congr 1; omega

theorem length_flatten_seg (fs : List (Factor F V)) (segs : List (List F)) (hlen : segs.length = fs.length)
    (hseg : ∀ (k : Nat) f, fs[k]? = some f → ∃ s, segs[k]? = some s ∧ s.length = f.residualSize) :
    segs.flatten.length = rowTotal fs := by
  induction fs generalizing segs with
  | nil =>
    cases segs with
    | nil => rfl
    | cons a b => simp at hlen
  | cons f0 fs ih =>
    cases segs with
    | nil => simp at hlen
    | cons s0 segs =>
      obtain ⟨s0', h0, h0l⟩ := hseg 0 f0 rfl
      simp at h0; subst h0
      have := ih segs (by simpa using hlen) (fun k f hk => by simpa using hseg (k+1) f (by simpa using hk))
      simp [this, h0l]

/-- The residual loop produces the concatenation of the factors' residuals in insertion order. -/
theorem residualLoop_flatten {h : Heap V} {pl : Int → Option VarPlacement} {fs : List (Factor F V)}
    (l : List (Nat × FacPlacement F V)) (hl : l.Perm (placedList h pl fs 0 0))
    (segs : List (List F)) (hlen : segs.length = fs.length)
    (hseg : ∀ (k : Nat) f, fs[k]? = some f → ∃ s, segs[k]? = some s ∧ f.computeResidual h = .ok s ∧
      s.length = f.residualSize)
    (buf : List F) (hbuf : buf.length = rowTotal fs) :
    SE.forEach l (residualOne h) buf = (segs.flatten, .ok ()) := by
  obtain ⟨buf', h1, h2, h3⟩ := residualLoop_spec l hl (fun k => (segs[k]?).getD []) (by
    intro k f hf
    obtain ⟨s, e1, e2, e3⟩ := hseg k f hf
    simp [e1, e2, e3]) buf hbuf
  have hseg' : ∀ (k : Nat) f, fs[k]? = some f → ∃ s, segs[k]? = some s ∧ s.length = f.residualSize :=
    fun k f hf => by obtain ⟨s, e1, _, e3⟩ := hseg k f hf; exact ⟨s, e1, e3⟩
  have : buf' = segs.flatten := by
    apply List.ext_getElem?
    intro a
    by_cases ha : a < rowTotal fs
    · obtain ⟨k, f, i, hf, hi, rfl⟩ := row_decomp fs a ha
      obtain ⟨s, e1, _, e3⟩ := hseg k f hf
      rw [h3 k f hf i hi, getElem?_flatten_seg fs segs hlen hseg' hf e1 hi, e1]
      rfl
    · rw [List.getElem?_eq_none (by omega), List.getElem?_eq_none
        (by rw [length_flatten_seg fs segs hlen hseg']; omega)]
  rw [h1, this]

end Graph
end Factorama
