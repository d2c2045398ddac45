import Verif.Lemmas.OptSystem

/-!
# Small facts about steps and iterations
-/

namespace Factorama
open Spec Graph Opt
variable {F V Fact : Type} [Zero F] [VarLike F V]

theorem colStart_le (h : Heap V) {vars : List VRef} {r : VRef} (hr : r ∈ vars) :
    colStart h vars r + freeSize (h r) ≤ freeTotal h vars := by
  induction vars with
  | nil => simp at hr
  | cons x vars ih =>
    by_cases hx : x = r
    · subst hx
      simp [colStart, freeTotal]
    · have hr' : r ∈ vars := by
        rcases List.mem_cons.1 hr with e | e
        · exact absurd e.symm hx
        · exact e
      have := ih hr'
      simp only [colStart, freeTotal, List.takeWhile_cons, bne_iff_ne, ne_eq, hx, not_false_eq_true, ↓reduceIte,
        List.map_cons, List.sum_cons] at this ⊢
      omega

/-- The parts of a vector of zeros are zeros. -/
theorem partOf_zeros (h : Heap V) {vars : List VRef} {r : VRef} (hr : r ∈ vars) (hc : VarLike.isConst (h r) = false) :
    partOf h vars (List.replicate (freeTotal h vars) (0 : F)) r = List.replicate (VarLike.size (h r)) 0 := by
  have := colStart_le h hr
  simp only [freeSize, hc, Bool.false_eq_true, ↓reduceIte] at this
  simp only [partOf, List.drop_replicate, List.take_replicate]
  congr 1
  omega

/-- The vector of all free values that consists of given increments. -/
def allFree (h : Heap V) (vars : List VRef) (d : VRef → List F) : List F :=
  vars.flatMap fun r => if VarLike.isConst (h r) then [] else d r

theorem allFree_length (h : Heap V) {vars : List VRef} {d : VRef → List F}
    (hd : ∀ r ∈ vars, VarLike.isConst (h r) = false → (d r).length = VarLike.size (h r)) :
    (allFree h vars d).length = freeTotal h vars := by
  induction vars with
  | nil => rfl
  | cons x vars ih =>
    have h1 := ih fun r hr => hd r (List.mem_cons_of_mem _ hr)
    have h2 := hd x List.mem_cons_self
    simp only [allFree, List.flatMap_cons, List.length_append, freeTotal, List.map_cons, List.sum_cons, freeSize] at h1 ⊢
    rw [h1]
    cases hc : VarLike.isConst (h x)
    · simp [h2 hc]
    · simp

/-- The parts of this vector are the given increments. -/
theorem partOf_allFree (h : Heap V) {vars : List VRef} {d : VRef → List F}
    (hd : ∀ r ∈ vars, VarLike.isConst (h r) = false → (d r).length = VarLike.size (h r)) {r : VRef} (hr : r ∈ vars)
    (hc : VarLike.isConst (h r) = false) : partOf h vars (allFree h vars d) r = d r := by
  induction vars with
  | nil => cases hr
  | cons x vars ih =>
    by_cases hx : x = r
    · subst hx
      simp [partOf, colStart, freeTotal, allFree, hc, ← hd x hr hc]
    · have hr' : r ∈ vars := by
        rcases List.mem_cons.1 hr with e | e
        · exact absurd e.symm hx
        · exact e
      have := ih (fun r hr => hd r (List.mem_cons_of_mem _ hr)) hr'
      rw [← this]
      simp only [partOf, colStart, freeTotal, List.takeWhile_cons, bne_iff_ne, ne_eq, hx, not_false_eq_true, ↓reduceIte,
        List.map_cons, List.sum_cons, allFree, List.flatMap_cons, freeSize]
      cases hcx : VarLike.isConst (h x)
      · rw [← hd x List.mem_cons_self hcx]
        simp [← List.drop_drop]
      · simp

/-- A zero step changes nothing if zero increments do not. -/
theorem Stepped.zeros {h h' : Heap V} {vars : List VRef} (hs : Stepped h h' vars (List.replicate (freeTotal h vars) (0 : F)))
    (hz : ∀ r ∈ vars, VarLike.isConst (h r) = false →
      VarLike.applyIncr (h r) (List.replicate (VarLike.size (h r)) (0 : F)) = .ok (h r)) : h' = h := by
  funext r
  by_cases hr : r ∈ vars ∧ VarLike.isConst (h r) = false
  · have h1 := (hs r).1 hr
    rw [partOf_zeros h hr.1 hr.2, hz r hr.1 hr.2] at h1
    exact (Res.ok.inj h1).symm
  · exact (hs r).2 hr

theorem iterations_first {A : Arith F} {L : LinAlg F Fact} {env : Env F V} {k : Nat} {s s' : OptWorld F V Fact}
    (h : Iterations A L env (k + 1) s s') : ∃ s1, Iterations A L env 1 s s1 := by
  induction k generalizing s' with
  | zero => exact ⟨s', h⟩
  | succ k ih =>
    cases h with
    | succ h1 _ _ => exact ih h1

end Factorama
