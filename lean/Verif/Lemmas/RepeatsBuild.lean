import Verif.Lemmas.Repeats
import Verif.Lemmas.Rescaled

/-!
# Building lists of repeated factors
-/

namespace Factorama
open Spec

variable {V : Type}

theorem Spec.Rescaled.one (f : Factor ℝ V) : Rescaled 1 f f := by
  refine ⟨rfl, rfl, fun h => ?_, fun h => ?_⟩
  · cases f.computeResidual h <;> simp [Res.map]
  · have : scaledMat 1 = id := by
      funext M
      simp [scaledMat]
    rw [this]
    cases f.computeJacobians h [] <;> simp [Res.map]

theorem sum_fin_cast {m n : Nat} (h : m = n) (g : Fin n → ℝ) : ∑ i : Fin n, g i = ∑ i : Fin m, g (Fin.cast h i) := by
  subst h; rfl

theorem Spec.Repeats.append {a b a' b' : List (Factor ℝ V)} (h1 : Repeats a a') (h2 : Repeats b b') :
    Repeats (a ++ b) (a' ++ b') := by
  obtain ⟨of1, c1, r1, s1⟩ := h1
  obtain ⟨of2, c2, r2, s2⟩ := h2
  have e : a'.length + b'.length = (a' ++ b').length := by simp
  have e' : a.length + b.length = (a ++ b).length := by simp
  refine ⟨fun k => Fin.cast e' (Fin.addCases (fun i => Fin.castAdd _ (of1 i)) (fun i => Fin.natAdd _ (of2 i)) (Fin.cast e.symm k)),
    fun k => Fin.addCases c1 c2 (Fin.cast e.symm k), fun k => ?_, fun k => ?_⟩
  · obtain ⟨k, rfl⟩ : ∃ i, k = Fin.cast e i := ⟨Fin.cast e.symm k, rfl⟩
    induction k using Fin.addCases with
    | left i => simpa using r1 i
    | right i => simpa using r2 i
  · rw [Finset.sum_filter, sum_fin_cast e, Fin.sum_univ_add]
    obtain ⟨k, rfl⟩ : ∃ i, k = Fin.cast e' i := ⟨Fin.cast e'.symm k, rfl⟩
    induction k using Fin.addCases with
    | left i =>
      have h3 : ∀ j, a.length + (of2 j : Nat) ≠ i := fun j => by omega
      have := s1 i
      rw [Finset.sum_filter] at this
      simpa [h3, Fin.ext_iff] using this
    | right i =>
      have := s2 i
      rw [Finset.sum_filter] at this
      have h3 : ∀ j, (of1 j : Nat) ≠ a.length + i := fun j => by omega
      simpa [h3, Fin.ext_iff] using this

theorem Spec.Repeats.nil : Repeats ([] : List (Factor ℝ V)) [] := ⟨fun k => k, fun _ => 1, fun k => k.elim0, fun k => k.elim0⟩

/-- One factor in place of which there are several. -/
theorem Spec.Repeats.single {f : Factor ℝ V} {fs : List (Factor ℝ V)} {cs : List ℝ}
    (h : List.Forall₂ (fun c f' => Rescaled c f f') cs fs) (hs : (cs.map (· ^ 2)).sum = 1) : Repeats [f] fs := by
  have hl := h.length_eq
  refine ⟨fun _ => ⟨0, by simp⟩, fun k => cs.get (Fin.cast hl.symm k), fun k => ?_, fun k => ?_⟩
  · exact (List.forall₂_iff_get.1 h).2 k (by rw [hl]; exact k.2) k.2
  · have : ∀ k' : Fin [f].length, k' = ⟨0, by simp⟩ := fun k' => Fin.ext (by have := k'.2; simp at this; simp)
    rw [this k]
    simp only [Finset.filter_true]
    rw [sum_fin_cast hl, ← hs, ← List.sum_ofFn]
    congr 1
    apply List.ext_getElem <;> simp

theorem Spec.Repeats.refl (l : List (Factor ℝ V)) : Repeats l l := by
  induction l with
  | nil => exact .nil
  | cons f l ih => exact .append (.single (f := f) (fs := [f]) (cs := [1]) (.cons (.one f) .nil) (by simp)) ih

/-- In place of one factor of a list there are several. -/
theorem Spec.Repeats.split (l1 l2 : List (Factor ℝ V)) {f : Factor ℝ V} {fs : List (Factor ℝ V)} {cs : List ℝ}
    (h : List.Forall₂ (fun c f' => Rescaled c f f') cs fs) (hs : (cs.map (· ^ 2)).sum = 1) :
    Repeats (l1 ++ [f] ++ l2) (l1 ++ fs ++ l2) := ((Repeats.refl l1).append (.single h hs)).append (.refl l2)

end Factorama
