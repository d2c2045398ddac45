import Verif.Lemmas.LogExp
import Mathlib.Analysis.Calculus.FDeriv.Prod
import Mathlib.Analysis.Calculus.FDeriv.Mul
import Mathlib.Analysis.Calculus.Deriv.Comp
import Mathlib.Analysis.Calculus.Deriv.Inv
import Mathlib.Analysis.SpecialFunctions.Trigonometric.InverseDeriv
import Mathlib.Analysis.SpecialFunctions.Sqrt
import Mathlib.Topology.Algebra.Module.FiniteDimension

/-!
# Derivatives of functions between coordinate spaces
-/

namespace Factorama.Geo
open Matrix Spec Topology Filter

@[simp] theorem jac_apply {m n : Nat} (A : Matrix (Fin m) (Fin n) ℝ) (v : Fin n → ℝ) : jac A v = A *ᵥ v := rfl

variable {E : Type*} [NormedAddCommGroup E] [NormedSpace ℝ E]

/-- The matrix-valued function `M` has the derivative `M'` at `x`, entry by entry. -/
def HasMatDeriv {m n : Nat} (M : E → Matrix (Fin m) (Fin n) ℝ) (M' : E → Matrix (Fin m) (Fin n) ℝ) (x : E) : Prop :=
  ∀ i j, ∃ L : E →L[ℝ] ℝ, (∀ u, L u = M' u i j) ∧ HasFDerivAt (fun y => M y i j) L x

/-- The function `f` has the derivative `f'` at `x`, coordinate by coordinate. -/
def HasVecDeriv {m : Nat} (f : E → Fin m → ℝ) (f' : E → Fin m → ℝ) (x : E) : Prop :=
  ∀ i, ∃ L : E →L[ℝ] ℝ, (∀ u, L u = f' u i) ∧ HasFDerivAt (fun y => f y i) L x

/-- The real function `f` has the derivative `f'` at `x`. -/
def HasScalDeriv (f : E → ℝ) (f' : E → ℝ) (x : E) : Prop :=
  ∃ L : E →L[ℝ] ℝ, (∀ u, L u = f' u) ∧ HasFDerivAt f L x

theorem HasScalDeriv.congr {f f' g' : E → ℝ} {x : E} (h : HasScalDeriv f f' x) (he : ∀ u, f' u = g' u) :
    HasScalDeriv f g' x := by
  obtain ⟨L, h1, h2⟩ := h
  exact ⟨L, fun u => (h1 u).trans (he u), h2⟩

theorem HasScalDeriv.const (c : ℝ) (x : E) : HasScalDeriv (fun _ => c) (fun _ => 0) x :=
  ⟨0, fun _ => rfl, hasFDerivAt_const c x⟩

theorem HasScalDeriv.add {f g f' g' : E → ℝ} {x : E} (hf : HasScalDeriv f f' x) (hg : HasScalDeriv g g' x) :
    HasScalDeriv (fun y => f y + g y) (fun u => f' u + g' u) x := by
  obtain ⟨L, h1, h2⟩ := hf
  obtain ⟨K, h3, h4⟩ := hg
  exact ⟨L + K, fun u => by simp [h1, h3], h2.add h4⟩

theorem HasScalDeriv.sub {f g f' g' : E → ℝ} {x : E} (hf : HasScalDeriv f f' x) (hg : HasScalDeriv g g' x) :
    HasScalDeriv (fun y => f y - g y) (fun u => f' u - g' u) x := by
  obtain ⟨L, h1, h2⟩ := hf
  obtain ⟨K, h3, h4⟩ := hg
  exact ⟨L - K, fun u => by simp [h1, h3], h2.sub h4⟩

theorem HasScalDeriv.neg {f f' : E → ℝ} {x : E} (hf : HasScalDeriv f f' x) :
    HasScalDeriv (fun y => -f y) (fun u => -f' u) x := by
  obtain ⟨L, h1, h2⟩ := hf
  exact ⟨-L, fun u => by simp [h1], h2.neg⟩

theorem HasScalDeriv.mul {f g f' g' : E → ℝ} {x : E} (hf : HasScalDeriv f f' x) (hg : HasScalDeriv g g' x) :
    HasScalDeriv (fun y => f y * g y) (fun u => f' u * g x + f x * g' u) x := by
  obtain ⟨L, h1, h2⟩ := hf
  obtain ⟨K, h3, h4⟩ := hg
  refine ⟨f x • K + g x • L, fun u => ?_, h2.mul h4⟩
  simp [h1, h3]; ring

theorem HasScalDeriv.sum {ι : Type*} (s : Finset ι) {f f' : ι → E → ℝ} {x : E}
    (h : ∀ i ∈ s, HasScalDeriv (f i) (f' i) x) : HasScalDeriv (fun y => ∑ i ∈ s, f i y) (fun u => ∑ i ∈ s, f' i u) x := by
  classical
  induction s using Finset.induction_on with
  | empty => simpa using HasScalDeriv.const 0 x
  | insert a s ha ih =>
    simp only [Finset.sum_insert ha]
    exact (h a (Finset.mem_insert_self a s)).add (ih fun i hi => h i (Finset.mem_insert_of_mem hi))

/-- Chain rule with a real function of one variable. -/
theorem HasScalDeriv.comp {f f' : E → ℝ} {x : E} {φ : ℝ → ℝ} {d : ℝ} (hφ : HasDerivAt φ d (f x))
    (hf : HasScalDeriv f f' x) : HasScalDeriv (fun y => φ (f y)) (fun u => d * f' u) x := by
  obtain ⟨L, h1, h2⟩ := hf
  refine ⟨d • L, fun u => by simp [h1], ?_⟩
  exact hφ.comp_hasFDerivAt x h2

theorem HasScalDeriv.congr_of_eventuallyEq {f g f' : E → ℝ} {x : E} (h : HasScalDeriv f f' x) (he : g =ᶠ[𝓝 x] f) :
    HasScalDeriv g f' x := by
  obtain ⟨L, h1, h2⟩ := h
  exact ⟨L, h1, h2.congr_of_eventuallyEq he⟩

theorem HasScalDeriv.continuousAt {f f' : E → ℝ} {x : E} (h : HasScalDeriv f f' x) : ContinuousAt f x := by
  obtain ⟨_, _, h2⟩ := h
  exact h2.continuousAt

theorem HasVecDeriv.congr {m : Nat} {f f' g' : E → Fin m → ℝ} {x : E} (h : HasVecDeriv f f' x) (he : ∀ u, f' u = g' u) :
    HasVecDeriv f g' x := fun i => HasScalDeriv.congr (h i) fun u => congrFun (he u) i

theorem HasVecDeriv.congr_of_eventuallyEq {m : Nat} {f g f' : E → Fin m → ℝ} {x : E} (h : HasVecDeriv f f' x)
    (he : g =ᶠ[𝓝 x] f) : HasVecDeriv g f' x :=
  fun i => HasScalDeriv.congr_of_eventuallyEq (h i) (he.mono fun _ hy => congrFun hy i)

theorem HasMatDeriv.congr {m n : Nat} {f f' g' : E → Matrix (Fin m) (Fin n) ℝ} {x : E} (h : HasMatDeriv f f' x)
    (he : ∀ u, f' u = g' u) : HasMatDeriv f g' x :=
  fun i j => HasScalDeriv.congr (h i j) fun u => congrFun (congrFun (he u) i) j

theorem HasMatDeriv.congr_of_eventuallyEq {m n : Nat} {f g f' : E → Matrix (Fin m) (Fin n) ℝ} {x : E}
    (h : HasMatDeriv f f' x) (he : g =ᶠ[𝓝 x] f) : HasMatDeriv g f' x :=
  fun i j => HasScalDeriv.congr_of_eventuallyEq (h i j) (he.mono fun _ hy => congrFun (congrFun hy i) j)

theorem HasVecDeriv.const {m : Nat} (c : Fin m → ℝ) (x : E) : HasVecDeriv (fun _ => c) (fun _ => 0) x :=
  fun i => HasScalDeriv.const (c i) x

theorem HasVecDeriv.add {m : Nat} {f g f' g' : E → Fin m → ℝ} {x : E} (hf : HasVecDeriv f f' x)
    (hg : HasVecDeriv g g' x) : HasVecDeriv (fun y => f y + g y) (fun u => f' u + g' u) x :=
  fun i => HasScalDeriv.add (hf i) (hg i)

theorem HasVecDeriv.sub {m : Nat} {f g f' g' : E → Fin m → ℝ} {x : E} (hf : HasVecDeriv f f' x)
    (hg : HasVecDeriv g g' x) : HasVecDeriv (fun y => f y - g y) (fun u => f' u - g' u) x :=
  fun i => HasScalDeriv.sub (hf i) (hg i)

theorem HasVecDeriv.neg {m : Nat} {f f' : E → Fin m → ℝ} {x : E} (hf : HasVecDeriv f f' x) :
    HasVecDeriv (fun y => -f y) (fun u => -f' u) x :=
  fun i => HasScalDeriv.neg (hf i)

theorem HasVecDeriv.smul {m : Nat} {c c' : E → ℝ} {f f' : E → Fin m → ℝ} {x : E} (hc : HasScalDeriv c c' x)
    (hf : HasVecDeriv f f' x) : HasVecDeriv (fun y => c y • f y) (fun u => c' u • f x + c x • f' u) x :=
  fun i => HasScalDeriv.mul hc (hf i)

theorem HasVecDeriv.dot {m : Nat} {f g f' g' : E → Fin m → ℝ} {x : E} (hf : HasVecDeriv f f' x)
    (hg : HasVecDeriv g g' x) : HasScalDeriv (fun y => f y ⬝ᵥ g y) (fun u => f' u ⬝ᵥ g x + f x ⬝ᵥ g' u) x := by
  refine HasScalDeriv.congr (HasScalDeriv.sum Finset.univ fun i _ => HasScalDeriv.mul (hf i) (hg i)) fun u => ?_
  simp only [dotProduct, Finset.sum_add_distrib]

theorem HasMatDeriv.const {m n : Nat} (c : Matrix (Fin m) (Fin n) ℝ) (x : E) :
    HasMatDeriv (fun _ => c) (fun _ => 0) x :=
  fun i j => HasScalDeriv.const (c i j) x

theorem HasMatDeriv.transpose {m n : Nat} {M M' : E → Matrix (Fin m) (Fin n) ℝ} {x : E} (h : HasMatDeriv M M' x) :
    HasMatDeriv (fun y => (M y)ᵀ) (fun u => (M' u)ᵀ) x := fun i j => h j i

theorem HasMatDeriv.mul {l m n : Nat} {M M' : E → Matrix (Fin l) (Fin m) ℝ} {N N' : E → Matrix (Fin m) (Fin n) ℝ} {x : E}
    (hM : HasMatDeriv M M' x) (hN : HasMatDeriv N N' x) :
    HasMatDeriv (fun y => M y * N y) (fun u => M' u * N x + M x * N' u) x := by
  intro i j
  refine HasScalDeriv.congr (HasScalDeriv.sum Finset.univ fun k _ => HasScalDeriv.mul (hM i k) (hN k j)) fun u => ?_
  simp only [Matrix.add_apply, Matrix.mul_apply, Finset.sum_add_distrib]

theorem HasMatDeriv.mulVec {m n : Nat} {M M' : E → Matrix (Fin m) (Fin n) ℝ} {f f' : E → Fin n → ℝ} {x : E}
    (hM : HasMatDeriv M M' x) (hf : HasVecDeriv f f' x) :
    HasVecDeriv (fun y => M y *ᵥ f y) (fun u => M' u *ᵥ f x + M x *ᵥ f' u) x := by
  intro i
  refine HasScalDeriv.congr (HasScalDeriv.sum Finset.univ fun k _ => HasScalDeriv.mul (hM i k) (hf k)) fun u => ?_
  simp only [Pi.add_apply, Matrix.mulVec, dotProduct, Finset.sum_add_distrib]

/-- A linear function of the coordinates. -/
theorem HasScalDeriv.linear {n : Nat} (ℓ : (Fin n → ℝ) →ₗ[ℝ] ℝ) (x : Fin n → ℝ) : HasScalDeriv (fun y => ℓ y) (fun u => ℓ u) x :=
  ⟨LinearMap.toContinuousLinearMap ℓ, fun _ => rfl, (LinearMap.toContinuousLinearMap ℓ).hasFDerivAt⟩

theorem HasScalDeriv.coord {n : Nat} (i : Fin n) (x : Fin n → ℝ) : HasScalDeriv (fun y : Fin n → ℝ => y i) (fun u => u i) x :=
  HasScalDeriv.linear (LinearMap.proj i) x

theorem HasVecDeriv.id {n : Nat} (x : Fin n → ℝ) : HasVecDeriv (fun y : Fin n → ℝ => y) (fun u => u) x :=
  fun i => HasScalDeriv.coord i x

theorem HasMatDeriv.skew {f f' : E → V3} {x : E} (hf : HasVecDeriv f f' x) :
    HasMatDeriv (fun y => skew (f y)) (fun u => skew (f' u)) x := by
  intro i j
  fin_cases i <;> fin_cases j <;>
    first
    | exact HasScalDeriv.const 0 x
    | exact hf 0
    | exact hf 1
    | exact hf 2
    | exact HasScalDeriv.neg (hf 0)
    | exact HasScalDeriv.neg (hf 1)
    | exact HasScalDeriv.neg (hf 2)

/-- Back to Mathlib's notion: the derivative is the linear map of the matrix `A`. -/
theorem HasVecDeriv.hasFDerivAt {m n : Nat} {f : (Fin n → ℝ) → Fin m → ℝ} {A : Matrix (Fin m) (Fin n) ℝ} {x : Fin n → ℝ}
    (h : HasVecDeriv f (fun u => A *ᵥ u) x) : HasFDerivAt f (jac A) x := by
  rw [hasFDerivAt_pi']
  intro i
  obtain ⟨L, h1, h2⟩ := h i
  have : L = (ContinuousLinearMap.proj i).comp (jac A) := by
    ext u; simp [h1]
  rw [← this]; exact h2

theorem hasVecDeriv_iff {m n : Nat} {f : (Fin n → ℝ) → Fin m → ℝ} {A : Matrix (Fin m) (Fin n) ℝ} {x : Fin n → ℝ} :
    HasVecDeriv f (fun u => A *ᵥ u) x ↔ HasFDerivAt f (jac A) x := by
  refine ⟨HasVecDeriv.hasFDerivAt, fun h i => ?_⟩
  exact ⟨(ContinuousLinearMap.proj i).comp (jac A), fun u => by simp, hasFDerivAt_pi'.mp h i⟩

end Factorama.Geo
