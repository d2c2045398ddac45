import Verif.Lemmas.Ellipse
import Verif.Lemmas.OptSystem
import Verif.Props.DrawingLines
import Verif.Props.CovarianceValue
import Verif.Examples.MarkWorld
import Verif.Lemmas.Ldlt
import Mathlib.Analysis.Matrix.Spectrum
import Mathlib.Data.Fin.Tuple.Sort

/-!
# The ellipses of a drawing: C97
-/

namespace Factorama.Props
open Spec Matrix Geo Plot

/-- There is an `eigh` as assumed. -/
theorem exists_diagonalizes : ∃ E : Eigh, Diagonalizes E := by
  have key : ∀ (n : Nat) (C : Matrix (Fin n) (Fin n) ℝ), ∃ (l : Fin n → ℝ) (Q : Matrix (Fin n) (Fin n) ℝ),
      C.IsSymm → Qᵀ * Q = 1 ∧ C = Q * diagonal l * Qᵀ ∧ Monotone l := by
    intro n C
    by_cases hs : C.IsSymm
    · have hh : C.IsHermitian := by rwa [IsHermitian, conjTranspose_eq_transpose_of_trivial]
      let U : Matrix (Fin n) (Fin n) ℝ := hh.eigenvectorUnitary
      let σ := Tuple.sort hh.eigenvalues
      have hU : Uᵀ * U = 1 := by
        have := hh.eigenvectorUnitary.2
        rw [mem_unitaryGroup_iff'] at this
        rwa [star_eq_conjTranspose, conjTranspose_eq_transpose_of_trivial] at this
      have hC : C = U * diagonal hh.eigenvalues * Uᵀ := by
        have := hh.spectral_theorem
        simpa [Unitary.conjStarAlgAut_apply, star_eq_conjTranspose, conjTranspose_eq_transpose_of_trivial, Function.comp_def] using this
      refine ⟨hh.eigenvalues ∘ σ, U.submatrix id σ, fun _ => ⟨?_, ?_, Tuple.monotone_sort _⟩⟩
      · rw [transpose_submatrix, ← submatrix_mul _ _ _ id _ Function.bijective_id, hU]
        exact submatrix_one_equiv σ
      · have hd : diagonal (hh.eigenvalues ∘ σ) = (diagonal hh.eigenvalues).submatrix σ σ :=
          (submatrix_diagonal_equiv _ σ).symm
        rw [transpose_submatrix, hd, submatrix_mul_equiv _ _ _ σ _, submatrix_mul_equiv _ _ _ σ _, ← hC]
        rfl
    · exact ⟨0, 0, fun h => absurd h hs⟩
  choose l Q h using key
  exact ⟨⟨fun C => l _ C, fun C => Q _ C⟩, ⟨fun C hs => (h _ C hs).1, fun C hs => (h _ C hs).2.1, fun C hs => (h _ C hs).2.2⟩⟩

/-- **C97** In a 2D drawing with covariances every variable that is shown and has a covariance has an ellipse around it; its
outline are the points that are one standard deviation away. -/
theorem C97_ellipse_partial {E : Eigh} (hE : Diagonalizes E) {o : Options} {h : Heap RVar} {vars : List VRef}
    {facs : List PyFactor} {covs : Covs} {items : List Item} (hd : draw E o h vars facs covs = .ok items)
    (ho : o.covariance = true) (h2 : o.threeD = false) {r : VRef} (hr : r ∈ vars) {m : Mark} {p : V3}
    (hs : shownAs (h r) = some (m, p)) {P : Mat ℝ} (hc : covs (VarLike.id (h r)) = some P) (hrows : 2 ≤ P.rows)
    (hsym : (square 2 P).IsSymm) (hpos : (square 2 P).PosDef) :
    ∃ width height angle, Item.ellipse ![p 0, p 1] width height angle ∈ items ∧
      ∀ x, Outline ![p 0, p 1] width height angle x ↔ sigmas (square 2 P) ![p 0, p 1] x = 1 := by
  refine ⟨_, _, _, ?_, ellipse_outline hE hsym hpos _⟩
  obtain ⟨g, ms, hg, _, rfl⟩ := draw_parts hd
  obtain ⟨k1, k2, k3, k4⟩ := gather_pose hg hr
  rw [if_neg (by simp [h2])]
  simp only [List.mem_append]
  refine .inl (.inl (.inl ?_))
  unfold drawVariables2
  rw [if_pos ho, if_pos ho, if_pos ho, if_pos ho]
  simp only [List.mem_append]
  have hreg : ∀ c : V2, Item.ellipse c (2 * √(E.values (square 2 P) 1)) (2 * √(E.values (square 2 P) 0))
      (atan2 (E.vectors (square 2 P) 1 1) (E.vectors (square 2 P) 0 1)) ∈ region2 E h covs r c := by
    intro c
    unfold region2 region
    rw [hc]
    dsimp only
    rw [if_pos hrows]
    exact List.mem_singleton.mpr rfl
  cases e : h r with
  | pose v =>
    rw [e] at hs
    simp only [shownAs, Option.some.injEq, Prod.mk.injEq] at hs
    obtain ⟨rfl, rfl⟩ := hs
    exact .inl (.inl (.inl (.inl (.inl (.inl (.inl (.inr (List.mem_flatMap.mpr ⟨_, k1 v e, hreg _⟩))))))))
  | landmark v =>
    rw [e] at hs
    simp only [shownAs, Option.some.injEq, Prod.mk.injEq] at hs
    obtain ⟨rfl, rfl⟩ := hs
    exact .inl (.inl (.inl (.inl (.inl (.inr (List.mem_flatMap.mpr ⟨_, k3 v e, hreg _⟩))))))
  | pose2d v =>
    rw [e] at hs
    simp only [shownAs, Option.some.injEq, Prod.mk.injEq] at hs
    obtain ⟨rfl, rfl⟩ := hs
    refine .inl (.inl (.inr (List.mem_flatMap.mpr ⟨_, k2 v e, ?_⟩)))
    have : (![(![v.pos 0, v.pos 1, 0] : V3) 0, (![v.pos 0, v.pos 1, 0] : V3) 1] : V2) = v.pos := by
      funext i; fin_cases i <;> rfl
    rw [this]
    exact hreg _
  | generic v =>
    rw [e] at hs
    simp only [shownAs] at hs
    split at hs
    · rename_i hl
      simp only [Option.some.injEq, Prod.mk.injEq] at hs
      obtain ⟨rfl, rfl⟩ := hs
      exact .inr (List.mem_flatMap.mpr ⟨_, k4 v e hl, hreg _⟩)
    · simp at hs
  | rotation v => rw [e] at hs; simp [shownAs] at hs
  | invRange v => rw [e] at hs; simp [shownAs] at hs
  | plane v => rw [e] at hs; simp [shownAs] at hs

/-- **C97** In a 3D drawing with covariances every pose and every landmark that has a covariance has a surface around it. Its
points are one standard deviation away, and every point that is one standard deviation away is within a fifth of a
standard deviation of one of them. -/
theorem C97_ellipsoid_partial {E : Eigh} (hE : Diagonalizes E) {o : Options} {h : Heap RVar} {vars : List VRef}
    {facs : List PyFactor} {covs : Covs} {items : List Item} (hd : draw E o h vars facs covs = .ok items)
    (ho : o.covariance = true) (h3 : o.threeD = true) {r : VRef} (hr : r ∈ vars) {m : Mark} {p : V3}
    (hs : shownAs (h r) = some (m, p)) (hm : m = .pose ∨ m = .landmark)
    {P : Mat ℝ} (hc : covs (VarLike.id (h r)) = some P) (hrows : 3 ≤ P.rows)
    (hsym : (square 3 P).IsSymm) (hpos : (square 3 P).PosDef) :
    ∃ mesh, Item.surface mesh ∈ items ∧ (∀ x ∈ mesh, sigmas (square 3 P) p x = 1) ∧
      ∀ y, sigmas (square 3 P) p y = 1 → ∃ x ∈ mesh, sigmas (square 3 P) y x ≤ (1 / 5) ^ 2 := by
  refine ⟨ellipsoidMesh E p (square 3 P), ?_, (mesh_spec hE hsym hpos p).1, ?_⟩
  swap
  · intro y hy
    obtain ⟨x, hx, hle⟩ := (mesh_spec hE hsym hpos p).2 y hy
    exact ⟨x, hx, hle.trans (by norm_num)⟩
  obtain ⟨g, ms, hg, _, rfl⟩ := draw_parts hd
  obtain ⟨k1, k2, k3, k4⟩ := gather_pose hg hr
  rw [if_pos h3]
  simp only [List.mem_append]
  refine .inl (.inl (.inl ?_))
  unfold drawVariables3
  rw [if_pos ho, if_pos ho]
  simp only [List.mem_append]
  have hreg : Item.surface (ellipsoidMesh E p (square 3 P)) ∈ region3 E h covs r p := by
    unfold region3 region
    rw [hc]
    dsimp only
    rw [if_pos hrows]
    exact List.mem_singleton.mpr rfl
  cases e : h r with
  | pose v =>
    rw [e] at hs
    simp only [shownAs, Option.some.injEq, Prod.mk.injEq] at hs
    obtain ⟨rfl, rfl⟩ := hs
    exact .inl (.inl (.inl (.inl (.inr (List.mem_flatMap.mpr ⟨_, k1 v e, hreg⟩)))))
  | landmark v =>
    rw [e] at hs
    simp only [shownAs, Option.some.injEq, Prod.mk.injEq] at hs
    obtain ⟨rfl, rfl⟩ := hs
    exact .inl (.inl (.inr (List.mem_flatMap.mpr ⟨_, k3 v e, hreg⟩)))
  | pose2d v => rw [e] at hs; simp [shownAs] at hs; rcases hm with rfl | rfl <;> simp at hs
  | generic v =>
    rw [e] at hs
    simp only [shownAs] at hs
    split at hs
    · simp at hs; rcases hm with rfl | rfl <;> simp at hs
    · simp at hs
  | rotation v => rw [e] at hs; simp [shownAs] at hs
  | invRange v => rw [e] at hs; simp [shownAs] at hs
  | plane v => rw [e] at hs; simp [shownAs] at hs

namespace C97
/-- A covariance with unequal variances and a correlation, of a planar pose. -/
def cov : Mat ℝ := ⟨3, 3, fun i j => if i = 0 ∧ j = 0 then 2 else if i = j then 1 else if i + j = 1 then 1 else 0⟩

theorem posDef2 {M : Matrix (Fin 2) (Fin 2) ℝ} (hs : M.IsSymm) (h : ∀ x : V2, x ≠ 0 → 0 < x ⬝ᵥ (M *ᵥ x)) : M.PosDef :=
  .of_dotProduct_mulVec_pos (by rwa [IsHermitian, conjTranspose_eq_transpose_of_trivial]) fun x hx => by
    rw [star_trivial]; exact h x hx

theorem cov_symm2 : (square 2 cov).IsSymm := by
  ext i j
  fin_cases i <;> fin_cases j <;> simp [square, cov]

theorem cov_pos2 : (square 2 cov).PosDef := by
  refine posDef2 cov_symm2 fun x hx => ?_
  have e : x ⬝ᵥ (square 2 cov *ᵥ x) = x 0 ^ 2 + (x 0 + x 1) ^ 2 := by
    simp [square, cov, dotProduct, mulVec, Fin.sum_univ_two]
    ring
  rw [e]
  by_contra hn
  have h0 : x 0 = 0 := by nlinarith [sq_nonneg (x 0), sq_nonneg (x 0 + x 1)]
  have h1 : x 1 = 0 := by rw [h0] at hn; nlinarith [sq_nonneg (x 1)]
  exact hx (by funext i; fin_cases i <;> simp [h0, h1])

/-- The same for three coordinates. -/
theorem cov_symm3 : (square 3 cov).IsSymm := by
  ext i j
  fin_cases i <;> fin_cases j <;> simp [square, cov]

theorem cov_pos3 : (square 3 cov).PosDef := by
  refine .of_dotProduct_mulVec_pos (by rw [IsHermitian, conjTranspose_eq_transpose_of_trivial]; exact cov_symm3) fun x hx => ?_
  have e : star x ⬝ᵥ (square 3 cov *ᵥ x) = x 0 ^ 2 + (x 0 + x 1) ^ 2 + x 2 ^ 2 := by
    simp [square, cov, dotProduct, mulVec, Fin.sum_univ_three]
    ring
  rw [e]
  by_contra hn
  have h0 : x 0 = 0 := by nlinarith [sq_nonneg (x 0), sq_nonneg (x 0 + x 1), sq_nonneg (x 2)]
  have h2 : x 2 = 0 := by nlinarith [sq_nonneg (x 0), sq_nonneg (x 0 + x 1), sq_nonneg (x 2)]
  have h1 : x 1 = 0 := by rw [h0] at hn; nlinarith [sq_nonneg (x 1), sq_nonneg (x 2)]
  exact hx (by funext i; fin_cases i <;> simp [h0, h1, h2])

def options (threeD : Bool) : Options := { threeD := threeD, covariance := true }

theorem drawn (E : Eigh) (threeD : Bool) : ∃ items, draw E (options threeD) C94.heap [0, 1, 2, 3, 4]
    [C94.bearing, C94.planar, C94.ranged] (fun _ => some cov) = .ok items :=
  C94_partial E _ C94.heap [0, 1, 2, 3, 4] [C94.bearing, C94.planar, C94.ranged] _ C94.sized C94.seen fun _ => C94.drawable
end C97

example : ∃ E items, Diagonalizes E ∧ draw E (C97.options false) C94.heap [0, 1, 2, 3, 4]
    [C94.bearing, C94.planar, C94.ranged] (fun _ => some C97.cov) = .ok items ∧
    ∃ width height angle, Item.ellipse ![1, 2] width height angle ∈ items ∧
      ∀ x, Outline ![1, 2] width height angle x ↔ sigmas (square 2 C97.cov) ![1, 2] x = 1 := by
  obtain ⟨E, hE⟩ := exists_diagonalizes
  obtain ⟨items, hi⟩ := C97.drawn E false
  exact ⟨E, items, hE, hi, C97_ellipse_partial hE hi rfl rfl (r := 2) (by simp) (m := .pose2d) (p := ![1, 2, 0])
    (by simp [C94.heap, shownAs]) rfl (by simp [C97.cov]) C97.cov_symm2 C97.cov_pos2⟩

example : ∃ E items, Diagonalizes E ∧ draw E (C97.options true) C94.heap [0, 1, 2, 3, 4]
    [C94.bearing, C94.planar, C94.ranged] (fun _ => some C97.cov) = .ok items ∧
    ∃ mesh, Item.surface mesh ∈ items ∧ ∀ x ∈ mesh, sigmas (square 3 C97.cov) 0 x = 1 := by
  obtain ⟨E, hE⟩ := exists_diagonalizes
  obtain ⟨items, hi⟩ := C97.drawn E true
  obtain ⟨mesh, h1, h2, _⟩ := C97_ellipsoid_partial hE hi rfl rfl (r := 0) (by simp) (m := .pose) (p := 0)
    (by simp [C94.heap, shownAs]) (.inl rfl) rfl (by simp [C97.cov]) C97.cov_symm3 C97.cov_pos3
  exact ⟨E, items, hE, hi, mesh, h1, h2⟩

/-- **C97** An ellipse is drawn only where asked for, around a variable that is shown and has a covariance, and its outline is
that of this covariance. -/
theorem C97_ellipse_only_partial {E : Eigh} (hE : Diagonalizes E) {o : Options} {h : Heap RVar} {vars : List VRef}
    {facs : List PyFactor} {covs : Covs} {items : List Item} (hd : draw E o h vars facs covs = .ok items)
    {c : V2} {width height angle : ℝ} (hi : Item.ellipse c width height angle ∈ items) :
    o.covariance = true ∧ o.threeD = false ∧ ∃ r ∈ vars, ∃ m p P, shownAs (h r) = some (m, p) ∧ c = ![p 0, p 1] ∧
      covs (VarLike.id (h r)) = some P ∧ ((square 2 P).IsSymm → (square 2 P).PosDef →
        ∀ x, Outline c width height angle x ↔ sigmas (square 2 P) c x = 1) := by
  obtain ⟨g, hg, hi | ⟨_, hi⟩⟩ := draw_rest hd hi (by simp)
  swap
  · unfold axisLimits at hi
    split at hi <;> simp at hi
  obtain ⟨k1, k2, k3, k4⟩ := gather_only hg
  by_cases h3 : o.threeD = true
  · rw [if_pos h3] at hi
    unfold drawVariables3 at hi
    simp only [List.mem_append, List.mem_map, List.mem_flatMap, poseArrows, List.mem_cons, List.not_mem_nil, reduceCtorEq,
      and_false, exists_false, or_false, false_or] at hi
    rcases hi with hi | hi <;> split at hi <;> first | simp at hi; done | skip
    all_goals
      obtain ⟨q, _, hq⟩ := List.mem_flatMap.mp hi
      obtain ⟨P, _, _, e⟩ := mem_region hq
      simp at e
  · rw [if_neg h3] at hi
    unfold drawVariables2 at hi
    simp only [List.mem_append, List.mem_map, reduceCtorEq, and_false, exists_false, or_false, false_or] at hi
    have hreg : ∀ (r : VRef) (c' : V2), Item.ellipse c width height angle ∈ region2 E h covs r c' → ∃ P,
        covs (VarLike.id (h r)) = some P ∧ c = c' ∧ ((square 2 P).IsSymm → (square 2 P).PosDef →
          ∀ x, Outline c width height angle x ↔ sigmas (square 2 P) c x = 1) := by
      intro r c' hr
      obtain ⟨P, hP, _, e⟩ := mem_region hr
      simp only [ellipse, Item.ellipse.injEq] at e
      obtain ⟨rfl, rfl, rfl, rfl⟩ := e
      exact ⟨P, hP, rfl, fun hs hp => ellipse_outline hE hs hp _⟩
    have hv : ∀ x : V2, x = ![lift x 0, lift x 1] := by intro x; funext i; fin_cases i <;> rfl
    rcases hi with ((hi | hi) | hi) | hi <;> split at hi <;> first | simp at hi; done | skip
    all_goals
      rename_i ho
      obtain ⟨q, hq, hr⟩ := List.mem_flatMap.mp hi
      obtain ⟨P, hP, hc, hout⟩ := hreg _ _ hr
      refine ⟨ho, by simpa using h3, q.1, ?_⟩
    · exact ⟨(k1 q hq).1, _, _, P, (k1 q hq).2, hc, hP, hout⟩
    · exact ⟨(k3 q hq).1, _, _, P, (k3 q hq).2, hc, hP, hout⟩
    · exact ⟨(k2 q hq).1, _, _, P, (k2 q hq).2, hc.trans (hv _), hP, hout⟩
    · exact ⟨(k4 q hq).1, _, _, P, (k4 q hq).2, hc.trans (hv _), hP, hout⟩

/-- **C97** A surface is drawn only where asked for, around a pose or landmark that has a covariance. -/
theorem C97_ellipsoid_only_partial {E : Eigh} (hE : Diagonalizes E) {o : Options} {h : Heap RVar} {vars : List VRef}
    {facs : List PyFactor} {covs : Covs} {items : List Item} (hd : draw E o h vars facs covs = .ok items)
    {mesh : List V3} (hi : Item.surface mesh ∈ items) :
    o.covariance = true ∧ o.threeD = true ∧ ∃ r ∈ vars, ∃ m p P, shownAs (h r) = some (m, p) ∧ (m = .pose ∨ m = .landmark) ∧
      covs (VarLike.id (h r)) = some P ∧ ((square 3 P).IsSymm → (square 3 P).PosDef →
        ∀ x ∈ mesh, sigmas (square 3 P) p x = 1) := by
  obtain ⟨g, hg, hi | ⟨_, hi⟩⟩ := draw_rest hd hi (by simp)
  swap
  · unfold axisLimits at hi
    split at hi <;> simp at hi
  obtain ⟨k1, k2, k3, k4⟩ := gather_only hg
  by_cases h3 : o.threeD = true
  · rw [if_pos h3] at hi
    unfold drawVariables3 at hi
    simp only [List.mem_append, List.mem_map, List.mem_flatMap, poseArrows, List.mem_cons, List.not_mem_nil, reduceCtorEq,
      and_false, exists_false, or_false, false_or] at hi
    rcases hi with hi | hi <;> split at hi <;> first | simp at hi; done | skip
    all_goals
      rename_i ho
      obtain ⟨q, hq, hr⟩ := List.mem_flatMap.mp hi
      obtain ⟨P, hP, _, e⟩ := mem_region hr
      simp only [Item.surface.injEq] at e
      subst e
      refine ⟨ho, h3, q.1, ?_⟩
    · exact ⟨(k1 q hq).1, _, _, P, (k1 q hq).2, .inl rfl, hP, fun hs hp => (mesh_spec hE hs hp _).1⟩
    · exact ⟨(k3 q hq).1, _, _, P, (k3 q hq).2, .inr rfl, hP, fun hs hp => (mesh_spec hE hs hp _).1⟩
  · rw [if_neg h3] at hi
    unfold drawVariables2 at hi
    simp only [List.mem_append, List.mem_map, reduceCtorEq, and_false, exists_false, or_false, false_or] at hi
    rcases hi with ((hi | hi) | hi) | hi <;> split at hi <;> first | simp at hi; done | skip
    all_goals
      obtain ⟨q, _, hq⟩ := List.mem_flatMap.mp hi
      obtain ⟨P, _, _, e⟩ := mem_region hq
      simp [ellipse] at e

example : ∃ E items c width height angle, Diagonalizes E ∧ draw E (C97.options false) C94.heap [0, 1, 2, 3, 4]
    [C94.bearing, C94.planar, C94.ranged] (fun _ => some C97.cov) = .ok items ∧
    Item.ellipse c width height angle ∈ items ∧ ∃ r ∈ [0, 1, 2, 3, 4], ∃ m p, shownAs (C94.heap r) = some (m, p) ∧ c = ![p 0, p 1] := by
  obtain ⟨E, hE⟩ := exists_diagonalizes
  obtain ⟨items, hi⟩ := C97.drawn E false
  obtain ⟨w, h, a, hm, _⟩ := C97_ellipse_partial hE hi rfl rfl (r := 2) (by simp) (m := .pose2d) (p := ![1, 2, 0])
    (by simp [C94.heap, shownAs]) rfl (by simp [C97.cov]) C97.cov_symm2 C97.cov_pos2
  obtain ⟨_, _, r, hr, m, p, _, h1, h2, _⟩ := C97_ellipse_only_partial hE hi hm
  exact ⟨E, items, _, w, h, a, hE, hi, hm, r, hr, m, p, h1, h2⟩

example : ∃ E items mesh, Diagonalizes E ∧ draw E (C97.options true) C94.heap [0, 1, 2, 3, 4]
    [C94.bearing, C94.planar, C94.ranged] (fun _ => some C97.cov) = .ok items ∧
    Item.surface mesh ∈ items ∧ ∃ r ∈ [0, 1, 2, 3, 4], ∃ m p, shownAs (C94.heap r) = some (m, p) ∧ (m = .pose ∨ m = .landmark) := by
  obtain ⟨E, hE⟩ := exists_diagonalizes
  obtain ⟨items, hi⟩ := C97.drawn E true
  obtain ⟨mesh, hm, _, _⟩ := C97_ellipsoid_partial hE hi rfl rfl (r := 0) (by simp) (m := .pose) (p := 0)
    (by simp [C94.heap, shownAs]) (.inl rfl) rfl (by simp [C97.cov]) C97.cov_symm3 C97.cov_pos3
  obtain ⟨_, _, r, hr, m, p, _, h1, h2, _⟩ := C97_ellipsoid_only_partial hE hi hm
  exact ⟨E, items, mesh, hE, hi, hm, r, hr, m, p, h1, h2⟩

/-- **C97** is false of the code for planar poses and landmarks in a 3D drawing: no region is drawn around them, although
covariances were asked for and are known. -/
theorem C97_false : ¬ ∀ (E : Eigh) (o : Options) (h : Heap RVar) (vars : List VRef) (facs : List PyFactor) (covs : Covs)
    (items : List Item), Diagonalizes E → draw E o h vars facs covs = .ok items → o.covariance = true →
    ∀ r ∈ vars, ∀ m p P, shownAs (h r) = some (m, p) → covs (VarLike.id (h r)) = some P → 2 ≤ P.rows →
      (square 2 P).PosDef → (∃ mesh, Item.surface mesh ∈ items) ∨ ∃ c width height angle, Item.ellipse c width height angle ∈ items := by
  intro hall
  obtain ⟨E, hE⟩ := exists_diagonalizes
  obtain ⟨items, hi⟩ := C94_partial E (C97.options true) C94.heap [2, 3] [] (fun _ => some C97.cov) C94.sized (by simp) (by simp)
  have hm := hall E (C97.options true) C94.heap [2, 3] [] (fun _ => some C97.cov) items hE hi rfl 2 (by simp) .pose2d ![1, 2, 0]
    C97.cov (by simp [C94.heap, shownAs]) rfl (by simp [C97.cov]) C97.cov_pos2
  obtain ⟨g, ms, hg, hms, rfl⟩ := draw_parts hi
  simp [gather, C94.heap, Res.map] at hg
  simp [measurementLines, C97.options] at hms
  subst hg hms
  simp [drawVariables3, axisLimits, Gathered.positions, C97.options] at hm

/-- The dictionary of covariances holds what the optimizer reports. -/
theorem collect_eq {Fact : Type} {L : LinAlg ℝ Fact} {s : OptWorld ℝ RVar Fact} {vars : List VRef} {covs : Covs}
    (hn : (vars.map fun r => VarLike.id (s.heap r)).Nodup) (h : collect L s vars = .ok covs) :
    (∀ r ∈ vars, Opt.estimateCovariance realArith L s (some r) = .ok (covs (VarLike.id (s.heap r)))) ∧
    ∀ i, i ∉ vars.map (fun r => VarLike.id (s.heap r)) → covs i = none := by
  induction vars generalizing covs with
  | nil => cases h; simp
  | cons q qs ih =>
    obtain ⟨c, hc, h⟩ := andThen_ok h
    obtain ⟨d, hd, rfl⟩ := map_ok h
    rw [List.map_cons, List.nodup_cons] at hn
    obtain ⟨i1, i2⟩ := ih hn.2 hd
    constructor
    · intro r hr
      dsimp only
      rcases List.mem_cons.mp hr with rfl | hr
      · rw [i2 _ hn.1, if_pos rfl]
        exact hc
      · rw [i1 r hr]
        have hne : VarLike.id (s.heap r) ≠ VarLike.id (s.heap q) := fun e => hn.1 (e ▸ List.mem_map.mpr ⟨r, hr, rfl⟩)
        rw [if_neg hne]
        cases d (VarLike.id (s.heap r)) <;> rfl
    · intro i hi
      rw [List.map_cons, List.mem_cons, not_or] at hi
      dsimp only
      rw [i2 i hi.2, if_neg hi.1]

/-- The parts of a drawing with covariances. -/
theorem plot_parts {Fact : Type} {E : Eigh} {L : LinAlg ℝ Fact} {o : Options} {facs : List PyFactor}
    {s s' : OptWorld ℝ RVar Fact} {items : List Item} (ho : o.covariance = true)
    (h : plot E L o facs s = (s', .ok items)) :
    Opt.prepare realArith L s = (s', .ok ()) ∧ ∃ covs, collect L s' s.graph.getAllVariables = .ok covs ∧
      draw E o s'.heap s.graph.getAllVariables facs covs = .ok items := by
  unfold plot at h
  rw [if_pos ho] at h
  obtain ⟨t, _, h1, h2⟩ := SE.bind_ok_iff.mp h
  have e1 : t = s' := congrArg Prod.fst h2
  have e2 := congrArg Prod.snd h2
  subst e1
  obtain ⟨covs, hc, hd⟩ := andThen_ok e2
  exact ⟨h1, covs, hc, hd⟩

theorem prepare_same {Fact : Type} {L : LinAlg ℝ Fact} (s : OptWorld ℝ RVar Fact) :
    (Opt.prepare realArith L s).1.heap = s.heap ∧ (Opt.prepare realArith L s).1.graph = s.graph := by
  rcases Opt.prepare_cases realArith L s with ⟨_, e⟩ | ⟨_, _, e⟩ | ⟨_, _, ⟨r, _, e⟩ | ⟨J, _, ⟨_, e⟩ | ⟨f, _, e | e⟩⟩⟩ <;>
    rw [e] <;> exact ⟨rfl, rfl⟩

theorem square_corner {n k : Nat} {P : Mat ℝ} (hk : k ≤ n) (hs : (square n P).IsSymm) (hp : (square n P).PosDef) :
    (square k P).IsSymm ∧ (square k P).PosDef := by
  have e : square k P = (square n P).submatrix (Fin.castLE hk) (Fin.castLE hk) := by ext i j; rfl
  rw [e]
  exact ⟨hs.submatrix _, hp.submatrix (Fin.castLE_injective hk)⟩

/-- **C97** for a drawing made with an optimizer that has not prepared its covariances yet: the ellipses are those of the
inverse of `JᵀJ`, for the last sparse Jacobian of the graph. -/
theorem C97_optimizer_partial {Fact : Type} {L : LinAlg ℝ Fact} (hL : ExactLinAlg L) {E : Eigh} (hE : Diagonalizes E)
    {h0 : Heap RVar} {pre post : List (Op ℝ RVar × Res Unit)} {s s' : OptWorld ℝ RVar Fact}
    (hw : FinalizedAfter h0 pre post ⟨s.heap, s.graph⟩) (hv : s.opt.hessianValid = false) {o : Options}
    {facs : List PyFactor} {items : List Item} (ho : o.covariance = true) (hplot : plot E L o facs s = (s', .ok items))
    {r : VRef} (hr : r ∈ s.graph.getAllVariables) {m : Mark} {p : V3} (hs : shownAs (s.heap r) = some (m, p)) {P : Mat ℝ}
    (hP : Opt.estimateCovariance realArith L s' (some r) = .ok (some P)) :
    ∃ J, s.graph.sparseJacobian = .ok J ∧
      (∀ i j, i < VarLike.size (s.heap r) → j < VarLike.size (s.heap r) → ∃ hi hj,
        P.entry i j = ((jacobianMatrix J)ᵀ * jacobianMatrix J)⁻¹
          ⟨colStart s.heap s.graph.getAllVariables r + i, hi⟩ ⟨colStart s.heap s.graph.getAllVariables r + j, hj⟩) ∧
      (o.threeD = false → ∃ width height angle, Item.ellipse ![p 0, p 1] width height angle ∈ items ∧
        ∀ x, Outline ![p 0, p 1] width height angle x ↔ sigmas (square 2 P) ![p 0, p 1] x = 1) ∧
      (o.threeD = true → m = .pose ∨ m = .landmark → ∃ mesh, Item.surface mesh ∈ items ∧
        (∀ x ∈ mesh, sigmas (square 3 P) p x = 1) ∧
        ∀ y, sigmas (square 3 P) p y = 1 → ∃ x ∈ mesh, sigmas (square 3 P) y x ≤ (1 / 5) ^ 2) := by
  obtain ⟨hprep, covs, hcol, hd⟩ := plot_parts ho hplot
  have hsame := prepare_same (L := L) s
  rw [hprep] at hsame
  obtain ⟨hheap, hgraph⟩ := hsame
  dsimp only at hheap hgraph
  obtain ⟨J, hJ, _, hrows, _, hentry, hsym, hpos⟩ := C30_block hL hw hv hprep r hr P hP
  have hids : (s.graph.getAllVariables.map fun q => VarLike.id (s'.heap q)).Nodup := by
    rw [hheap]
    exact (Graph.finalizedAfter_layout hw).ids
  have hc := (collect_eq hids hcol).1 r hr
  rw [hP] at hc
  have hc : covs (VarLike.id (s'.heap r)) = some P := (Res.ok.inj hc).symm
  rw [hheap] at hc hd
  refine ⟨J, hJ, hentry, fun h2 => ?_, fun h3 hm => ?_⟩
  · have hk : 2 ≤ VarLike.size (s.heap r) := by
      cases e : s.heap r with
      | pose v => exact (by decide : 2 ≤ 6)
      | landmark v => exact (by decide : 2 ≤ 3)
      | pose2d v => exact (by decide : 2 ≤ 3)
      | generic v =>
        rw [e] at hs
        simp only [shownAs] at hs
        split at hs
        · rename_i hl; exact hl.ge
        · simp at hs
      | rotation v => rw [e] at hs; simp [shownAs] at hs
      | invRange v => rw [e] at hs; simp [shownAs] at hs
      | plane v => rw [e] at hs; simp [shownAs] at hs
    obtain ⟨q1, q2⟩ := square_corner hk hsym hpos
    exact C97_ellipse_partial hE hd ho h2 hr hs hc (hrows ▸ hk) q1 q2
  · have hk : 3 ≤ VarLike.size (s.heap r) := by
      cases e : s.heap r with
      | pose v => exact (by decide : 3 ≤ 6)
      | landmark v => exact (by decide : 3 ≤ 3)
      | pose2d v => exact (by decide : 3 ≤ 3)
      | generic v =>
        rw [e] at hs
        simp only [shownAs] at hs
        split at hs
        · simp at hs; rcases hm with rfl | rfl <;> simp at hs
        · simp at hs
      | rotation v => rw [e] at hs; simp [shownAs] at hs
      | invRange v => rw [e] at hs; simp [shownAs] at hs
      | plane v => rw [e] at hs; simp [shownAs] at hs
    obtain ⟨q1, q2⟩ := square_corner hk hsym hpos
    exact C97_ellipsoid_partial hE hd ho h3 hr hs hm hc (hrows ▸ hk) q1 q2

/-- An optimizer that has finished on the graph with one point. -/
noncomputable def C97.start : OptWorld ℝ RVar (Ldlt.Fact ℝ) :=
  ⟨(MarkWorld.world 5 7 2).heap, (MarkWorld.world 5 7 2).graph,
    { Optimizer.init realArith with hasGraph := true, complete := true }⟩

attribute [irreducible] C97.start

theorem C97.start_eq : C97.start.heap = MarkWorld.heap 5 7 ∧ C97.start.graph = (MarkWorld.world 5 7 2).graph ∧
    C97.start.opt.hessianValid = false ∧ C97.start.opt.complete = true := by
  unfold C97.start
  exact ⟨MarkWorld.heap_eq 5 7 2, rfl, rfl, rfl⟩

theorem C97.prepared : Opt.prepare realArith Ldlt.linAlg C97.start = ({ C97.start with opt := { C97.start.opt with
      hessian := Ldlt.linAlg.gram ⟨2, [⟨2, [(0, 2), (1, 0)]⟩, ⟨2, [(0, 0), (1, 2)]⟩], 4⟩, solver := some [(4, [0]), (4, [])],
      hessianValid := true } }, .ok ()) := by
  obtain ⟨h1, h2, h3, h4⟩ := C97.start_eq
  have h : C97.start.graph.sparseJacobian = .ok ⟨2, [⟨2, [(0, 2), (1, 0)]⟩, ⟨2, [(0, 0), (1, 2)]⟩], 4⟩ := by
    rw [h2]; exact MarkWorld.sparse_eq 5 7 2
  have hf : (Ldlt.linAlg : LinAlg ℝ (Ldlt.Fact ℝ)).factorize (Ldlt.linAlg.gram
      ⟨2, [⟨2, [(0, 2), (1, 0)]⟩, ⟨2, [(0, 0), (1, 2)]⟩], 4⟩) = some [(4, [0]), (4, [])] := by
    simp [Ldlt.linAlg, Ldlt.gram, Ldlt.rowsOf, Ldlt.factorRows, Ldlt.sumTo, SpMat.coeff, Ldlt.axpy, List.range_succ, List.lookup]
    norm_num
  have hD : (Ldlt.linAlg : LinAlg ℝ (Ldlt.Fact ℝ)).vectorD [(4, [0]), (4, [])] = [4, 4] := rfl
  unfold Opt.prepare
  simp [SE.bind, SE.get, h, h3, h4, hD, SE.lift, hf, Opt.modOpt]

theorem C97.estimated : ∃ P, Opt.estimateCovariance realArith Ldlt.linAlg (Opt.prepare realArith Ldlt.linAlg C97.start).1 (some 0) =
    .ok (some P) := by
  obtain ⟨h1, h2, h3, h4⟩ := C97.start_eq
  rw [C97.prepared]
  have hp : C97.start.graph.variablePlacement (VarLike.id (F := ℝ) (C97.start.heap 0)) = some ⟨0, 0, 2⟩ := by
    rw [h1, h2]; exact MarkWorld.placement_eq 5 7 2
  have hc : VarLike.isConst (F := ℝ) (C97.start.heap 0) = false := by rw [h1]; rfl
  have hz : VarLike.size (F := ℝ) (C97.start.heap 0) = 2 := by rw [h1]; rfl
  refine ⟨?_, ?_⟩
  rotate_left
  · unfold Opt.estimateCovariance
    simp [hp, hc, hz, h4, Ldlt.linAlg, Ldlt.gram, Opt.solveColumns, Opt.unitVector, Ldlt.solveFact, List.range_succ,
      Opt.allEntries, realArith, Ldlt.axpy, Ldlt.dot, Opt.blockOf]
    rw [if_neg (by norm_num)]

/-- The ellipse around the point. -/
example : ∃ (E : Eigh) (s' : OptWorld ℝ RVar (Ldlt.Fact ℝ)) (items : List Item) (P : Mat ℝ), Diagonalizes E ∧
    plot E Ldlt.linAlg (C97.options false) [⟨.genericPrior, genericPrior 10 0 [0, 0] 2, none, none, none⟩] C97.start =
      (s', .ok items) ∧
    Opt.estimateCovariance realArith Ldlt.linAlg s' (some 0) = .ok (some P) ∧
    ∃ width height angle, Item.ellipse ![5, 7] width height angle ∈ items ∧
      ∀ x, Outline ![5, 7] width height angle x ↔ sigmas (square 2 P) ![5, 7] x = 1 := by
  obtain ⟨E, hE⟩ := exists_diagonalizes
  obtain ⟨P, hP⟩ := C97.estimated
  obtain ⟨h1, h2, h3, h4⟩ := C97.start_eq
  have hok : (Opt.prepare realArith Ldlt.linAlg C97.start).2 = .ok () := by rw [C97.prepared]
  have hsame := prepare_same (L := Ldlt.linAlg) C97.start
  have hvars : C97.start.graph.getAllVariables = [0] := by rw [h2]; exact MarkWorld.vars_eq 5 7 2
  rcases e : Opt.prepare realArith Ldlt.linAlg C97.start with ⟨s', res⟩
  rw [e] at hP hok hsame
  dsimp only at hP hok hsame
  subst hok
  have hseen : Seen (MarkWorld.heap 5 7) ⟨.genericPrior, genericPrior 10 0 [0, 0] 2, none, none, none⟩ := by
    have := Built.genericPrior (h := MarkWorld.heap 5 7) 10 0 [0, 0] (1 / 2) rfl
    rw [show (1 : ℝ) / (1 / 2) = 2 by norm_num] at this
    exact .other _ this (by simp) (by simp) (by simp) rfl rfl rfl
  obtain ⟨covs, hcol⟩ : ∃ covs, collect Ldlt.linAlg s' [0] = .ok covs := by
    simp only [collect, hP, Res.andThen, Res.map]
    exact ⟨_, rfl⟩
  obtain ⟨items, hi⟩ := C94_partial E (C97.options false) (MarkWorld.heap 5 7) [0]
    [⟨.genericPrior, genericPrior 10 0 [0, 0] 2, none, none, none⟩] covs (by intro r x hx; simp [MarkWorld.heap] at hx)
    (by intro f hf; rw [List.mem_singleton.mp hf]; exact hseen) (by intro _ f hf; rw [List.mem_singleton.mp hf]; simp)
  have hplot : plot E Ldlt.linAlg (C97.options false) [⟨.genericPrior, genericPrior 10 0 [0, 0] 2, none, none, none⟩] C97.start =
      (s', .ok items) := by
    unfold plot
    rw [if_pos (show (C97.options false).covariance = true from rfl)]
    refine (SE.bind_ok e).trans ?_
    rw [hvars, hcol, hsame.1, h1]
    exact congrArg _ hi
  refine ⟨E, s', items, P, hE, hplot, hP, ?_⟩
  have hw := MarkWorld.finalizedAfter 5 7 2
  have hworld : (⟨C97.start.heap, C97.start.graph⟩ : World ℝ RVar) = MarkWorld.world 5 7 2 := by
    rw [h1, h2, ← MarkWorld.heap_eq 5 7 2]
  rw [← hworld] at hw
  obtain ⟨_, _, _, h5, _⟩ := C97_optimizer_partial Ldlt.exact hE hw h3 rfl hplot (r := 0) (by rw [hvars]; simp)
    (m := .landmark2d) (p := ![5, 7, 0]) (by rw [h1]; simp [MarkWorld.heap, shownAs]) hP
  exact h5 rfl

end Factorama.Props
