import Verif.Spec.PlanarMap
import Verif.Lemmas.Resection
import Verif.Lemmas.Network

/-!
# Kernel vectors of planar maps
-/

namespace Factorama
open Spec Opt Graph Matrix Geo Props

section
variable {V : Type} [VarLike ℝ V]

/-- The rows of a factor times a vector: the sum over its variables. -/
theorem factor_row {h : Heap V} {vars : List VRef} {facs : List (Factor ℝ V)} (hn : vars.Nodup) {r : List ℝ} {J : SpMat ℝ}
    (hlin : Linearised h vars facs r J) {k : Nat} {f : Factor ℝ V} (hk : facs[k]? = some f) {n : Nat} {vr : Nat → VRef}
    (hvr : f.variables = (List.range n).map fun s => some (vr s))
    (hinj : ∀ s, s < n → ∀ t, t < n → VarLike.isConst (F := ℝ) (h (vr s)) = false → vr s = vr t → s = t)
    (hclosed : ∀ s, s < n → VarLike.isConst (F := ℝ) (h (vr s)) = false → vr s ∈ vars) {bs : List (Mat ℝ)} {M : Nat → Mat ℝ}
    (hbs : f.computeJacobians h [] = .ok bs)
    (hM : ∀ s, s < n → VarLike.isConst (F := ℝ) (h (vr s)) = false → bs[s]? = some (M s)) {i : Nat} (hi : i < f.residualSize) (x : Nat → ℝ) :
    ∑ c ∈ Finset.range J.columns.length, J.coeff (rowStart facs k + i) c * x c =
      ∑ s ∈ Finset.range n, ∑ j ∈ Finset.range (VarLike.size (F := ℝ) (h (vr s))), (M s).entry i j * columnPart h vars x (vr s) j := by
  obtain ⟨B, hB, hS⟩ := hlin.jacobian
  obtain ⟨e1, _⟩ := hB k f hk
  rw [hbs] at e1
  obtain rfl := Res.ok.inj e1
  have hslot : ∀ s, s < n → f.variables[s]? = some (some (vr s)) := fun s hs => by rw [hvr]; simp [hs]
  rw [hlin.columns]
  have hc : ∀ c ∈ Finset.range (freeTotal h vars), J.coeff (rowStart facs k + i) c * x c =
      ∑ s ∈ Finset.range n, ∑ j ∈ Finset.range (VarLike.size (F := ℝ) (h (vr s))),
        if VarLike.isConst (F := ℝ) (h (vr s)) = false ∧ colStart h vars (vr s) + j = c then (M s).entry i j * x c else 0 := by
    intro c hc
    obtain ⟨q, hq, hqc, j, hj, rfl⟩ := exists_column h hn (by simpa using hc)
    by_cases hex : ∃ s, s < n ∧ vr s = q
    · obtain ⟨s, hs, rfl⟩ := hex
      rw [(hS k f hk i hi).1 s (vr s) (M s) (hslot s hs) hqc (hM s hs hqc) j hj,
        Finset.sum_eq_single_of_mem s (by simpa using hs) fun t ht hne => Finset.sum_eq_zero fun j' hj' => if_neg ?_,
        Finset.sum_eq_single_of_mem j (by simpa using hj) fun j' hj' hne => if_neg ?_, if_pos ⟨hqc, rfl⟩]
      · rintro ⟨_, e⟩
        omega
      · rintro ⟨htc, e⟩
        have ht : t < n := by simpa using ht
        exact hne (hinj t ht s hs htc (column_inj (hclosed t ht htc) hq htc hqc (by simpa using hj') hj e).1)
    · rw [(hS k f hk i hi).2 q hq hqc (fun hm => hex ?_) j hj, zero_mul]
      · refine (Finset.sum_eq_zero fun s hs => Finset.sum_eq_zero fun j' hj' => if_neg ?_).symm
        rintro ⟨hsc, e⟩
        have hs : s < n := by simpa using hs
        exact hex ⟨s, hs, (column_inj (hclosed s hs hsc) hq hsc hqc (by simpa using hj') hj e).1⟩
      · rw [hvr] at hm
        simpa using hm
  rw [Finset.sum_congr rfl hc, Finset.sum_comm]
  refine Finset.sum_congr rfl fun s hs => ?_
  rw [Finset.sum_comm]
  refine Finset.sum_congr rfl fun j hj => ?_
  have hs : s < n := by simpa using hs
  have hj : j < VarLike.size (F := ℝ) (h (vr s)) := by simpa using hj
  cases hsc : VarLike.isConst (F := ℝ) (h (vr s)) with
  | true => simp [columnPart, hsc]
  | false =>
    simp only [columnPart, hsc, true_and, Bool.false_eq_true, if_false]
    rw [Finset.sum_ite_eq, if_pos (by simpa using column_lt (hclosed s hs hsc) hsc hj)]

end

/-- The matrices of the rows of a factor on two variables, times a vector. -/
theorem two_rows {h : Heap RVar} {vars : List VRef} {facs : List (Factor ℝ RVar)} (hn : vars.Nodup) {r : List ℝ} {J : SpMat ℝ}
    (hlin : Linearised h vars facs r J) {k : Nat} {f : Factor ℝ RVar} (hk : facs[k]? = some f) {a b : VRef} {rest : List (Mat ℝ)}
    {others : List (Option VRef)} (hvr : f.variables = some a :: some b :: others)
    (hothers : ∀ q, some q ∈ others → VarLike.isConst (F := ℝ) (h q) = true)
    (hall : ∀ o ∈ others, o.isSome = true)
    (hab : a ≠ b) (hclosed : ∀ q, some q ∈ f.variables → VarLike.isConst (F := ℝ) (h q) = false → q ∈ vars) {m n1 n2 : Nat}
    {A : Matrix (Fin m) (Fin n1) ℝ} {B : Matrix (Fin m) (Fin n2) ℝ} (hm : f.residualSize = m)
    (ha : VarLike.size (F := ℝ) (h a) = n1) (hb : VarLike.size (F := ℝ) (h b) = n2)
    (hbs : f.computeJacobians h [] = .ok (Fac.block (h a) A :: Fac.block (h b) B :: rest)) (x : Nat → ℝ) (i : Fin m) :
    ∑ c ∈ Finset.range J.columns.length, J.coeff (rowStart facs k + i) c * x c =
      (A *ᵥ fun j => columnPart h vars x a j) i + (B *ᵥ fun j => columnPart h vars x b j) i := by
  let vr : Nat → VRef := fun s => ((f.variables[s]?).getD none).getD 0
  have hsome : ∀ s (hs : s < f.variables.length), f.variables[s] = some (vr s) := by
    intro s hs
    simp only [vr, List.getElem?_eq_getElem hs, Option.getD_some]
    match s, hs with
    | 0, hs => simp [hvr]
    | 1, hs => simp [hvr]
    | s + 2, hs =>
      have : f.variables[s + 2] ∈ others := by
        simp only [hvr, List.getElem_cons_succ]
        exact List.getElem_mem _
      obtain ⟨q, hq⟩ := Option.isSome_iff_exists.1 (hall _ this)
      rw [hq]; rfl
  have hlen : f.variables.length = others.length + 2 := by rw [hvr]; rfl
  have h0 : vr 0 = a := by simp [vr, hvr]
  have h1 : vr 1 = b := by simp [vr, hvr]
  have hconst : ∀ s, s + 2 < f.variables.length → VarLike.isConst (F := ℝ) (h (vr (s + 2))) = true := by
    intro s hs
    refine hothers _ ?_
    rw [← hsome (s + 2) hs]
    simp only [hvr, List.getElem_cons_succ]
    exact List.getElem_mem _
  let M : Nat → Mat ℝ := fun s => if s = 0 then Mat.ofMatrix A else Mat.ofMatrix B
  rw [factor_row hn hlin hk (n := f.variables.length) (vr := vr) (M := M) ?_ ?_ ?_ hbs ?_ (hm ▸ i.2) x]
  · rw [hlen, Finset.sum_range_succ', Finset.sum_range_succ', Finset.sum_eq_zero fun s hs => ?_]
    · simp only [h0, h1, ha, hb, zero_add, M, if_true]
      rw [if_neg (by omega), add_comm]
      exact congrArg₂ _ (ofMatrix_entry A i _) (ofMatrix_entry B i _)
    · refine Finset.sum_eq_zero fun j _ => ?_
      have hs : s < others.length := by simpa using hs
      show _ * columnPart h vars x (vr (s + 2)) j = 0
      rw [columnPart, if_pos (hconst s (by omega)), mul_zero]
  · refine List.ext_getElem (by simp) fun s hs _ => ?_
    rw [hsome s hs]
    simp
  · intro s hs t ht hc e
    match s, t with
    | 0, 0 => rfl
    | 1, 1 => rfl
    | 0, 1 => rw [h0, h1] at e; exact absurd e hab
    | 1, 0 => rw [h0, h1] at e; exact absurd e.symm hab
    | s + 2, _ => rw [hconst s hs] at hc; cases hc
    | _, t + 2 => rw [e, hconst t ht] at hc; cases hc
  · intro s hs hc
    refine hclosed _ ?_ hc
    rw [← hsome s hs]
    exact List.getElem_mem _
  · intro s hs hc
    match s with
    | 0 =>
      rw [h0] at hc
      simp [M, Fac.block, hc]
    | 1 =>
      rw [h1] at hc
      simp [M, Fac.block, hc]
    | s + 2 => rw [hconst s hs] at hc; cases hc

/-- A vector over the columns that the Jacobian maps to zero. -/
def NullVector (J : SpMat ℝ) (x : Nat → ℝ) : Prop := ∀ a, a < J.rows → ∑ c ∈ Finset.range J.columns.length, J.coeff a c * x c = 0

section
variable {V : Type} [VarLike ℝ V]

/-- An undetermined problem has a kernel vector that is not zero in some component of a free variable. -/
theorem Props.Undetermined.kernel {h : Heap V} {vars : List VRef} {facs : List (Factor ℝ V)} (hn : vars.Nodup) {r : List ℝ} {J : SpMat ℝ}
    (hlin : Linearised h vars facs r J) (hu : Undetermined J) :
    ∃ x, NullVector J x ∧ ∃ p ∈ vars, VarLike.isConst (F := ℝ) (h p) = false ∧ ∃ j, j < VarLike.size (F := ℝ) (h p) ∧ columnPart h vars x p j ≠ 0 := by
  obtain ⟨x, hx, hker⟩ := hu
  obtain ⟨c, hcne⟩ := Function.ne_iff.1 hx
  obtain ⟨p, hp, hc, j, hj, hcl⟩ := exists_column h hn (c := c) (by rw [← hlin.columns]; exact c.2)
  let X : Nat → ℝ := fun c => if hc : c < J.columns.length then x ⟨c, hc⟩ else 0
  refine ⟨X, fun a ha => ?_, p, hp, hc, j, hj, ?_⟩
  · rw [← Fin.sum_univ_eq_sum_range (fun c => J.coeff a c * X c)]
    refine Eq.trans (Finset.sum_congr rfl fun c _ => ?_) (congrFun hker ⟨a, ha⟩)
    simp only [X, c.2, dif_pos]
    rfl
  · rw [columnPart, hc, if_neg Bool.false_ne_true]
    simp only [X, ← hcl, c.2, dif_pos]
    exact hcne

/-- A kernel vector that is not zero makes the problem undetermined. -/
theorem undetermined_of_kernel {J : SpMat ℝ} {x : Nat → ℝ} (hk : NullVector J x) {c : Nat} (hc : c < J.columns.length) (hne : x c ≠ 0) :
    Undetermined J := by
  refine ⟨fun c => x c, fun e => hne (congrFun e ⟨c, hc⟩), ?_⟩
  funext a
  refine Eq.trans ?_ (hk a a.2)
  rw [mulVec, dotProduct, ← Fin.sum_univ_eq_sum_range (fun c => J.coeff a c * x c)]
  rfl

end

section
variable {h : Heap RVar} {vars : List VRef} {facs : List (Factor ℝ RVar)} (hn : vars.Nodup) {r : List ℝ} {J : SpMat ℝ}
  (hlin : Linearised h vars facs r J)
  (hclosed : ∀ f ∈ facs, ∀ q, some q ∈ f.variables → VarLike.isConst (F := ℝ) (h q) = false → q ∈ vars)
  {x : Nat → ℝ} (hk : NullVector J x)
include hn hlin hclosed hk

theorem two_kernel {f : Factor ℝ RVar} (hf : f ∈ facs) {a b : VRef} {rest : List (Mat ℝ)} {others : List (Option VRef)}
    (hvr : f.variables = some a :: some b :: others) (hothers : ∀ q, some q ∈ others → VarLike.isConst (F := ℝ) (h q) = true)
    (hall : ∀ o ∈ others, o.isSome = true) (hab : a ≠ b) {m n1 n2 : Nat}
    {A : Matrix (Fin m) (Fin n1) ℝ} {B : Matrix (Fin m) (Fin n2) ℝ} (hm : f.residualSize = m)
    (ha : VarLike.size (F := ℝ) (h a) = n1) (hb : VarLike.size (F := ℝ) (h b) = n2)
    (hbs : f.computeJacobians h [] = .ok (Fac.block (h a) A :: Fac.block (h b) B :: rest)) :
    (A *ᵥ fun j => columnPart h vars x a j) + (B *ᵥ fun j => columnPart h vars x b j) = 0 := by
  obtain ⟨k, hkf⟩ := List.getElem?_of_mem hf
  funext i
  have := two_rows hn hlin hkf hvr hothers hall hab (hclosed f hf) hm ha hb hbs x i
  rw [hk _ (by rw [hlin.rows]; exact row_lt hkf (hm ▸ i.2))] at this
  exact this.symm

theorem direction_kernel_eq {f : Factor ℝ RVar} (hf : f ∈ facs) {p l : VRef} {c t : V2} (hs : GivesDirection h f p l c t) :
    (t 1 - c 1) * (columnPart h vars x p 0 - columnPart h vars x l 0) - (t 0 - c 0) * (columnPart h vars x p 1 - columnPart h vars x l 1) =
      ((t 0 - c 0) ^ 2 + (t 1 - c 1) ^ 2) * columnPart h vars x p 2 := by
  obtain ⟨B, hB, _⟩ := hlin.jacobian
  obtain ⟨k, hkf⟩ := List.getElem?_of_mem hf
  obtain ⟨hbs, _⟩ := hB k f hkf
  cases hs with
  | @mk id _ _ obs sigma v _ hs hp hl =>
    have hpl : p ≠ l := by
      rintro rfl
      rw [hp] at hl
      rcases hl with ⟨g, e, _⟩ | ⟨_, g, e, _⟩ <;> cases e
    obtain ⟨e1, e2, _, _, e5⟩ := deltaLocal_back v t
    simp only [Fac.bearing2D, hp, (vector_value hl).1, head2_toList, Res.andThen] at hbs
    split at hbs
    · cases hbs
    · rename_i hfar
      obtain hbs := Res.ok.inj ((fillBlocks_ok rfl).symm.trans hbs)
      have key := two_kernel hn hlin hclosed hk hf (a := p) (b := l) rfl (by simp) (by simp) hpl (m := 1) (n1 := 3) (n2 := 2) rfl
        (by rw [hp]; rfl) (vector_value hl).2 (by rw [hp, (hB k _ hkf).1, ← hbs])
      rw [e5] at hfar
      rw [e1, e2, e5] at key
      generalize columnPart h vars x p = P at *
      generalize columnPart h vars x l = L at *
      generalize t 0 - v.pos 0 = a at *
      generalize t 1 - v.pos 1 = b at *
      have hN : a ^ 2 + b ^ 2 ≠ 0 := fun e => by rw [e] at hfar; norm_num at hfar
      generalize a ^ 2 + b ^ 2 = N at *
      have hg : (1 : ℝ) / sigma ≠ 0 := one_div_ne_zero hs
      generalize (1 : ℝ) / sigma = g at *
      have e := congrFun key 0
      simp [mulVec, dotProduct, Fin.sum_univ_three, Fin.sum_univ_two] at e
      field_simp at e
      rw [mul_zero] at e
      linear_combination (mul_eq_zero.1 e).resolve_left hg

theorem place_kernel_eq {f : Factor ℝ RVar} (hf : f ∈ facs) {p l : VRef} {c t : V2} (hs : GivesPlace h f p l c t) :
    columnPart h vars x p 0 - columnPart h vars x l 0 = columnPart h vars x p 2 * (t 1 - c 1) ∧
    columnPart h vars x p 1 - columnPart h vars x l 1 = -(columnPart h vars x p 2 * (t 0 - c 0)) := by
  obtain ⟨B, hB, _⟩ := hlin.jacobian
  obtain ⟨k, hkf⟩ := List.getElem?_of_mem hf
  obtain ⟨hbs, _⟩ := hB k f hkf
  cases hs with
  | @mk id _ _ range obs rs bs' v _ hr hb hp hl =>
    have hpl : p ≠ l := by
      rintro rfl
      rw [hp] at hl
      rcases hl with ⟨g, e, _⟩ | ⟨_, g, e, _⟩ <;> cases e
    obtain ⟨e1, e2, e3, e4, e5⟩ := deltaLocal_back v t
    simp only [Fac.rangeBearing2D, hp, (vector_value hl).1, head2_toList, Res.andThen] at hbs
    split at hbs
    · cases hbs
    · rename_i hfar
      obtain hbs := Res.ok.inj ((fillBlocks_ok rfl).symm.trans hbs)
      have key := two_kernel hn hlin hclosed hk hf (a := p) (b := l) rfl (by simp) (by simp) hpl (m := 2) (n1 := 3) (n2 := 2) rfl
        (by rw [hp]; rfl) (vector_value hl).2 (by rw [hp, (hB k _ hkf).1, ← hbs])
      rw [e5] at hfar
      rw [e1, e2, e3, e4, e5] at key
      generalize columnPart h vars x p = P at *
      generalize columnPart h vars x l = L at *
      generalize t 0 - v.pos 0 = a at *
      generalize t 1 - v.pos 1 = b at *
      have hN : a ^ 2 + b ^ 2 ≠ 0 := fun e => by rw [e] at hfar; norm_num at hfar
      have hR : √(a ^ 2 + b ^ 2) ≠ 0 := fun e => by rw [e] at hfar; norm_num at hfar
      generalize √(a ^ 2 + b ^ 2) = R at *
      have hg : (1 : ℝ) / rs ≠ 0 := one_div_ne_zero hr
      have hq : (1 : ℝ) / bs' ≠ 0 := one_div_ne_zero hb
      generalize (1 : ℝ) / rs = g at *
      generalize (1 : ℝ) / bs' = q at *
      generalize hNe : a ^ 2 + b ^ 2 = N at *
      have f1 := congrFun key 0
      have f2 := congrFun key 1
      simp [mulVec, dotProduct, Fin.sum_univ_three, Fin.sum_univ_two] at f1 f2
      field_simp at f1 f2
      rw [mul_zero] at f1
      rw [zero_mul] at f2
      replace f1 := (mul_eq_zero.1 f1).resolve_left hg
      replace f2 := (mul_eq_zero.1 f2).resolve_left hq
      refine ⟨mul_left_cancel₀ hN ?_, mul_left_cancel₀ hN ?_⟩
      · rw [← hNe] at f2 ⊢
        linear_combination -a * f1 + b * f2
      · rw [← hNe] at f2 ⊢
        linear_combination -b * f1 - a * f2

theorem motion_kernel_eq {f : Factor ℝ RVar} (hf : f ∈ facs) {a b : VRef} (hs : GivesMotion h f a b) :
    (∀ j, j < 3 → columnPart h vars x a j = 0) ↔ ∀ j, j < 3 → columnPart h vars x b j = 0 := by
  obtain ⟨B, hB, _⟩ := hlin.jacobian
  obtain ⟨k, hkf⟩ := List.getElem?_of_mem hf
  obtain ⟨hbs, _⟩ := hB k f hkf
  cases hs with
  | @mk id _ _ m ps as localFrame va vb hp ha hab hm hva hvb =>
    simp only [Fac.pose2DBetween, hva, hvb] at hbs
    obtain hbs := Res.ok.inj ((fillBlocks_ok rfl).symm.trans hbs)
    have key := two_kernel hn hlin hclosed hk hf (a := a) (b := b) (others := [some m]) rfl (by simp [hm]) (by simp) hab (m := 3)
      (n1 := 3) (n2 := 3) rfl (by rw [hva]; rfl) (by rw [hvb]; rfl) (by rw [hva, hvb, (hB k _ hkf).1, ← hbs])
    generalize columnPart h vars x a = P at *
    generalize columnPart h vars x b = Q at *
    have hg : (1 : ℝ) / ps ≠ 0 := one_div_ne_zero hp
    have hq : (1 : ℝ) / as ≠ 0 := one_div_ne_zero ha
    generalize (1 : ℝ) / ps = g at *
    generalize (1 : ℝ) / as = q at *
    have f1 := congrFun key 0
    have f2 := congrFun key 1
    have f3 := congrFun key 2
    cases localFrame
    · simp [mulVec, dotProduct, Fin.sum_univ_three] at f1 f2 f3
      have g1 : P 0 = Q 0 := mul_left_cancel₀ hg (by linarith)
      have g2 : P 1 = Q 1 := mul_left_cancel₀ hg (by linarith)
      have g3 : P 2 = Q 2 := mul_left_cancel₀ hq (by linarith)
      have : ∀ j, j < 3 → P j = Q j := fun j hj => by
        match j, hj with
        | 0, _ => exact g1
        | 1, _ => exact g2
        | 2, _ => exact g3
      exact forall₂_congr fun j hj => by rw [this j hj]
    · simp [mulVec, dotProduct, Fin.sum_univ_three, Pose2DVar.dcm] at f1 f2 f3
      have g3 : P 2 = Q 2 := mul_left_cancel₀ hq (by linarith)
      have hcs := Real.sin_sq_add_cos_sq va.theta
      generalize Real.sin va.theta = s at *
      generalize Real.cos va.theta = c at *
      generalize vb.pos 0 - va.pos 0 = r0 at *
      generalize vb.pos 1 - va.pos 1 = r1 at *
      have g1 : Q 0 - P 0 = P 2 * r1 := mul_left_cancel₀ hg (by
        linear_combination c * f1 + s * f2 + (-g * (Q 0 - P 0) + g * P 2 * r1) * hcs)
      have g2 : Q 1 - P 1 = -(P 2 * r0) := mul_left_cancel₀ hg (by
        linear_combination c * f2 - s * f1 + (-g * (Q 1 - P 1) - g * P 2 * r0) * hcs)
      constructor
      · intro h0 j hj
        rw [h0 2 (by omega), zero_mul] at g1
        rw [h0 2 (by omega), zero_mul] at g2
        rw [h0 0 (by omega)] at g1
        rw [h0 1 (by omega)] at g2
        match j, hj with
        | 0, _ => linarith
        | 1, _ => linarith
        | 2, _ => rw [← g3]; exact h0 2 (by omega)
      · intro h0 j hj
        rw [g3, h0 2 (by omega), zero_mul] at g1
        rw [g3, h0 2 (by omega), zero_mul] at g2
        rw [h0 0 (by omega)] at g1
        rw [h0 1 (by omega)] at g2
        match j, hj with
        | 0, _ => linarith
        | 1, _ => linarith
        | 2, _ => rw [g3]; exact h0 2 (by omega)

theorem prior_kernel_eq {f : Factor ℝ RVar} (hf : f ∈ facs) {p : VRef} (hs : GivesPose h f p) : ∀ j, j < 3 → columnPart h vars x p j = 0 := by
  cases hc : VarLike.isConst (F := ℝ) (h p) with
  | true => intro j _; rw [columnPart, if_pos hc]
  | false =>
    obtain ⟨k, hkf⟩ := List.getElem?_of_mem hf
    cases hs with
    | @mk id _ prior ps as v hp ha hv =>
      have hbs : (Fac.pose2DPrior id p prior ps as).computeJacobians h [] = .ok
          [Fac.block (.pose2d v) (!![1 / ps, 0, 0; 0, 1 / ps, 0; 0, 0, 1 / as] : M3)] := by
        simp only [Fac.pose2DPrior, hv]
        exact fillBlocks_ok rfl
      have hcv : VarLike.isConst (F := ℝ) (RVar.pose2d v) = false := by rw [← hv]; exact hc
      rw [Fac.block, hcv, if_neg Bool.false_ne_true] at hbs
      have key : ∀ i : Fin 3, ((!![1 / ps, 0, 0; 0, 1 / ps, 0; 0, 0, 1 / as] : M3) *ᵥ fun j : Fin 3 => columnPart h vars x p j) i = 0 := by
        intro i
        have := single_row hn hlin hkf (slot := 0) (l := p) rfl (hclosed _ hf p (by simp [Fac.pose2DPrior]) hc) hc
          (fun q _ _ hm => by simpa [Fac.pose2DPrior] using hm) hbs rfl (i := i) i.2 x
        rw [hk _ (by rw [hlin.rows]; exact row_lt hkf i.2), show VarLike.size (F := ℝ) (h p) = 3 by rw [hv]; rfl, ofMatrix_entry] at this
        simp only [columnPart, hc, Bool.false_eq_true, if_false]
        exact this.symm
      have f1 := key 0
      have f2 := key 1
      have f3 := key 2
      simp [mulVec, dotProduct, Fin.sum_univ_three, hp, ha] at f1 f2 f3
      intro j hj
      match j, hj with
      | 0, _ => exact f1
      | 1, _ => exact f2
      | 2, _ => exact f3

/-- A kernel vector vanishes on everything that can be located. -/
theorem Spec.Located.part {p : VRef} (hp : Located h facs p) : ∀ j, j < VarLike.size (F := ℝ) (h p) → columnPart h vars x p j = 0 := by
  induction hp with
  | known hc => intro j _; rw [columnPart, if_pos hc]
  | given hf hs =>
    have := prior_kernel_eq hn hlin hclosed hk hf hs
    cases hs with
    | mk _ _ hv => rw [hv]; exact this
  | ahead hf hs _ ih =>
    have := motion_kernel_eq hn hlin hclosed hk hf hs
    cases hs with
    | mk _ _ _ _ hva hvb => rw [hva] at ih; rw [hvb]; exact this.1 ih
  | back hf hs _ ih =>
    have := motion_kernel_eq hn hlin hclosed hk hf hs
    cases hs with
    | mk _ _ _ _ hva hvb => rw [hvb] at ih; rw [hva]; exact this.2 ih
  | place hf hs _ ih =>
    obtain ⟨e0, e1⟩ := place_kernel_eq hn hlin hclosed hk hf hs
    cases hs with
    | mk _ _ hp hl =>
      rw [hp] at ih
      rw [ih 0 (Nat.succ_pos 2), ih 2 (Nat.lt_succ_self 2)] at e0
      rw [ih 1 (Nat.one_lt_succ_succ 1), ih 2 (Nat.lt_succ_self 2)] at e1
      rw [(vector_value hl).2]
      intro j hj
      match j, hj with
      | 0, _ => linarith
      | 1, _ => linarith
  | @crossing f g p q l c d t hf hs _ hg hs' _ hne ihp ihq =>
    have e := direction_kernel_eq hn hlin hclosed hk hf hs
    have e' := direction_kernel_eq hn hlin hclosed hk hg hs'
    have zero : ∀ {f p l c t}, GivesDirection h f p l c t → (∀ j, j < VarLike.size (F := ℝ) (h p) → columnPart h vars x p j = 0) →
        columnPart h vars x p 0 = 0 ∧ columnPart h vars x p 1 = 0 ∧ columnPart h vars x p 2 = 0 := by
      intro f p l c t hs ih
      cases hs with
      | mk _ hp _ =>
        rw [hp] at ih
        exact ⟨ih 0 (Nat.succ_pos 2), ih 1 (Nat.one_lt_succ_succ 1), ih 2 (Nat.lt_succ_self 2)⟩
    obtain ⟨p0, p1, p2⟩ := zero hs ihp
    obtain ⟨q0, q1, q2⟩ := zero hs' ihq
    rw [p0, p1, p2] at e
    rw [q0, q1, q2] at e'
    have hl : VarLike.size (F := ℝ) (h l) = 2 := by cases hs with | mk _ _ hl => exact (vector_value hl).2
    rw [hl]
    have hD : (t 0 - c 0) * (t 1 - d 1) - (t 1 - c 1) * (t 0 - d 0) ≠ 0 := sub_ne_zero.2 hne
    intro j hj
    match j, hj with
    | 0, _ => exact (mul_eq_zero.1 (by linear_combination (t 0 - d 0) * e - (t 0 - c 0) * e' :
        ((t 0 - c 0) * (t 1 - d 1) - (t 1 - c 1) * (t 0 - d 0)) * columnPart h vars x l 0 = 0)).resolve_left hD
    | 1, _ => exact (mul_eq_zero.1 (by linear_combination (t 1 - d 1) * e - (t 1 - c 1) * e' :
        ((t 0 - c 0) * (t 1 - d 1) - (t 1 - c 1) * (t 0 - d 0)) * columnPart h vars x l 1 = 0)).resolve_left hD
  | @resection p K _ hv hdet ih =>
    obtain ⟨v, hv⟩ := hv
    rw [hv]
    refine Classical.byContradiction fun hne => ?_
    have hne' : columnPart h vars x p 2 ≠ 0 ∨ (![columnPart h vars x p 1, -columnPart h vars x p 0] : V2) ≠ 0 := by
      refine Classical.byContradiction fun hn' => hne fun j hj => ?_
      rw [not_or, not_not, not_not] at hn'
      change j < 3 at hj
      match j, hj with
      | 0, _ => exact neg_eq_zero.1 (congrFun hn'.2 1)
      | 1, _ => exact congrFun hn'.2 0
      | 2, _ => exact hn'.1
    obtain ⟨f, hf, l, c, t, hl, ⟨hs, hno⟩ | ⟨hs, hno⟩⟩ := hdet _ _ hne'
    · have e := direction_kernel_eq hn hlin hclosed hk hf hs
      have h2 : VarLike.size (F := ℝ) (h l) = 2 := by cases hs with | mk _ _ hl => exact (vector_value hl).2
      have ih := ih l hl
      rw [h2] at ih
      rw [ih 0 (by omega), ih 1 (by omega)] at e
      refine hno ?_
      show columnPart h vars x p 2 * _ + columnPart h vars x p 1 * _ + -columnPart h vars x p 0 * _ = 0
      linear_combination -e
    · obtain ⟨e0, e1⟩ := place_kernel_eq hn hlin hclosed hk hf hs
      have h2 : VarLike.size (F := ℝ) (h l) = 2 := by cases hs with | mk _ _ _ hl => exact (vector_value hl).2
      have ih := ih l hl
      rw [h2] at ih
      rw [ih 0 (by omega)] at e0
      rw [ih 1 (by omega)] at e1
      refine hno ⟨?_, ?_⟩
      · show columnPart h vars x p 2 * _ + columnPart h vars x p 1 = 0
        linear_combination e1
      · show columnPart h vars x p 2 * _ + -columnPart h vars x p 0 = 0
        linear_combination -e0

end

end Factorama
