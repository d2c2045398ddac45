import Verif.Model.FactorTest
import Verif.Spec.FactorTest
import Mathlib.Data.List.Forall2

/-!
# Lemmas on numerical Jacobians
-/

namespace Factorama.FactorTest
open Spec
variable {F V : Type} [Zero F] [Neg F] [VarLike F V]

theorem set_set {V : Type} (h : Heap V) (r : VRef) (v v' : V) : (h.set r v).set r v' = h.set r v' := by
  funext q; simp only [Heap.set]; split <;> rfl

theorem set_self {V : Type} (h : Heap V) (r : VRef) : h.set r (h r) = h := by
  funext q; simp only [Heap.set]; split
  · rename_i e; rw [e]
  · rfl

theorem set_get {V : Type} (h : Heap V) (r : VRef) (v : V) : h.set r v r = v := by simp [Heap.set]

/-- What a column is, when the variable writes back exactly. -/
theorem numericalColumn_iff (A : Arith F) (f : Factor F V) {r : VRef} (n : Nat) (eps : F) (k : Nat) {h h' : Heap V}
    (hw : WritesBack (h r)) (c : List F) :
    numericalColumn A f r n eps k h = (h', .ok c) ↔
      h' = h ∧ ∃ plus minus, residualAfterIncr f h r (unitStep n k eps) = .ok plus ∧
        residualAfterIncr f h r ((unitStep n k eps).map (- ·)) = .ok minus ∧
        centralDifference A f.residualSize eps plus minus = .ok c := by
  simp only [numericalColumn, SE.bind, SE.get, SE.lift, Graph.mutate, residualAfterIncr]
  generalize e1 : VarLike.applyIncr (h r) (unitStep n k eps) = a1
  cases a1 with
  | threw => simp
  | ub => simp
  | ok v1 =>
    simp only []
    generalize e2 : f.computeResidual (h.set r v1) = a2
    cases a2 with
    | threw => simp
    | ub => simp
    | ok plus =>
      simp only [set_get, hw _ _ e1, set_set, set_self]
      generalize e3 : VarLike.applyIncr (h r) ((unitStep n k eps).map (- ·)) = a3
      cases a3 with
      | threw => simp
      | ub => simp
      | ok v2 =>
        simp only []
        generalize e4 : f.computeResidual (h.set r v2) = a4
        cases a4 with
        | threw => simp
        | ub => simp
        | ok minus =>
          simp only [set_get, hw _ _ e3, set_set, set_self, Prod.mk.injEq, Res.ok.injEq]
          constructor
          · rintro ⟨rfl, hc⟩
            exact ⟨rfl, plus, minus, rfl, rfl, hc⟩
          · rintro ⟨rfl, p, m, rfl, rfl, hc⟩
            exact ⟨rfl, hc⟩

theorem bind_ok {σ α β : Type} {m : SE σ α} {g : α → SE σ β} {s s' : σ} {b : β} :
    SE.bind m g s = (s', .ok b) ↔ ∃ s₁ a, m s = (s₁, .ok a) ∧ g a s₁ = (s', .ok b) := by
  simp only [SE.bind]
  rcases e : m s with ⟨s₁, a⟩
  cases a with
  | ok a =>
    constructor
    · exact fun h => ⟨_, _, rfl, h⟩
    · rintro ⟨_, _, h1, h2⟩
      cases h1
      exact h2
  | threw => simp
  | ub => simp

theorem numericalColumns_iff (A : Arith F) (f : Factor F V) {r : VRef} (n : Nat) (eps : F) {h : Heap V}
    (hw : WritesBack (h r)) (ks : List Nat) (h' : Heap V) (cs : List (List F)) :
    numericalColumns A f r n eps ks h = (h', .ok cs) ↔
      h' = h ∧ cs.length = ks.length ∧ ∀ (i k : Nat) (c : List F), ks[i]? = some k → cs[i]? = some c →
        numericalColumn A f r n eps k h = (h, .ok c) := by
  induction ks generalizing h' cs with
  | nil =>
    simp only [numericalColumns, SE.ret, Prod.mk.injEq, Res.ok.injEq]
    constructor
    · rintro ⟨rfl, rfl⟩; simp
    · rintro ⟨rfl, hl, -⟩
      exact ⟨rfl, (List.length_eq_zero_iff.1 (by simpa using hl)).symm⟩
  | cons k ks ih =>
    simp only [numericalColumns, bind_ok]
    constructor
    · rintro ⟨h1, c, hc, h2, cs', hcs, hret⟩
      have e1 : h1 = h := ((numericalColumn_iff A f n eps k hw c).1 hc).1
      subst e1
      obtain ⟨rfl, hl, hall⟩ := (ih _ _).1 hcs
      simp only [SE.ret, Prod.mk.injEq, Res.ok.injEq] at hret
      obtain ⟨rfl, rfl⟩ := hret
      refine ⟨rfl, by simp [hl], fun i k' c' hk hc' => ?_⟩
      cases i with
      | zero => simp at hk hc'; subst hk hc'; exact hc
      | succ i => exact hall i k' c' (by simpa using hk) (by simpa using hc')
    · rintro ⟨rfl, hl, hall⟩
      cases cs with
      | nil => simp at hl
      | cons c cs =>
        refine ⟨h', c, hall 0 k c (by simp) (by simp), h', cs, ?_, rfl⟩
        exact (ih _ _).2 ⟨rfl, by simpa using hl, fun i k' c' hk hc' => hall (i + 1) k' c' (by simpa using hk) (by simpa using hc')⟩

/-- What a block is, when the variable writes back exactly. -/
theorem numericalBlock_iff (A : Arith F) (f : Factor F V) (eps : F) {h : Heap V} {r : VRef}
    (hw : VarLike.isConst (h r) = false → WritesBack (h r)) (h' : Heap V) (J : Mat F) :
    numericalBlock A f eps (some r) h = (h', .ok J) ↔
      h' = h ∧ if VarLike.isConst (h r) then J = Mat.empty else
        ∃ cols, cols.length = VarLike.size (h r) ∧ J = blockOfColumns f.residualSize (VarLike.size (h r)) cols ∧
          ∀ (k : Nat) c, cols[k]? = some c →
            numericalColumn A f r (VarLike.size (h r)) eps k h = (h, .ok c) := by
  simp only [numericalBlock, bind_ok, SE.get, Prod.mk.injEq, Res.ok.injEq]
  by_cases hc : VarLike.isConst (h r) = true
  · constructor
    · rintro ⟨_, _, ⟨rfl, rfl⟩, hr⟩
      rw [if_pos hc] at hr
      simp only [SE.ret, Prod.mk.injEq, Res.ok.injEq] at hr
      rw [if_pos hc]
      exact ⟨hr.1.symm, hr.2.symm⟩
    · rw [if_pos hc]
      rintro ⟨rfl, rfl⟩
      refine ⟨_, _, ⟨rfl, rfl⟩, ?_⟩
      rw [if_pos hc]; rfl
  · have hw := hw (by simpa using hc)
    rw [if_neg hc]
    constructor
    · rintro ⟨_, _, ⟨rfl, rfl⟩, hr⟩
      rw [if_neg hc] at hr
      simp only [bind_ok, SE.ret, Prod.mk.injEq, Res.ok.injEq] at hr
      obtain ⟨h1, cols, hcols, rfl, rfl⟩ := hr
      obtain ⟨rfl, hl, hall⟩ := (numericalColumns_iff A f _ eps hw _ _ _).1 hcols
      have hl : cols.length = VarLike.size (h1 r) := by simpa using hl
      refine ⟨rfl, cols, hl, rfl, fun k c hk => hall k k c ?_ hk⟩
      have := (List.getElem?_eq_some_iff.1 hk).1
      exact List.getElem?_range (by omega)
    · rintro ⟨rfl, cols, hl, rfl, hall⟩
      refine ⟨_, _, ⟨rfl, rfl⟩, ?_⟩
      rw [if_neg hc]
      simp only [bind_ok, SE.ret, Prod.mk.injEq, Res.ok.injEq]
      refine ⟨_, cols, (numericalColumns_iff A f _ eps hw _ _ _).2 ⟨rfl, by simpa using hl, fun i k c hk hc => ?_⟩, rfl, rfl⟩
      have hi := (List.getElem?_eq_some_iff.1 hk).1
      have : k = i := by
        have hi' : i < VarLike.size (h' r) := by simpa using hi
        rw [List.getElem?_range hi'] at hk
        exact (Option.some.inj hk).symm
      subst this
      exact hall _ c hc

theorem numericalBlocks_iff (A : Arith F) (f : Factor F V) (eps : F) {h : Heap V} (vs : List (Option VRef))
    (hw : ∀ r, some r ∈ vs → VarLike.isConst (h r) = false → WritesBack (h r)) (h' : Heap V) (Js : List (Mat F)) :
    numericalBlocks A f eps vs h = (h', .ok Js) ↔
      h' = h ∧ List.Forall₂ (fun v J => numericalBlock A f eps v h = (h, .ok J)) vs Js := by
  induction vs generalizing h' Js with
  | nil =>
    simp only [numericalBlocks, SE.ret, Prod.mk.injEq, Res.ok.injEq]
    constructor
    · rintro ⟨rfl, rfl⟩; exact ⟨rfl, .nil⟩
    · rintro ⟨rfl, hf⟩; cases hf; exact ⟨rfl, rfl⟩
  | cons v vs ih =>
    simp only [numericalBlocks, bind_ok]
    have same : ∀ h1 J, numericalBlock A f eps v h = (h1, .ok J) → h1 = h := by
      intro h1 J hJ
      cases v with
      | none => simp [numericalBlock, SE.undefined] at hJ
      | some r => exact ((numericalBlock_iff A f eps (hw r (by simp)) h1 J).1 hJ).1
    have ih := ih (fun r hr => hw r (List.mem_cons_of_mem _ hr))
    constructor
    · rintro ⟨h1, J, hJ, h2, Js', hJs, hret⟩
      have e := same _ _ hJ
      subst e
      obtain ⟨rfl, hall⟩ := (ih _ _).1 hJs
      simp only [SE.ret, Prod.mk.injEq, Res.ok.injEq] at hret
      obtain ⟨rfl, rfl⟩ := hret
      exact ⟨rfl, .cons hJ hall⟩
    · rintro ⟨rfl, hf⟩
      cases hf with
      | cons hJ hall => exact ⟨_, _, hJ, _, _, (ih _ _).2 ⟨rfl, hall⟩, rfl⟩

/-- What `ComputeNumericalJacobians` returns, when the variables write back exactly. -/
theorem numericalJacobians_iff (A : Arith F) (f : Factor F V) (eps : F) {h : Heap V} (hw : AllWriteBack f h)
    (h' : Heap V) (Js : List (Mat F)) :
    numericalJacobians A f eps h = (h', .ok Js) ↔
      h' = h ∧ (∃ r0, f.computeResidual h = .ok r0 ∧ r0.length = f.residualSize) ∧
        List.Forall₂ (fun v J => numericalBlock A f eps v h = (h, .ok J)) f.variables Js := by
  simp only [numericalJacobians, bind_ok, SE.get, SE.lift, Prod.mk.injEq, Res.ok.injEq]
  constructor
  · rintro ⟨_, _, ⟨rfl, rfl⟩, _, r0, ⟨rfl, hr⟩, hb⟩
    split at hb
    · rename_i hl
      obtain ⟨rfl, hf⟩ := (numericalBlocks_iff A f eps _ hw _ _).1 hb
      exact ⟨rfl, ⟨r0, hr, hl⟩, hf⟩
    · simp [SE.undefined] at hb
  · rintro ⟨rfl, ⟨r0, hr, hl⟩, hf⟩
    refine ⟨_, _, ⟨rfl, rfl⟩, _, r0, ⟨rfl, hr⟩, ?_⟩
    rw [if_pos hl]
    exact (numericalBlocks_iff A f eps _ hw _ _).2 ⟨rfl, hf⟩

end Factorama.FactorTest
