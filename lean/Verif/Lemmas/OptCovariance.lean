import Verif.Lemmas.OptHistory

/-!
# What a reported covariance is made of
-/

namespace Factorama.Opt
open Graph Spec
variable {F V Fact : Type} [Zero F] [VarLike F V]

theorem estimateCovariance_some {A : Arith F} {L : LinAlg F Fact} {s : OptWorld F V Fact} {v : Option VRef} {P : Mat F}
    (h : estimateCovariance A L s v = .ok (some P)) :
    ∃ r p f X, v = some r ∧ VarLike.isConst (s.heap r) = false ∧ s.opt.hessianValid = true ∧
      s.graph.variablePlacement (VarLike.id (s.heap r)) = some p ∧ p.index + p.dim ≤ s.opt.hessian.rows ∧
      s.opt.solver = some f ∧
      solveColumns L f ((List.range p.dim).map fun i => unitVector A s.opt.hessian.rows (p.index + i)) = some X ∧
      p.dim ≠ 0 ∧ P = averageInPlace A (blockOf X p.index p.dim) := by
  unfold estimateCovariance at h
  cases v with
  | none => simp at h
  | some r =>
    dsimp only at h
    split at h
    · simp at h
    rename_i h1
    split at h
    · simp at h
    split at h
    · simp at h
    rename_i h3
    cases hp : s.graph.variablePlacement (VarLike.id (s.heap r)) with
    | none => rw [hp] at h; simp at h
    | some p =>
      rw [hp] at h
      dsimp only at h
      split at h
      · simp at h
      rename_i h4
      cases hs : s.opt.solver with
      | none => rw [hs] at h; simp at h
      | some f =>
        rw [hs] at h
        dsimp only at h
        split at h
        · simp at h
        rename_i X hX
        split at h
        · simp at h
        split at h
        · simp at h
        split at h
        · simp at h
        rename_i h5
        split at h
        · simp at h
        · simp only [Res.ok.injEq, Option.some.injEq] at h
          simp only [not_or] at h1
          simp only [not_or] at h3
          exact ⟨r, p, f, X, rfl, by simpa using h1.1, by simpa using h3.1, hp, by omega, rfl, hX, h5, h.symm⟩

theorem solveColumns_some {L : LinAlg F Fact} {f : Fact} {bs X : List (List F)} (h : solveColumns L f bs = some X)
    {j : Nat} {b : List F} (hb : bs[j]? = some b) : ∃ x, X[j]? = some x ∧ L.solve f b = some x := by
  induction bs generalizing X j with
  | nil => simp at hb
  | cons b0 bs ih =>
    simp only [solveColumns] at h
    cases h1 : L.solve f b0 with
    | none => rw [h1] at h; simp at h
    | some x =>
      cases h2 : solveColumns L f bs with
      | none => rw [h1, h2] at h; simp at h
      | some xs =>
        rw [h1, h2] at h
        simp only [Option.some.injEq] at h
        subst h
        cases j with
        | zero => simp only [List.getElem?_cons_zero, Option.some.injEq] at hb; subst hb; exact ⟨x, rfl, h1⟩
        | succ j => simpa using ih h2 (by simpa using hb)

end Factorama.Opt
