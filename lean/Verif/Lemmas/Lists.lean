import Verif.Lemmas.Values

/-! Helper lemmas: the variable and factor lists after a history. -/

set_option linter.unusedSectionVars false

namespace Factorama.Graph
open Spec
variable {F V : Type} [Zero F] [VarLike F V] [LawfulVar F V]

theorem ids_step {env : Env F V} {op : Op F V} {w : World F V} :
    SameIds w.heap (World.step env op w).1.heap := by
  by_cases hop : op.isValueOp
  · exact SameShape.sameIds (kept_step (env := env) (w := w) hop).2
  · cases op with
    | setConstant r b =>
      intro r'
      simp only [World.step, World.onHeap, mutate, Heap.set]
      split
      · rename_i e; subst e; exact LawfulVar.id_setConst _ _
      · rfl
    | addVariable _ => exact fun _ => rfl
    | addFactor _ => exact fun _ => rfl
    | finalize => exact fun _ => rfl
    | _ => exact absurd trivial hop

theorem lists_step {env : Env F V} {op : Op F V} {w : World F V} (h1 : ∀ p, op ≠ .addVariable p)
    (h2 : ∀ p, op ≠ .addFactor p) : (World.step env op w).1.graph.varsVec = w.graph.varsVec ∧
      (World.step env op w).1.graph.facs = w.graph.facs := by
  by_cases hop : op.isValueOp
  · have := (kept_step (env := env) (w := w) hop).1
    exact ⟨this.varsVec, this.facs⟩
  · cases op with
    | setConstant r b => exact ⟨rfl, rfl⟩
    | addVariable p => exact absurd rfl (h1 p)
    | addFactor p => exact absurd rfl (h2 p)
    | finalize =>
      by_cases hw : WellPosed w.heap w.graph.varsVec w.graph.facs
      · obtain ⟨g', e, hl, h1, h2, h3, h4, _⟩ := finalize_ok hw
        simp only [World.step, World.onGraph, e]
        exact ⟨h2, h4⟩
      · obtain ⟨g', e, hl, h1, h2, h3, h4, _⟩ := finalize_threw hw
        simp only [World.step, World.onGraph, e]
        exact ⟨h2, h4⟩
    | _ => exact absurd trivial hop

theorem lists_runs {evs : List (Op F V × Res Unit)} {w w' : World F V} (hrun : World.Runs w evs w')
    (hh : Hist w.heap w.graph) (key : VRef → Int) (hkey : ∀ r, VarLike.id (w.heap r) = key r) :
    w'.graph.varsVec = (offeredVars evs).foldl
      (fun acc x => if acc.any (fun a => key a == key x) then acc else acc ++ [x]) w.graph.varsVec ∧
    w'.graph.facs = (offeredFactors evs).foldl
      (fun acc x => if acc.any (fun a => a.id == x.id) then acc else acc ++ [x]) w.graph.facs := by
  induction hrun with
  | nil w => exact ⟨rfl, rfl⟩
  | @cons w w1 w2 op evs r env hs hne _ ih =>
    have hh1 := hist_step (env := env) (op := op) hh
    have hi := ids_step (env := env) (op := op) (w := w)
    rw [hs] at hh1 hi
    obtain ⟨i1, i2⟩ := ih hh1 (fun r => by rw [← hkey r]; exact hi r)
    by_cases ha : ∃ p, op = .addVariable p
    · obtain ⟨p, rfl⟩ := ha
      cases p with
      | none =>
        exfalso
        simp only [World.step, World.onGraph, addVariable, SE.undefined, Res.void, Prod.mk.injEq] at hs
        exact hne hs.2.symm
      | some r0 =>
        have hmem : (w.graph.varsMap (VarLike.id (w.heap r0))).isSome =
            w.graph.varsVec.any (fun a => key a == key r0) := by
          rw [Bool.eq_iff_iff]
          simp only [Option.isSome_iff_exists, List.any_eq_true, beq_iff_eq, hh.reg.vars, ← hkey]
        simp only [World.step, World.onGraph, addVariable, hmem] at hs
        have ho : offeredVars ((Op.addVariable (some r0), r) :: evs) = r0 :: offeredVars evs := rfl
        have ho' : offeredFactors ((Op.addVariable (some r0), r) :: evs) = offeredFactors evs := rfl
        rw [ho, ho', List.foldl_cons, i1, i2]
        split at hs <;> rename_i hany <;> simp only [Prod.mk.injEq] at hs <;> obtain ⟨hs1, _⟩ := hs <;> subst hs1
        · simp [hany]
        · simp [hany]
    · by_cases hb : ∃ p, op = .addFactor p
      · obtain ⟨p, rfl⟩ := hb
        cases p with
        | none =>
          exfalso
          simp only [World.step, World.onGraph, addFactor, SE.undefined, Res.void, Prod.mk.injEq] at hs
          exact hne hs.2.symm
        | some f0 =>
          have hmem : (w.graph.facsMap f0.id).isSome = w.graph.facs.any (fun a => a.id == f0.id) := by
            rw [Bool.eq_iff_iff]
            simp only [Option.isSome_iff_exists, List.any_eq_true, beq_iff_eq, hh.reg.facs]
          simp only [World.step, World.onGraph, addFactor, hmem] at hs
          have ho : offeredFactors ((Op.addFactor (some f0), r) :: evs) = f0 :: offeredFactors evs := rfl
          have ho' : offeredVars ((Op.addFactor (some f0), r) :: evs) = offeredVars evs := rfl
          rw [ho, ho', List.foldl_cons, i1, i2]
          split at hs <;> rename_i hany <;> simp only [Prod.mk.injEq] at hs <;> obtain ⟨hs1, _⟩ := hs <;> subst hs1
          · simp [hany]
          · simp [hany]
      · have hl := lists_step (env := env) (w := w) (fun p e => ha ⟨p, e⟩) (fun p e => hb ⟨p, e⟩)
        rw [hs] at hl
        simp only at hl
        have ho : offeredVars ((op, r) :: evs) = offeredVars evs := by
          cases op with
          | addVariable p => exact absurd ⟨p, rfl⟩ ha
          | _ => rfl
        have ho' : offeredFactors ((op, r) :: evs) = offeredFactors evs := by
          cases op with
          | addFactor p => exact absurd ⟨p, rfl⟩ hb
          | _ => rfl
        rw [ho, ho', i1, i2, hl.1, hl.2]
        exact ⟨rfl, rfl⟩

end Factorama.Graph
