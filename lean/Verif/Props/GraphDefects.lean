import Verif.Lemmas.Defects
import Verif.Props.GraphStructure
import Verif.Props.GraphEval

/-!
# Properties the graph does not have: C08, C12, C13 (factors), C14, C15, C16

For each property: its full statement is refuted by a concrete program (`…_false`), and what does hold is proved with
the suffix `_partial`. The programs run on `GenericVariable`s, `GenericPriorFactor`s and `GenericBetweenFactor`s with
integer values; every one of them is a legal sequence of calls without undefined behaviour up to the last call.
-/

set_option linter.unusedSectionVars false

namespace Factorama.Props
open Spec Graph
variable {F V : Type} [Zero F] [VarLike F V] [LawfulVar F V]

/-! ### C08: the same variable in two roles -/

/-- Sum of the blocks a factor reports for variable `r`, at `(i, j)`. -/
def summedBlock [Add F] (f : Factor F V) (js : List (Mat F)) (r : VRef) (i j : Nat) : F :=
  (((f.variables.zip js).filter fun vJ => vJ.1 == some r).map fun vJ => vJ.2.entry i j).foldl (· + ·) 0

namespace C08
/-- A free variable and a constant measured difference. -/
def heap : Heap (GenVar Int)
  | 0 => ⟨1, false, [5]⟩
  | _ => ⟨2, true, [0]⟩
/-- The difference of a variable to itself. -/
def fac : Factor Int (GenVar Int) := genericBetween 10 0 0 1 1 3
def build : List (Op Int (GenVar Int)) := [.addVariable (some 0), .addVariable (some 1), .addFactor (some fac)]
def world : World Int (GenVar Int) := Toy.exec Toy.env (build ++ [.finalize]) (World.init heap)
theorem finalizedAfter : FinalizedAfter heap (build.zip (Toy.outcomes Toy.env build (World.init heap))) [] world :=
  Toy.exec_finalizedAfter Toy.env heap build [] (by decide +kernel) (by decide +kernel) (by simp)
theorem facs_eq : world.graph.getAllFactors = [fac] := by
  have h := (C01_factors finalizedAfter.1).1
  rw [h]; rfl
end C08

/-- **C08 is false** (dense). The claim: in a finalized graph the entries in the rows of a factor and the columns of a
free variable are the sum of the blocks the factor reports for that variable. For `x - x` the sum of the two blocks is
zero (the residual does not depend on `x`); the dense Jacobian has the last block only. -/
theorem C08_dense_false : ¬ ∀ (h0 : Heap (GenVar Int)) (pre post : List (Op Int (GenVar Int) × Res Unit))
    (w : World Int (GenVar Int)), FinalizedAfter h0 pre post w → NoJacobianYet pre →
    ∀ (blocks : Nat → List (Mat Int)), (∀ (k : Nat) f, w.graph.getAllFactors[k]? = some f →
      f.computeJacobians w.heap [] = .ok (blocks k) ∧ ProperBlocks w.heap f (blocks k)) →
    ∀ env g' J, computeDense env w.heap w.graph = (g', .ok J) →
    ∀ (k : Nat) f, w.graph.getAllFactors[k]? = some f → ∀ r ∈ w.graph.getAllVariables,
      VarLike.isConst (w.heap r) = false → ∀ i j, i < f.residualSize → j < VarLike.size (w.heap r) →
      J.entry (rowStart w.graph.getAllFactors k + i) (colStart w.heap w.graph.getAllVariables r + j) =
        summedBlock f (blocks k) r i j := by
  intro H
  have hv : (VarLike.isConst (C08.world.heap 0) = false ∧ VarLike.isConst (C08.world.heap 1) = true) ∧
      VarLike.size (C08.world.heap 0) = 1 := by decide +kernel
  have hb : ∀ (k : Nat) f, C08.world.graph.getAllFactors[k]? = some f →
      f.computeJacobians C08.world.heap [] = .ok [Mat.diag 1 (-3), Mat.diag 1 3, Mat.empty] ∧
      ProperBlocks C08.world.heap f [Mat.diag 1 (-3), Mat.diag 1 3, Mat.empty] := by
    intro k f hf
    rw [C08.facs_eq] at hf
    match k with
    | 0 =>
      obtain rfl : C08.fac = f := by simpa using hf
      refine ⟨by simp [C08.fac, genericBetween, betweenBlock, hv.1], ?_⟩
      intro p r hp
      match p with
      | 0 =>
        obtain rfl : 0 = r := by simpa [C08.fac, genericBetween] using hp
        exact ⟨_, rfl, by simp [hv.1], fun _ => ⟨rfl, rfl, by rw [hv.2]; rfl⟩⟩
      | 1 =>
        obtain rfl : 0 = r := by simpa [C08.fac, genericBetween] using hp
        exact ⟨_, rfl, by simp [hv.1], fun _ => ⟨rfl, rfl, by rw [hv.2]; rfl⟩⟩
      | 2 =>
        obtain rfl : 1 = r := by simpa [C08.fac, genericBetween] using hp
        exact ⟨_, rfl, fun _ => rfl, by simp [hv.1]⟩
      | p + 3 => simp [C08.fac, genericBetween] at hp
    | k + 1 => simp at hf
  have hd : ∃ g' J, computeDense Toy.env C08.world.heap C08.world.graph = (g', .ok J) ∧ J.entry 0 0 = 3 := by
    have : (match (computeDense Toy.env C08.world.heap C08.world.graph).2 with
      | .ok J => some (J.entry 0 0) | _ => none) = some 3 := by decide +kernel
    revert this
    cases hc : computeDense Toy.env C08.world.heap C08.world.graph with
    | mk g' r =>
      cases r with
      | ok J => intro this; exact ⟨g', J, rfl, by simpa using this⟩
      | threw => simp
      | ub => simp
  obtain ⟨g', J, hJ, h3⟩ := hd
  have hno : NoJacobianYet (C08.build.zip (Toy.outcomes Toy.env C08.build (World.init C08.heap))) := by
    simp [NoJacobianYet, C08.build, Toy.outcomes]
  have h := H _ _ _ _ C08.finalizedAfter hno (fun _ => [Mat.diag 1 (-3), Mat.diag 1 3, Mat.empty]) hb
    Toy.env g' J hJ 0 C08.fac (by rw [C08.facs_eq]; rfl) 0 (by decide +kernel) (by decide +kernel) 0 0 (by decide)
    (by decide +kernel)
  have hr : rowStart C08.world.graph.getAllFactors 0 = 0 := rfl
  have hc : colStart C08.world.heap C08.world.graph.getAllVariables 0 = 0 := by decide +kernel
  rw [hr, hc, h3] at h
  exact absurd h (by decide +kernel)

/-- **C08 is false** (sparse): with such a factor the first sparse evaluation succeeds and the second one throws. -/
theorem C08_sparse_false : Toy.outcomes Toy.env (C08.build ++ [.finalize, .sparse, .sparse]) (World.init C08.heap) =
    [.ok (), .ok (), .ok (), .ok (), .ok (), .threw] := by decide +kernel

/-- **C08, the part that holds**: if every factor lists a variable at most once, the sum of its blocks is what the
dense Jacobian contains. -/
theorem C08_partial [Add F] (zero_add : ∀ x : F, 0 + x = x) {h0 : Heap V} {pre post : List (Op F V × Res Unit)}
    {w : World F V} (hw : FinalizedAfter h0 pre post w) (hpre : NoJacobianYet pre)
    (hid : IdsIdentify w.heap w.graph.getAllVariables w.graph.getAllFactors) (hnr : NoRepeats w.graph.getAllFactors)
    (blocks : Nat → List (Mat F))
    (hblocks : ∀ (k : Nat) f, w.graph.getAllFactors[k]? = some f →
      f.computeJacobians w.heap [] = .ok (blocks k) ∧ ProperBlocks w.heap f (blocks k)) (env : Env F V) :
    ∃ g' J, computeDense env w.heap w.graph = (g', .ok J) ∧
      ∀ (k : Nat) f, w.graph.getAllFactors[k]? = some f → ∀ r ∈ w.graph.getAllVariables,
      VarLike.isConst (w.heap r) = false → ∀ i j, i < f.residualSize → j < VarLike.size (w.heap r) →
      J.entry (rowStart w.graph.getAllFactors k + i) (colStart w.heap w.graph.getAllVariables r + j) =
        summedBlock f (blocks k) r i j := by
  obtain ⟨g', J, e1, _, _, _, e2⟩ := C06_dense hw hpre hid hnr blocks hblocks env
  refine ⟨g', J, e1, fun k f hf r hr hc i j hi hj => ?_⟩
  have hsum : ∀ (vs : List (Option VRef)) (js : List (Mat F)),
      (∀ (p q : Nat), vs[p]? = some (some r) → vs[q]? = some (some r) → p = q) →
      (∀ (p : Nat) J', vs[p]? = some (some r) → js[p]? = some J' →
        (((vs.zip js).filter fun vJ => vJ.1 == some r).map fun vJ => vJ.2.entry i j) = [J'.entry i j]) ∧
      ((some r ∉ vs) → (((vs.zip js).filter fun vJ => vJ.1 == some r).map fun vJ => vJ.2.entry i j) = []) := by
    intro vs
    induction vs with
    | nil => intro js _; exact ⟨fun p J' hp => by simp at hp, fun _ => rfl⟩
    | cons v vs ih =>
      intro js huniq
      cases js with
      | nil => exact ⟨fun p J' _ hJ' => by simp at hJ', fun _ => rfl⟩
      | cons J0 js =>
        have huniq' : ∀ (p q : Nat), vs[p]? = some (some r) → vs[q]? = some (some r) → p = q := by
          intro p q hp hq
          have := huniq (p + 1) (q + 1) (by simpa using hp) (by simpa using hq)
          omega
        obtain ⟨ih1, ih2⟩ := ih js huniq'
        by_cases hv : v = some r
        · have hnot : some r ∉ vs := by
            intro hm
            obtain ⟨q, hq⟩ := List.mem_iff_getElem?.mp hm
            have := huniq 0 (q + 1) (by simp [hv]) (by simpa using hq)
            omega
          refine ⟨fun p J' hp hJ' => ?_, fun hm => absurd (by simp [hv]) hm⟩
          have hp0 : 0 = p := huniq 0 p (by simp [hv]) hp
          subst hp0
          have : J0 = J' := by simpa using hJ'
          subst this
          simp only [List.zip_cons_cons, hv, List.filter_cons, beq_self_eq_true, if_true, List.map_cons, ih2 hnot]
        · have hf : (v == some r) = false := by simpa using hv
          refine ⟨fun p J' hp hJ' => ?_, fun hm => ?_⟩
          · cases p with
            | zero => simp at hp; exact absurd hp hv
            | succ p =>
              simp only [List.zip_cons_cons, List.filter_cons, hf]
              exact ih1 p J' (by simpa using hp) (by simpa using hJ')
          · simp only [List.zip_cons_cons, List.filter_cons, hf]
            exact ih2 (by simp at hm; exact hm.2)
  obtain ⟨s1, s2⟩ := hsum f.variables (blocks k) (fun p q hp hq => hnr f (List.mem_of_getElem? hf) p q r hp hq)
  obtain ⟨d1, d2⟩ := e2 k f hf i hi
  by_cases hm : some r ∈ f.variables
  · obtain ⟨p, hp⟩ := List.mem_iff_getElem?.mp hm
    obtain ⟨J', hJ', _⟩ := (hblocks k f hf).2 p r hp
    rw [d1 p r J' hp hc hJ' j hj, summedBlock, s1 p J' hp hJ']
    simp [zero_add]
  · rw [d2 r hr hc hm j hj, summedBlock, s2 hm]
    rfl

example := C08_partial (F := Int) (by simp) Toy.finalizedAfter Toy.noJacobianYet Toy.identify Toy.noRepeats Toy.blocks
  Toy.blocks_ok Toy.envRev

/-! ### C12: extending and finalizing again -/

namespace C12
/-- One more free variable with a prior, added to the example graph. -/
def heap : Heap (GenVar Int) := fun r => if r = 4 then ⟨9, false, [1]⟩ else Toy.heap r
def more : List (Op Int (GenVar Int)) := [.addVariable (some 4), .addFactor (some (genericPrior 12 4 [0] 5)), .finalize]
end C12

/-- **C12 is false** (sparse): evaluate, extend, finalize again — the next sparse evaluation throws. -/
theorem C12_sparse_false :
    Toy.outcomes Toy.env (Toy.build ++ [.finalize, .sparse] ++ C12.more ++ [.sparse]) (World.init C12.heap) =
    [.ok (), .threw, .ok (), .ok (), .threw, .ok (), .ok (), .ok (), .ok (), .ok (), .ok (), .ok (), .ok (), .threw] := by
  decide +kernel

/-- **C12 is false** (sparse), in general: once a sparse Jacobian has been computed, no sparse evaluation after a later
finalization ever succeeds, whatever the graph (as long as some factor uses one of its free variables). -/
theorem C12_sparse_never_again {h0 : Heap V} {pre post : List (Op F V × Res Unit)} {w : World F V}
    (hw : FinalizedAfter h0 pre post w) (hsp : (.sparse, .ok ()) ∈ pre)
    (hex : ∃ f ∈ w.graph.getAllFactors, 0 < f.residualSize ∧ ∃ r ∈ w.graph.getAllVariables, some r ∈ f.variables ∧
      VarLike.isConst (w.heap r) = false ∧ 0 < VarLike.size (w.heap r)) (m : SpMat F) :
    (computeSparse w.heap w.graph).2 ≠ .ok m :=
  (computeSparse_dead (dead_of_refinalize hw hsp hex)).2 m

namespace C12
/-- The program of `C12_sparse_false` up to the second finalization. -/
def ops : List (Op Int (GenVar Int)) := Toy.build ++ [.finalize, .sparse] ++ more.take 2
def world : World Int (GenVar Int) := Toy.exec Toy.env (ops ++ [.finalize]) (World.init heap)
theorem finalizedAfter : FinalizedAfter heap (ops.zip (Toy.outcomes Toy.env ops (World.init heap))) [] world :=
  Toy.exec_finalizedAfter Toy.env heap ops [] (by decide +kernel) (by decide +kernel) (by simp)
theorem outcomes_eq : Toy.outcomes Toy.env ops (World.init heap) =
    [.ok (), .threw, .ok (), .ok (), .threw, .ok (), .ok (), .ok (), .ok (), .ok (), .ok (), .ok ()] := by
  decide +kernel
theorem facs_eq : world.graph.getAllFactors =
    [genericPrior 10 0 [4, 4] 2, genericBetween 11 0 2 3 2 3, genericPrior 12 4 [0] 5] := by
  have h := (C01_factors finalizedAfter.1).1
  rw [outcomes_eq] at h
  rw [h]; rfl
end C12

/-- The hypotheses are met by the program of `C12_sparse_false`. -/
example (m : SpMat Int) : (computeSparse C12.world.heap C12.world.graph).2 ≠ .ok m :=
  C12_sparse_never_again C12.finalizedAfter (by rw [C12.outcomes_eq]; simp [C12.ops, Toy.build, C12.more])
    ⟨genericPrior 12 4 [0] 5, by rw [C12.facs_eq]; simp, by decide, 4, by decide +kernel, by simp [genericPrior],
      by decide +kernel, by decide +kernel⟩ m

/-- **C12 is false** (dense): evaluate, extend, finalize again — the next dense evaluation throws. -/
theorem C12_dense_false :
    Toy.outcomes Toy.env (Toy.build ++ [.finalize, .dense] ++ C12.more ++ [.dense]) (World.init C12.heap) =
    [.ok (), .threw, .ok (), .ok (), .threw, .ok (), .ok (), .ok (), .ok (), .ok (), .ok (), .ok (), .ok (), .threw] := by
  decide +kernel

/-- **C12, the part that holds**, residuals: after any history that ends with a successful finalization (and value
changes), the residual is the concatenation of the residuals of all current factors. -/
theorem C12_residual_partial {h0 : Heap V} {pre post : List (Op F V × Res Unit)} {w : World F V}
    (hw : FinalizedAfter h0 pre post w) (segs : List (List F)) (hlen : segs.length = w.graph.getAllFactors.length)
    (hseg : ∀ (k : Nat) f, w.graph.getAllFactors[k]? = some f → ∃ s, segs[k]? = some s ∧
      f.computeResidual w.heap = .ok s ∧ s.length = f.residualSize) (env : Env F V) :
    ∃ g', computeResidual env w.heap w.graph = (g', .ok segs.flatten) :=
  let ⟨g', h, _⟩ := (C05_residual hw segs hlen hseg env).1
  ⟨g', h⟩

namespace C12
/-- A graph that is finalized, evaluated, extended by a variable and a prior, and finalized again. -/
def heap₂ : Heap (GenVar Int)
  | 0 => ⟨1, false, [5, 7]⟩
  | _ => ⟨2, false, [3]⟩
def first : List (Op Int (GenVar Int)) := [.addVariable (some 0), .addFactor (some (genericPrior 10 0 [4, 4] 2))]
def second : List (Op Int (GenVar Int)) :=
  [.residual, .addVariable (some 1), .addFactor (some (genericPrior 11 1 [1] 3))]
def world₂ : World Int (GenVar Int) :=
  Toy.exec Toy.env ((first ++ .finalize :: second) ++ .finalize :: [.residual]) (World.init heap₂)
theorem outcomes₂ : Toy.outcomes Toy.env (first ++ .finalize :: second) (World.init heap₂) =
    [.ok (), .ok (), .ok (), .ok (), .ok (), .ok ()] := by decide +kernel
theorem finalizedAfter₂ : FinalizedAfter heap₂
    (first.zip [.ok (), .ok ()] ++ (.finalize, .ok ()) :: second.zip [.ok (), .ok (), .ok ()]) [(.residual, .ok ())] world₂ := by
  have h := Toy.exec_finalizedAfter Toy.env heap₂ (first ++ .finalize :: second) [.residual] (by decide +kernel)
    (by decide +kernel) (by simp [Op.isValueOp])
  rw [outcomes₂, show Toy.outcomes Toy.env [.residual]
    (Toy.exec Toy.env ((first ++ .finalize :: second) ++ [.finalize]) (World.init heap₂)) = [.ok ()] by decide +kernel] at h
  exact h
theorem vars₂ : world₂.graph.getAllVariables = [0, 1] := by decide +kernel
theorem facs₂ : world₂.graph.getAllFactors = [genericPrior 10 0 [4, 4] 2, genericPrior 11 1 [1] 3] :=
  (C01_factors finalizedAfter₂.1).1
theorem mem₂ {f : Factor Int (GenVar Int)} (h : f ∈ world₂.graph.getAllFactors) :
    f = genericPrior 10 0 [4, 4] 2 ∨ f = genericPrior 11 1 [1] 3 := by
  rw [facs₂] at h; simpa using h
theorem heap₂_eq : world₂.heap 0 = ⟨1, false, [5, 7]⟩ ∧ world₂.heap 1 = ⟨2, false, [3]⟩ := by decide +kernel
end C12

/-- The second residual has the rows of both priors. -/
example : ∃ g', computeResidual Toy.envRev C12.world₂.heap C12.world₂.graph = (g', .ok [2, 6, 6]) := by
  refine C12_residual_partial C12.finalizedAfter₂ [[2, 6], [6]] (by rw [C12.facs₂]; rfl) (fun k f hf => ?_) _
  obtain ⟨h0, h1⟩ := C12.heap₂_eq
  rw [C12.facs₂] at hf
  match k with
  | 0 =>
    obtain rfl : genericPrior 10 0 [4, 4] 2 = f := by simpa using hf
    exact ⟨_, rfl, by simp only [genericPrior, h0]; rfl, rfl⟩
  | 1 =>
    obtain rfl : genericPrior 11 1 [1] 3 = f := by simpa using hf
    exact ⟨_, rfl, by simp only [genericPrior, h1]; rfl, rfl⟩
  | k + 2 => simp at hf

/-- **C12, the part that holds**, Jacobians: if no Jacobian was computed before the last finalization (there may have
been earlier finalizations, residual evaluations and additions), dense and sparse Jacobians are those of the extended
graph. -/
theorem C12_jacobians_partial {h0 : Heap V} {pre1 pre2 post : List (Op F V × Res Unit)} {w : World F V}
    (hw : FinalizedAfter h0 (pre1 ++ (.finalize, .ok ()) :: pre2) post w)
    (hpre : NoJacobianYet (pre1 ++ (.finalize, .ok ()) :: pre2))
    (hid : IdsIdentify w.heap w.graph.getAllVariables w.graph.getAllFactors) (hnr : NoRepeats w.graph.getAllFactors)
    (hsafe : ∀ f ∈ w.graph.getAllFactors, ReuseSafe f) (blocks : Nat → List (Mat F))
    (hblocks : ∀ (k : Nat) f, w.graph.getAllFactors[k]? = some f →
      f.computeJacobians w.heap [] = .ok (blocks k) ∧ ProperBlocks w.heap f (blocks k))
    (hfree : ∃ f ∈ w.graph.getAllFactors, ∃ r, some r ∈ f.variables ∧ VarLike.isConst (w.heap r) = false)
    (env : Env F V) :
    (∃ g' J, computeDense env w.heap w.graph = (g', .ok J) ∧
      IsStackedJacobian w.heap w.graph.getAllVariables w.graph.getAllFactors blocks J.entry) ∧
    (∃ g' m, computeSparse w.heap w.graph = (g', .ok m) ∧
      IsStackedJacobian w.heap w.graph.getAllVariables w.graph.getAllFactors blocks m.coeff) := by
  obtain ⟨g1, J, a1, _, _, _, a2⟩ := C06_dense hw hpre hid hnr blocks hblocks env
  obtain ⟨g2, m, b1, _, _, _, b2, _⟩ := C07_sparse hw hpre hid hnr hsafe blocks hblocks hfree
  exact ⟨⟨g1, J, a1, a2⟩, ⟨g2, m, b1, b2⟩⟩

/-- The graph that was extended after a residual evaluation meets the hypotheses. -/
example : (∃ g' J, computeDense Toy.env C12.world₂.heap C12.world₂.graph = (g', .ok J)) ∧
    ∃ g' m, computeSparse C12.world₂.heap C12.world₂.graph = (g', .ok m) := by
  obtain ⟨h0, h1⟩ := C12.heap₂_eq
  obtain ⟨⟨g1, J, a, _⟩, ⟨g2, m, b, _⟩⟩ := C12_jacobians_partial C12.finalizedAfter₂ (by simp [NoJacobianYet, C12.first, C12.second])
    (by
      intro f hf v hv r hr e
      rw [C12.vars₂] at hr
      simp only [List.mem_cons, List.not_mem_nil, or_false] at hr
      rcases C12.mem₂ hf with rfl | rfl <;> simp only [genericPrior, List.mem_singleton, Option.some.injEq] at hv <;>
        subst hv <;> rcases hr with rfl | rfl <;> first
          | rfl
          | (simp only [h0, h1, VarLike.id] at e; exact absurd e (by decide)))
    (by
      intro f hf p q r h1 h2
      rcases C12.mem₂ hf with rfl | rfl <;> simp only [genericPrior] at h1 h2 <;>
        have hp := (List.getElem?_eq_some_iff.mp h1).1 <;> have hq := (List.getElem?_eq_some_iff.mp h2).1 <;>
        simp at hp hq <;> omega)
    (by intro f hf h buf _; rcases C12.mem₂ hf with rfl | rfl <;> rfl)
    (fun k => match k with | 0 => [Mat.diag 2 2] | _ => [Mat.diag 1 3])
    (by
      intro k f hf
      rw [C12.facs₂] at hf
      match k with
      | 0 =>
        obtain rfl : genericPrior 10 0 [4, 4] 2 = f := by simpa using hf
        refine ⟨by simp only [genericPrior, h0]; rfl, fun p r hp => ?_⟩
        match p with
        | 0 =>
          obtain rfl : 0 = r := by simpa [genericPrior] using hp
          exact ⟨Mat.diag 2 2, rfl, by rw [h0]; simp [VarLike.isConst], fun _ => ⟨rfl, rfl, by rw [h0]; rfl⟩⟩
        | p + 1 => simp [genericPrior] at hp
      | 1 =>
        obtain rfl : genericPrior 11 1 [1] 3 = f := by simpa using hf
        refine ⟨by simp only [genericPrior, h1]; rfl, fun p r hp => ?_⟩
        match p with
        | 0 =>
          obtain rfl : 1 = r := by simpa [genericPrior] using hp
          exact ⟨Mat.diag 1 3, rfl, by rw [h1]; simp [VarLike.isConst], fun _ => ⟨rfl, rfl, by rw [h1]; rfl⟩⟩
        | p + 1 => simp [genericPrior] at hp
      | k + 2 => simp at hf)
    ⟨genericPrior 10 0 [4, 4] 2, by rw [C12.facs₂]; simp, 0, by simp [genericPrior], by rw [h0]; rfl⟩ Toy.env
  exact ⟨⟨g1, J, a⟩, g2, m, b⟩

/-! ### C13: factor placements -/

/-- **C13 is false** for factors: `factor_placement(id)` does not find a factor by its id. -/
theorem C13_factor_lookup_false : ¬ ∀ (h0 : Heap (GenVar Int)) (pre post : List (Op Int (GenVar Int) × Res Unit))
    (w : World Int (GenVar Int)), FinalizedAfter h0 pre post w → ∀ f ∈ w.graph.getAllFactors,
    ∃ p, w.graph.factorPlacement f.id = some p ∧ p.factor.id = f.id := by
  intro H
  obtain ⟨p, hp, _⟩ := H _ _ _ _ Toy.finalizedAfter (genericPrior 10 0 [4, 4] 2) (by rw [Toy.facs_eq]; simp [Toy.facs])
  have : (Toy.world.graph.factorPlacement 10).isNone = true := by decide +kernel
  rw [show (genericPrior 10 0 [4, 4] 2 : Factor Int (GenVar Int)).id = 10 from rfl] at hp
  rw [hp] at this
  simp at this

/-- **C13, the part that holds** for factors: the placement is found by id for a factor whose id is its insertion
index. -/
theorem C13_factor_lookup_partial {h0 : Heap V} {pre post : List (Op F V × Res Unit)} {w : World F V}
    (hw : FinalizedAfter h0 pre post w) (f : Factor F V) (before after : List (Factor F V))
    (hf : w.graph.getAllFactors = before ++ f :: after) (hid : f.id = before.length) :
    ∃ p, w.graph.factorPlacement f.id = some p ∧ p.factor = f ∧
      p.residualIndex = (before.map fun f' => f'.residualSize).sum ∧ p.residualDim = f.residualSize := by
  rw [hid]
  exact (C03_rows hw).2.1 before f after hf

/-- A graph whose first factor has id 0. -/
example : ((Toy.exec Toy.env [.addVariable (some 0), .addFactor (some (genericPrior 0 0 [4, 4] 2)), .finalize]
      (World.init Toy.heap)).graph.factorPlacement 0).map (fun p => (p.factor.id, p.residualIndex, p.residualDim)) =
    some (0, 0, 2) := by decide +kernel

/-! ### C14: a failed finalization -/

namespace C14
/-- Evaluate, then add a free variable without any factor: the next finalization is refused. -/
def ops : List (Op Int (GenVar Int)) := Toy.build ++ [.finalize, .sparse, .addVariable (some 4)]
def world : World Int (GenVar Int) := Toy.exec Toy.env ops (World.init C12.heap)
end C14

/-- **C14 is false**: a usable graph (its sparse evaluation returns) on which `finalize_structure()` throws can be left
in a state where the same evaluation is undefined behaviour. -/
theorem C14_false : ¬ ∀ (h0 : Heap (GenVar Int)) (evs : List (Op Int (GenVar Int) × Res Unit))
    (w w' : World Int (GenVar Int)) env, World.Runs (World.init h0) evs w → World.step env .finalize w = (w', .threw) →
    (World.step env .sparse w').2 = (World.step env .sparse w).2 := by
  intro H
  have hr := Toy.exec_runs Toy.env C14.ops (World.init C12.heap) (by decide +kernel)
  have h1 : (World.step Toy.env .finalize C14.world).2 = .threw := by decide +kernel
  have := H _ _ _ (World.step Toy.env .finalize C14.world).1 Toy.env hr (Prod.ext rfl h1)
  have h2 : (World.step Toy.env .sparse (World.step Toy.env .finalize C14.world).1).2 = .ub ∧
      (World.step Toy.env .sparse C14.world).2 = .ok () := by decide +kernel
  rw [h2.1] at this
  exact absurd (this.trans h2.2) (by simp)

/-- **C14, the part that holds**: on a graph that was never finalized successfully, a failed `finalize_structure()` is
harmless. Whatever calls follow, they have the same outcomes and lead to the same variables as if the failed call had
not been made, and once the graph has been finalized the two programs are in the same state. -/
theorem C14_partial {h0 : Heap V} {evs : List (Op F V × Res Unit)} {w w' : World F V} {env : Env F V}
    (hrun : World.Runs (World.init h0) evs w) (hno : (.finalize, .ok ()) ∉ evs)
    (hfin : World.step env .finalize w = (w', .threw)) (evs' : List (Op F V × Res Unit)) (w1 : World F V)
    (hrun' : World.Runs w evs' w1) :
    ∃ w1', World.Runs w' evs' w1' ∧ w1'.heap = w1.heap ∧ (w1.graph.finalized = true → w1' = w1) := by
  have hf := not_finalized hrun hno
  simp only [World.step, World.onGraph, Prod.mk.injEq] at hfin
  obtain ⟨e1, e2⟩ := hfin
  have hthrew : (finalizeStructure w.heap w.graph).2 = .threw := by
    cases h : (finalizeStructure w.heap w.graph).2 with
    | ok a => rw [h] at e2; simp [Res.void] at e2
    | threw => rfl
    | ub => rw [h] at e2; simp [Res.void] at e2
  have hsame := finalize_threw_same hf (h := w.heap) (g' := (finalizeStructure w.heap w.graph).1) (Prod.ext rfl hthrew)
  obtain ⟨w1', r1, r2, r3⟩ := alike_runs hrun' (w' := w') (by rw [← e1]) (Or.inr (by rw [← e1]; exact hsame))
  refine ⟨w1', r1, r2, fun hfin1 => ?_⟩
  rcases r3 with r3 | r3
  · cases w1'; cases w1; simp at r2 r3; simp [r2, r3]
  · rw [r3.fin] at hfin1; simp at hfin1

/-- The hypotheses are met by the premature finalization in the history of the example graph. -/
example : (World.step Toy.env .finalize (Toy.exec Toy.env (Toy.build.take 1) (World.init Toy.heap))).2 = .threw ∧
    Toy.outcomes Toy.env (Toy.build.take 1) (World.init Toy.heap) = [.ok ()] ∧
    Toy.outcomes Toy.env (Toy.build.drop 2 ++ [.finalize, .sparse])
      (Toy.exec Toy.env (Toy.build.take 1) (World.init Toy.heap)) =
      [.ok (), .ok (), .threw, .ok (), .ok (), .ok (), .ok (), .ok ()] := by decide +kernel

/-! ### C15: toggling constness -/

/-- **C15 is false** (made constant): after a dense evaluation, making a variable constant leaves its old, non-zero
columns in all later dense Jacobians. -/
theorem C15_stale_false :
    (match (computeDense Toy.env (Toy.exec Toy.env (Toy.build ++ [.finalize, .dense, .setConstant 0 true])
        (World.init Toy.heap)).heap (Toy.exec Toy.env (Toy.build ++ [.finalize, .dense, .setConstant 0 true])
        (World.init Toy.heap)).graph).2 with
      | .ok J => some (J.entry 0 0) | _ => none) = some 2 := by decide +kernel

/-- **C15 is false** (made free): making a variable free after finalization makes sparse evaluation undefined. -/
theorem C15_sparse_false :
    Toy.outcomes Toy.env (Toy.build ++ [.finalize, .setConstant 3 false, .sparse]) (World.init Toy.heap) =
    [.ok (), .threw, .ok (), .ok (), .threw, .ok (), .ok (), .ok (), .ok (), .ok (), .ub] := by decide +kernel

/-- **C15, the part that holds**: whatever was toggled, a dense evaluation changes only entries in the rows of a placed
factor and the columns assigned to a variable of that factor at finalization; every other entry of a previously
computed Jacobian is kept. -/
theorem C15_dense_writes_partial (env : Env F V) (w : World F V) (J : Mat F) (hJ : w.graph.jacobian = .ok J)
    (i j : Nat)
    (hout : ∀ (k : Nat) fp r p, (k, fp) ∈ w.graph.facPl → some r ∈ fp.factor.variables →
      w.graph.variablePlacement (VarLike.id (w.heap r)) = some p →
      ¬ (fp.residualIndex ≤ i ∧ i < fp.residualIndex + fp.residualDim ∧ p.index ≤ j ∧ j < p.index + p.dim)) :
    ∃ J', (computeDense env w.heap w.graph).1.jacobian = .ok J' ∧ J'.rows = J.rows ∧ J'.cols = J.cols ∧
      J'.entry i j = J.entry i j := by
  have hv : w.graph.jacValid = true ∧ w.graph.cachedJac = J := by
    unfold Graph.jacobian at hJ
    by_cases h : w.graph.jacValid
    · simp [h] at hJ; exact ⟨h, hJ⟩
    · simp [h] at hJ
  unfold computeDense
  split
  · exact ⟨J, hJ, rfl, rfl, rfl⟩
  · obtain ⟨a1, a2, a3⟩ := denseLoop_writes w.graph w.heap (env.order w.graph.facPl) J
    have hno : ¬ InBlock w.graph w.heap (env.order w.graph.facPl) i j := by
      rintro ⟨⟨k, fp⟩, hm, r, hr, p, hp, hh⟩
      exact hout k fp r p ((env.order_perm _).mem_iff.mp hm) hr hp hh
    have a3 := a3 i j hno
    simp only [hv.1, if_true, hv.2]
    split
    · rename_i J' hs; rw [hs] at a1 a2 a3; exact ⟨J', by simp [Graph.jacobian], a1, a2, a3⟩
    · rename_i J' hs; rw [hs] at a1 a2 a3; exact ⟨J', by simp [Graph.jacobian, hv.1], a1, a2, a3⟩
    · rename_i J' hs; rw [hs] at a1 a2 a3; exact ⟨J', by simp [Graph.jacobian, hv.1], a1, a2, a3⟩

/-- In the example graph, after toggling a variable, entry (0, 2) is outside all blocks of the first factor. -/
example : ((Toy.exec Toy.env (Toy.later ++ [.setConstant 0 true]) Toy.world).graph.jacobian matches .ok _) = true := by
  decide +kernel

/-! ### C16: additions after finalization -/

/-- **C16 is false** (factors): adding a factor after finalization makes sparse evaluation undefined. -/
theorem C16_factor_false :
    Toy.outcomes Toy.env (Toy.build ++ [.finalize, .addFactor (some (genericPrior 12 0 [0, 0] 5)), .sparse])
      (World.init Toy.heap) =
    [.ok (), .threw, .ok (), .ok (), .threw, .ok (), .ok (), .ok (), .ok (), .ok (), .ub] := by decide +kernel

/-- **C16 is false** (variables): adding a free variable after finalization makes `set_variable_values_from_vector`
undefined for vectors of the finalized size. -/
theorem C16_variable_false :
    Toy.outcomes Toy.env (Toy.build ++ [.finalize, .addVariable (some 4), .setVector [1, 2, 3, 4]])
      (World.init C12.heap) =
    [.ok (), .threw, .ok (), .ok (), .threw, .ok (), .ok (), .ok (), .ok (), .ok (), .ub] := by decide +kernel

/-- **C16 is false** (factors), in general: after adding a factor to a finalized graph, sparse evaluation never
succeeds. -/
theorem C16_sparse_never {h0 : Heap V} {pre post : List (Op F V × Res Unit)} {w w' : World F V} {env : Env F V}
    (hw : FinalizedAfter h0 pre post w) (f : Factor F V)
    (hadd : World.step env (.addFactor (some f)) w = (w', .ok ())) (m : SpMat F) :
    (computeSparse w'.heap w'.graph).2 ≠ .ok m := by
  have hlen := compsLen_finalizedAfter hw
  simp only [World.step, World.onGraph, addFactor] at hadd
  split at hadd
  · simp [Res.void] at hadd
  · simp only [Prod.mk.injEq] at hadd
    rw [← hadd.1]
    apply computeSparse_more
    simp [hlen]

/-- The hypotheses are met by the example graph and another prior. -/
example (m : SpMat Int) :
    (computeSparse (World.step Toy.env (.addFactor (some (genericPrior 12 0 [0, 0] 5))) Toy.world).1.heap
      (World.step Toy.env (.addFactor (some (genericPrior 12 0 [0, 0] 5))) Toy.world).1.graph).2 ≠ .ok m :=
  C16_sparse_never (env := Toy.env)
    (w' := (World.step Toy.env (.addFactor (some (genericPrior 12 0 [0, 0] 5))) Toy.world).1)
    Toy.finalizedAfter (genericPrior 12 0 [0, 0] 5) (Prod.ext rfl (by decide +kernel)) m

/-- **C16, the part that holds**: residual and dense Jacobian evaluations ignore additions made since the last
finalization. -/
theorem C16_ignored_partial {env : Env F V} {w w' : World F V} {op : Op F V} {r : Res Unit}
    (hop : (∃ f, op = .addFactor (some f)) ∨ ∃ v, op = .addVariable (some v))
    (hstep : World.step env op w = (w', r)) :
    ∀ env', (computeResidual env' w'.heap w'.graph).2 = (computeResidual env' w.heap w.graph).2 ∧
      (∀ buf, computeResidualInto env' w'.graph w'.heap buf = computeResidualInto env' w.graph w.heap buf) ∧
      (computeDense env' w'.heap w'.graph).2 = (computeDense env' w.heap w.graph).2 := by
  have hs : w'.heap = w.heap ∧ SameEval w.graph w'.graph := by
    rcases hop with ⟨f, rfl⟩ | ⟨v, rfl⟩
    · simp only [World.step, World.onGraph, addFactor] at hstep
      split at hstep <;> simp only [Prod.mk.injEq] at hstep <;> rw [← hstep.1] <;>
        exact ⟨rfl, rfl, rfl, rfl, rfl, rfl, rfl, rfl, rfl, rfl⟩
    · simp only [World.step, World.onGraph, addVariable] at hstep
      split at hstep <;> simp only [Prod.mk.injEq] at hstep <;> rw [← hstep.1] <;>
        exact ⟨rfl, rfl, rfl, rfl, rfl, rfl, rfl, rfl, rfl, rfl⟩
  intro env'
  rw [hs.1]
  exact ⟨hs.2.residual env' w.heap, fun buf => hs.2.residualInto env' w.heap buf, hs.2.dense env' w.heap⟩

/-- The residual of the example graph is the same before and after a prior is added. -/
example : (computeResidual Toy.env (World.step Toy.env (.addFactor (some (genericPrior 12 0 [0, 0] 5))) Toy.world).1.heap
      (World.step Toy.env (.addFactor (some (genericPrior 12 0 [0, 0] 5))) Toy.world).1.graph).2 =
    (computeResidual Toy.env Toy.world.heap Toy.world.graph).2 ∧
    (computeResidual Toy.env Toy.world.heap Toy.world.graph).2 = .ok [10, 8, -6, -9] :=
  ⟨(C16_ignored_partial (env := Toy.env) (op := .addFactor (some (genericPrior 12 0 [0, 0] 5))) (.inl ⟨_, rfl⟩) rfl Toy.env).1,
    by decide +kernel⟩

end Factorama.Props
