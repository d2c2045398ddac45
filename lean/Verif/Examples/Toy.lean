import Verif.Lemmas.Lists
import Verif.Model.Generic

/-!
# A concrete graph and an executable runner, for non-vacuity examples and counterexamples

Scalars are integers, variables are `GenericVariable`s, factors are `GenericPriorFactor`s and
`GenericBetweenFactor`s.
-/

namespace Factorama.Toy
open Spec Graph

/-- The undetermined choices resolved in the simplest way. -/
def env : Env Int (GenVar Int) := ⟨id, fun _ => .refl _, fun _ => 77⟩

/-- The undetermined choices resolved in the opposite way: reverse hash order. -/
def envRev : Env Int (GenVar Int) := ⟨List.reverse, fun l => List.reverse_perm l, fun _ => -99⟩

section run
variable {F V : Type} [Zero F] [VarLike F V]

/-- Run a list of calls. -/
def exec (env : Env F V) : List (Op F V) → World F V → World F V
  | [], w => w
  | op :: ops, w => exec env ops (World.step env op w).1

/-- Outcomes of a list of calls. -/
def outcomes (env : Env F V) : List (Op F V) → World F V → List (Res Unit)
  | [], _ => []
  | op :: ops, w => (World.step env op w).2 :: outcomes env ops (World.step env op w).1

theorem exec_runs (env : Env F V) (ops : List (Op F V)) (w : World F V) (h : Res.ub ∉ outcomes env ops w) :
    World.Runs w (ops.zip (outcomes env ops w)) (exec env ops w) := by
  induction ops generalizing w with
  | nil => exact .nil w
  | cons op ops ih =>
    simp only [outcomes, List.mem_cons, not_or] at h
    exact .cons env rfl (fun e => h.1 e.symm) (ih _ h.2)

theorem outcomes_append (env : Env F V) (ops ops' : List (Op F V)) (w : World F V) :
    outcomes env (ops ++ ops') w = outcomes env ops w ++ outcomes env ops' (exec env ops w) := by
  induction ops generalizing w with
  | nil => rfl
  | cons op ops ih => simp [outcomes, exec, ih]

theorem outcomes_length (env : Env F V) (ops : List (Op F V)) (w : World F V) :
    (outcomes env ops w).length = ops.length := by
  induction ops generalizing w with
  | nil => rfl
  | cons op ops ih => simp [outcomes, ih]

theorem exec_finalizedAfter (env : Env F V) (h0 : Heap V) (pre post : List (Op F V))
    (hub : Res.ub ∉ outcomes env (pre ++ .finalize :: post) (World.init h0))
    (hfin : (World.step env .finalize (exec env pre (World.init h0))).2 = .ok ())
    (hpost : ∀ op ∈ post, op.isValueOp) :
    FinalizedAfter h0 (pre.zip (outcomes env pre (World.init h0)))
      (post.zip (outcomes env post (exec env (pre ++ [.finalize]) (World.init h0))))
      (exec env (pre ++ .finalize :: post) (World.init h0)) := by
  have happ : ∀ (a b : List (Op F V)) w, exec env (a ++ b) w = exec env b (exec env a w) := by
    intro a
    induction a with
    | nil => intro b w; rfl
    | cons x a ih => intro b w; simp [exec, ih]
  refine ⟨?_, fun ev hev => ?_⟩
  · have := exec_runs env _ _ hub
    have he : (pre ++ Op.finalize :: post).zip (outcomes env (pre ++ .finalize :: post) (World.init h0)) =
        pre.zip (outcomes env pre (World.init h0)) ++ (.finalize, .ok ()) ::
          post.zip (outcomes env post (exec env (pre ++ [.finalize]) (World.init h0))) := by
      rw [outcomes_append, List.zip_append (by simp [outcomes_length])]
      simp only [outcomes, List.zip_cons_cons, hfin, happ, exec]
    rw [he] at this
    exact this
  · obtain ⟨op, r⟩ := ev
    exact hpost op (List.of_mem_zip hev).1

end run

/-- Four variables: two free ones of sizes 2 and 2, two constants of sizes 1 and 2. -/
def heap : Heap (GenVar Int)
  | 0 => ⟨1, false, [5, 7]⟩
  | 1 => ⟨2, true, [3]⟩
  | 2 => ⟨3, false, [1, 1]⟩
  | _ => ⟨4, true, [0, 1]⟩

/-- A prior on a free variable, a between factor on two free variables and a constant. -/
def facs : List (Factor Int (GenVar Int)) :=
  [genericPrior 10 0 [4, 4] 2, genericBetween 11 0 2 3 2 3]

/-- Building calls, including a refused duplicate and a failing premature finalization. -/
def build : List (Op Int (GenVar Int)) :=
  [.addVariable (some 0), .finalize, .addVariable (some 1), .addVariable (some 2), .addVariable (some 0),
   .addVariable (some 3), .addFactor facs[0]?, .addFactor facs[1]?]

/-- Evaluations and value changes after finalization. -/
def later : List (Op Int (GenVar Int)) :=
  [.residual, .sparse, .dense, .applyIncrement [1, 2, 3, 4], .sparse, .setVector [9, 8, 7, 6], .applyIncrement [1],
   .denseAndResidual, .setValue 0 [1]]

/-- The world after building, finalizing and the later calls. -/
def world : World Int (GenVar Int) := exec env (build ++ .finalize :: later) (World.init heap)

theorem outcomes_eq : outcomes env (build ++ .finalize :: later) (World.init heap) =
    [.ok (), .threw, .ok (), .ok (), .threw, .ok (), .ok (), .ok (), .ok (),
     .ok (), .ok (), .ok (), .ok (), .ok (), .ok (), .threw, .ok (), .threw] := by decide +kernel

theorem finalizedAfter : FinalizedAfter heap (build.zip (outcomes env build (World.init heap)))
    (later.zip (outcomes env later (exec env (build ++ [.finalize]) (World.init heap)))) world := by
  apply exec_finalizedAfter
  · rw [outcomes_eq]; decide
  · decide +kernel
  · intro op hop
    simp only [later, List.mem_cons, List.not_mem_nil, or_false] at hop
    rcases hop with h | h | h | h | h | h | h | h | h <;> subst h <;> trivial

theorem noJacobianYet : NoJacobianYet (build.zip (outcomes env build (World.init heap))) := by
  have hb : ∀ op ∈ build, op ≠ .dense ∧ op ≠ .denseAndResidual ∧ op ≠ .sparse := by
    intro op hop
    simp only [build, List.mem_cons, List.not_mem_nil, or_false] at hop
    rcases hop with h | h | h | h | h | h | h | h <;> subst h <;> simp
  refine ⟨fun h => ?_, fun h => ?_, fun h => ?_, fun h => ?_⟩
  · exact (hb _ (List.of_mem_zip h).1).1 rfl
  · exact (hb _ (List.of_mem_zip h).1).2.1 rfl
  · exact (hb _ (List.of_mem_zip h).1).2.1 rfl
  · exact (hb _ (List.of_mem_zip h).1).2.2 rfl

theorem facs_eq : world.graph.getAllFactors = facs := by
  have h := (lists_runs (exec_runs env (build ++ .finalize :: later) (World.init heap)
    (by rw [outcomes_eq]; decide)) (Hist.init heap) _ (fun _ => rfl)).2
  rw [outcomes_eq] at h
  exact h
theorem vars_eq : world.graph.getAllVariables = [0, 1, 2, 3] := by decide +kernel
theorem numValues_eq : world.graph.numValues = 4 := by decide +kernel

theorem mem_facs {f : Factor Int (GenVar Int)} (h : f ∈ world.graph.getAllFactors) :
    f = genericPrior 10 0 [4, 4] 2 ∨ f = genericBetween 11 0 2 3 2 3 := by
  rw [facs_eq] at h
  simpa [facs] using h

theorem id_eq : VarLike.id (world.heap 0) = 1 ∧ VarLike.id (world.heap 1) = 2 ∧ VarLike.id (world.heap 2) = 3 ∧
    VarLike.id (world.heap 3) = 4 := by decide +kernel

theorem const_eq : VarLike.isConst (world.heap 0) = false ∧ VarLike.isConst (world.heap 1) = true ∧
    VarLike.isConst (world.heap 2) = false ∧ VarLike.isConst (world.heap 3) = true := by decide +kernel

theorem value_eq : VarLike.value (world.heap 0) = [9, 8] ∧ VarLike.value (world.heap 2) = [7, 6] ∧
    VarLike.value (world.heap 3) = [0, 1] := by decide +kernel

theorem identify : IdsIdentify world.heap world.graph.getAllVariables world.graph.getAllFactors := by
  obtain ⟨i0, i1, i2, i3⟩ := id_eq
  intro f hf v hv r hr e
  rw [vars_eq] at hr
  have hv' : v = 0 ∨ v = 2 ∨ v = 3 := by
    rcases mem_facs hf with h | h <;> subst h
    · exact Or.inl (by simpa [genericPrior] using hv)
    · simpa [genericBetween] using hv
  simp only [List.mem_cons, List.not_mem_nil, or_false] at hr
  rcases hr with h | h | h | h <;> subst h <;> rcases hv' with h | h | h <;> subst h <;> first
    | rfl
    | (simp only [i0, i1, i2, i3] at e; exact absurd e (by decide))

theorem noRepeats : NoRepeats world.graph.getAllFactors := by
  intro f hf p q r h1 h2
  rcases mem_facs hf with h | h <;> subst h
  · simp only [genericPrior] at h1 h2
    have hp := (List.getElem?_eq_some_iff.mp h1).1
    have hq := (List.getElem?_eq_some_iff.mp h2).1
    simp at hp hq; omega
  · simp only [genericBetween] at h1 h2
    match p, q with
    | 0, 0 | 1, 1 | 2, 2 => rfl
    | 0, 1 | 0, 2 | 1, 0 | 1, 2 | 2, 0 | 2, 1 => simp at h1 h2; subst h1; exact absurd h2 (by decide)
    | p + 3, _ => simp at h1
    | _, q + 3 => simp at h2

theorem reuseSafe : ∀ f ∈ world.graph.getAllFactors, ReuseSafe f := by
  intro f hf h buf _
  rcases mem_facs hf with h | h <;> subst h <;> rfl

/-- The Jacobian blocks of the two factors at the final values. -/
def blocks : Nat → List (Mat Int)
  | 0 => [Mat.diag 2 2]
  | _ => [Mat.diag 2 (-3), Mat.diag 2 3, Mat.empty]

theorem blocks_ok : ∀ (k : Nat) f, world.graph.getAllFactors[k]? = some f →
    f.computeJacobians world.heap [] = .ok (blocks k) ∧ ProperBlocks world.heap f (blocks k) := by
  obtain ⟨c0, c1, c2, c3⟩ := const_eq
  obtain ⟨v0, v2, v3⟩ := value_eq
  have s0 : VarLike.size (world.heap 0) = 2 := by decide +kernel
  have s2 : VarLike.size (world.heap 2) = 2 := by decide +kernel
  intro k f hf
  rw [facs_eq] at hf
  match k with
  | 0 =>
    obtain rfl : genericPrior 10 0 [4, 4] 2 = f := by simpa [facs] using hf
    refine ⟨by simp [genericPrior, c0, blocks], ?_⟩
    intro p r hp
    match p with
    | 0 =>
      obtain rfl : 0 = r := by simpa [genericPrior] using hp
      exact ⟨Mat.diag 2 2, rfl, by simp [c0], fun _ => ⟨rfl, rfl, by rw [s0]; rfl⟩⟩
    | p + 1 => simp [genericPrior] at hp
  | 1 =>
    obtain rfl : genericBetween 11 0 2 3 2 3 = f := by simpa [facs] using hf
    refine ⟨by simp [genericBetween, betweenBlock, c0, c2, c3, blocks], ?_⟩
    intro p r hp
    match p with
    | 0 =>
      obtain rfl : 0 = r := by simpa [genericBetween] using hp
      exact ⟨Mat.diag 2 (-3), rfl, by simp [c0], fun _ => ⟨rfl, rfl, by rw [s0]; rfl⟩⟩
    | 1 =>
      obtain rfl : 2 = r := by simpa [genericBetween] using hp
      exact ⟨Mat.diag 2 3, rfl, by simp [c2], fun _ => ⟨rfl, rfl, by rw [s2]; rfl⟩⟩
    | 2 =>
      obtain rfl : 3 = r := by simpa [genericBetween] using hp
      exact ⟨Mat.empty, rfl, fun _ => rfl, by simp [c3]⟩
    | p + 3 => simp [genericBetween] at hp
  | k + 2 => simp [facs] at hf

theorem free : ∃ f ∈ world.graph.getAllFactors, ∃ r, some r ∈ f.variables ∧ VarLike.isConst (world.heap r) = false :=
  ⟨genericPrior 10 0 [4, 4] 2, by rw [facs_eq]; simp [facs], 0, by simp [genericPrior], const_eq.1⟩

end Factorama.Toy
