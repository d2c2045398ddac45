import Verif.Examples.Toy
import Verif.Spec.Optimizer

/-!
# A small graph over any scalar type

Two free variables `a`, `c` of size 1 and a constant `m`; the residual is `(u (a − p), v (c − a − m), w (c − q))`.
-/

namespace Factorama.TinyWorld
open Spec Graph Toy
variable {F : Type} [Zero F] [Add F] [Sub F] [Mul F] [Neg F] (a c m p q u v w : F)

def env (x : F) : Env F (GenVar F) := ⟨id, fun _ => .refl _, fun _ => x⟩

def heap : Heap (GenVar F)
  | 0 => ⟨1, false, [a]⟩
  | 1 => ⟨2, false, [c]⟩
  | _ => ⟨3, true, [m]⟩

def facs : List (Factor F (GenVar F)) :=
  [genericPrior 10 0 [p] u, genericBetween 11 0 1 2 1 v, genericPrior 12 1 [q] w]

def build : List (Op F (GenVar F)) :=
  [.addVariable (some 0), .addVariable (some 1), .addVariable (some 2), .addFactor (some (genericPrior 10 0 [p] u)),
    .addFactor (some (genericBetween 11 0 1 2 1 v)), .addFactor (some (genericPrior 12 1 [q] w))]

/-- The world after building, finalizing and evaluating the sparse Jacobian. -/
def world : World F (GenVar F) := exec (env a) (build p q u v w ++ .finalize :: [.sparse]) (World.init (heap a c m))

theorem outcomes_eq : outcomes (env a) (build p q u v w ++ .finalize :: [.sparse]) (World.init (heap a c m)) =
      [.ok (), .ok (), .ok (), .ok (), .ok (), .ok (), .ok (), .ok ()] := by cbv

theorem finalizedAfter : FinalizedAfter (heap a c m)
    ((build p q u v w).zip (outcomes (env a) (build p q u v w) (World.init (heap a c m))))
    ([.sparse].zip (outcomes (env a) [.sparse] (exec (env a) (build p q u v w ++ [.finalize]) (World.init (heap a c m)))))
    (world a c m p q u v w) :=
  exec_finalizedAfter (env a) (heap a c m) (build p q u v w) [.sparse] (by rw [outcomes_eq]; decide) (by cbv) (by simp [Op.isValueOp])

/-- The sparse Jacobian of the graph. -/
def jac : SpMat F := ⟨3, [⟨2, [(0, u), (1, -v)]⟩, ⟨2, [(1, v), (2, w)]⟩], 4⟩

theorem sparse_eq : (world a c m p q u v w).graph.sparseJacobian = .ok (jac u v w) := by cbv

theorem vars_eq : (world a c m p q u v w).graph.getAllVariables = [0, 1, 2] := by cbv
theorem placement_eq : (world a c m p q u v w).graph.variablePlacement (VarLike.id ((world a c m p q u v w).heap 0)) =
    some ⟨0, 0, 1⟩ := by cbv
theorem isConst_eq : VarLike.isConst (F := F) ((world a c m p q u v w).heap 0) = false := by cbv
theorem size_eq : VarLike.size (F := F) ((world a c m p q u v w).heap 0) = 1 := by cbv

theorem heap_eq : (world a c m p q u v w).heap = heap a c m := by
  funext r
  match r with
  | 0 => cbv
  | 1 => cbv
  | _ + 2 => cbv

theorem facs_eq : (world a c m p q u v w).graph.getAllFactors = facs p q u v w := by cbv

attribute [irreducible] world

theorem noJacobianYet : NoJacobianYet ((build p q u v w).zip (outcomes (env a) (build p q u v w) (World.init (heap a c m)))) := by
  have hb : ∀ op ∈ build p q u v w, op ≠ .dense ∧ op ≠ .denseAndResidual ∧ op ≠ .sparse := by
    intro op hop
    simp only [build, List.mem_cons, List.not_mem_nil, or_false] at hop
    rcases hop with h | h | h | h | h | h <;> subst h <;> simp
  refine ⟨fun h => ?_, fun h => ?_, fun h => ?_, fun h => ?_⟩
  · exact (hb _ (List.of_mem_zip h).1).1 rfl
  · exact (hb _ (List.of_mem_zip h).1).2.1 rfl
  · exact (hb _ (List.of_mem_zip h).1).2.1 rfl
  · exact (hb _ (List.of_mem_zip h).1).2.2 rfl

/-- The constness pattern and sizes. -/
def Inv (h : Heap (GenVar F)) : Prop :=
  (h 0).isConst = false ∧ (h 1).isConst = false ∧ (h 2).isConst = true ∧ ∀ r, r < 3 → (h r).value.length = 1

theorem inv_heap : Inv (heap a c m) := by
  refine ⟨rfl, rfl, rfl, fun r hr => ?_⟩
  match r, hr with
  | 0, _ => rfl
  | 1, _ => rfl
  | 2, _ => rfl

theorem inv_shape {h : Heap (GenVar F)} (hs : SameShape (world a c m p q u v w).heap h) : Inv h := by
  rw [heap_eq] at hs
  obtain ⟨c0, c1, c2, hl⟩ := inv_heap a c m
  refine ⟨((hs 0).2.1).trans c0, ((hs 1).2.1).trans c1, ((hs 2).2.1).trans c2, fun r hr => ?_⟩
  exact ((hs r).2.2).trans (hl r hr)

theorem proper_prior {h : Heap (GenVar F)} {r : VRef} {id : Int} {x y : F} (hc : (h r).isConst = false)
    (hl : (h r).value.length = 1) : ProperBlocks h (genericPrior id r [x] y) [Mat.diag 1 y] := by
  intro k r' hp
  match k with
  | 0 =>
    obtain rfl : r = r' := by simpa [genericPrior] using hp
    refine ⟨Mat.diag 1 y, rfl, fun hc' => ?_, fun _ => ⟨rfl, rfl, hl.symm⟩⟩
    simp only [VarLike.isConst] at hc'
    rw [hc] at hc'
    exact absurd hc' (by simp)
  | k + 1 => simp [genericPrior] at hp

theorem proper_between {h : Heap (GenVar F)} (hi : Inv h) (id : Int) (y : F) : ProperBlocks h (genericBetween id 0 1 2 1 y)
    [Mat.diag 1 (-y), Mat.diag 1 y, Mat.empty] := by
  obtain ⟨c0, c1, c2, hl⟩ := hi
  intro p r hp
  match p with
  | 0 =>
    obtain rfl : 0 = r := by simpa [genericBetween] using hp
    refine ⟨_, rfl, fun hc => ?_, fun _ => ⟨rfl, rfl, (hl 0 (by decide)).symm⟩⟩
    simp only [VarLike.isConst] at hc
    rw [hc] at c0
    exact absurd c0 (by simp)
  | 1 =>
    obtain rfl : 1 = r := by simpa [genericBetween] using hp
    refine ⟨_, rfl, fun hc => ?_, fun _ => ⟨rfl, rfl, (hl 1 (by decide)).symm⟩⟩
    simp only [VarLike.isConst] at hc
    rw [hc] at c1
    exact absurd c1 (by simp)
  | 2 =>
    obtain rfl : 2 = r := by simpa [genericBetween] using hp
    refine ⟨_, rfl, fun _ => rfl, fun hc => ?_⟩
    simp only [VarLike.isConst] at hc
    rw [hc] at c2
    exact absurd c2 (by simp)
  | p + 3 => simp [genericBetween] at hp

/-- The Jacobian blocks of the three factors. -/
theorem jacobians {h : Heap (GenVar F)} (hi : Inv h) {f : Factor F (GenVar F)} (hf : f ∈ facs p q u v w) (buf : List (Mat F)) :
    ∃ js, f.computeJacobians h buf = .ok js ∧ ProperBlocks h f js := by
  simp only [facs, List.mem_cons, List.not_mem_nil, or_false] at hf
  rcases hf with rfl | rfl | rfl
  · exact ⟨_, by simp [genericPrior, VarLike.isConst, hi.1], proper_prior hi.1 (hi.2.2.2 0 (by decide))⟩
  · exact ⟨_, by simp [genericBetween, betweenBlock, VarLike.isConst, hi.1, hi.2.1, hi.2.2.1], proper_between hi 11 v⟩
  · exact ⟨_, by simp [genericPrior, VarLike.isConst, hi.2.1], proper_prior hi.2.1 (hi.2.2.2 1 (by decide))⟩

theorem proper : ∀ h, SameShape (world a c m p q u v w).heap h → ∀ f ∈ (world a c m p q u v w).graph.getAllFactors, ∀ js,
    f.computeJacobians h [] = .ok js → ProperBlocks h f js := by
  rw [facs_eq]
  intro h hs f hf js hjs
  obtain ⟨js', h1, h2⟩ := jacobians p q u v w (inv_shape a c m p q u v w hs) hf []
  rw [h1] at hjs
  obtain rfl := Res.ok.inj hjs
  exact h2

theorem identify : IdsIdentify (world a c m p q u v w).heap (world a c m p q u v w).graph.getAllVariables
    (world a c m p q u v w).graph.getAllFactors := by
  rw [facs_eq, vars_eq, heap_eq]
  have key : ∀ x ∈ [0, 1, 2], ∀ r ∈ [0, 1, 2], VarLike.id (F := F) (heap a c m r) = VarLike.id (F := F) (heap a c m x) → r = x := by
    intro x hx r hr e
    simp only [List.mem_cons, List.not_mem_nil, or_false] at hx hr
    rcases hx with rfl | rfl | rfl <;> rcases hr with rfl | rfl | rfl <;> simp [heap, VarLike.id] at e ⊢
  intro f hf x hx r hr e
  refine key x ?_ r hr e
  simp only [facs, List.mem_cons, List.not_mem_nil, or_false] at hf
  rcases hf with rfl | rfl | rfl
  · simp [genericPrior] at hx; simp [hx]
  · simp [genericBetween] at hx
    simpa using hx
  · simp [genericPrior] at hx; simp [hx]

theorem noRepeats : NoRepeats (world a c m p q u v w).graph.getAllFactors := by
  rw [facs_eq]
  intro f hf k l r hp hq
  simp only [facs, List.mem_cons, List.not_mem_nil, or_false] at hf
  rcases hf with rfl | rfl | rfl
  · match k, l with
    | 0, 0 => rfl
    | k + 1, _ => simp [genericPrior] at hp
    | _, l + 1 => simp [genericPrior] at hq
  · match k, l with
    | 0, 0 => rfl
    | 1, 1 => rfl
    | 2, 2 => rfl
    | 0, 1 | 0, 2 | 1, 0 | 1, 2 | 2, 0 | 2, 1 => simp [genericBetween] at hp hq; subst hp; exact absurd hq (by decide)
    | k + 3, _ => simp [genericBetween] at hp
    | _, l + 3 => simp [genericBetween] at hq
  · match k, l with
    | 0, 0 => rfl
    | k + 1, _ => simp [genericPrior] at hp
    | _, l + 1 => simp [genericPrior] at hq

theorem reuseSafe : ∀ f ∈ (world a c m p q u v w).graph.getAllFactors, ReuseSafe f := by
  rw [facs_eq]
  intro f hf h buf _
  simp only [facs, List.mem_cons, List.not_mem_nil, or_false] at hf
  rcases hf with rfl | rfl | rfl <;> rfl

/-- The residual of the graph. -/
theorem residual_eq (h : Heap (GenVar F)) {a c m : F} (ha : (h 0).value = [a]) (hc : (h 1).value = [c]) (hm : (h 2).value = [m])
    (r : List F) : IsResidual h (facs p q u v w) r ↔ r = [u * (a - p), v * (c - a - m), w * (c - q)] := by
  have h0 : (genericPrior 10 0 [p] u : Factor F (GenVar F)).computeResidual h = .ok [u * (a - p)] := by
    simp [genericPrior, VarLike.value, ha, vecSub]
  have h1 : (genericBetween 11 0 1 2 1 v : Factor F (GenVar F)).computeResidual h = .ok [v * (c - a - m)] := by
    simp [genericBetween, VarLike.value, ha, hc, hm, vecSub]
  have h2 : (genericPrior 12 1 [q] w : Factor F (GenVar F)).computeResidual h = .ok [w * (c - q)] := by
    simp [genericPrior, VarLike.value, hc, vecSub]
  constructor
  · rintro ⟨segs, hl, hs, rfl⟩
    obtain ⟨s0, e0, f0, _⟩ := hs 0 _ rfl
    obtain ⟨s1, e1, f1, _⟩ := hs 1 _ rfl
    obtain ⟨s2, e2, f2, _⟩ := hs 2 _ rfl
    rw [h0] at f0
    rw [h1] at f1
    rw [h2] at f2
    obtain rfl := Res.ok.inj f0
    obtain rfl := Res.ok.inj f1
    obtain rfl := Res.ok.inj f2
    match segs, hl with
    | [x, y, z], _ =>
      simp at e0 e1 e2
      subst e0 e1 e2
      rfl
  · rintro rfl
    refine ⟨[[u * (a - p)], [v * (c - a - m)], [w * (c - q)]], rfl, fun k f hk => ?_, rfl⟩
    match k with
    | 0 => obtain rfl := Option.some.inj hk; exact ⟨_, rfl, h0, rfl⟩
    | 1 => obtain rfl := Option.some.inj hk; exact ⟨_, rfl, h1, rfl⟩
    | 2 => obtain rfl := Option.some.inj hk; exact ⟨_, rfl, h2, rfl⟩
    | k + 3 => simp [facs] at hk

end Factorama.TinyWorld
