import Verif.Examples.TinyWorld
import Verif.Spec.Unused

/-!
# Graphs over the variables of the small graph with other lists of factors

Priors on `a` and `c` and differences of `a` and `c`, in any number.
-/

namespace Factorama.TinyGroups
open Spec Graph Toy TinyWorld
variable {F : Type} [Zero F] [Add F] [Sub F] [Mul F] [Neg F] (a c m : F)

/-- The kinds of factors. -/
def Good (f : Factor F (GenVar F)) : Prop :=
  (∃ id p u, f = genericPrior id 0 [p] u) ∨ (∃ id p u, f = genericPrior id 1 [p] u) ∨ ∃ id v, f = genericBetween id 0 1 2 1 v

def build (fs : List (Factor F (GenVar F))) : List (Op F (GenVar F)) :=
  [.addVariable (some 0), .addVariable (some 1), .addVariable (some 2)] ++ fs.map fun f => .addFactor (some f)

/-- The world after building and finalizing. -/
def world (fs : List (Factor F (GenVar F))) : World F (GenVar F) := exec (env a) (build fs ++ .finalize :: []) (World.init (heap a c m))

/-- The facts that follow by evaluation for a concrete list. -/
structure Built (fs : List (Factor F (GenVar F))) : Prop where
  outcomes : ∀ x ∈ outcomes (env a) (build fs ++ .finalize :: []) (World.init (heap a c m)), x = .ok ()
  finalizes : (World.step (env a) .finalize (exec (env a) (build fs) (World.init (heap a c m)))).2 = .ok ()
  vars : (world a c m fs).graph.getAllVariables = [0, 1, 2]
  facs : (world a c m fs).graph.getAllFactors = fs
  heap : (world a c m fs).heap = heap a c m

variable {a c m} {fs : List (Factor F (GenVar F))}

theorem noJacobianYet : NoJacobianYet ((build fs).zip (outcomes (env a) (build fs) (World.init (heap a c m))) ++ []) := by
  have hb : ∀ op ∈ build fs, op ≠ .dense ∧ op ≠ .denseAndResidual ∧ op ≠ .sparse := by
    intro op hop
    simp only [build, List.mem_cons, List.mem_append, List.not_mem_nil, or_false, List.mem_map] at hop
    rcases hop with (h | h | h) | ⟨f, _, h⟩ <;> subst h <;> simp
  rw [List.append_nil]
  refine ⟨fun h => ?_, fun h => ?_, fun h => ?_, fun h => ?_⟩
  · exact (hb _ (List.of_mem_zip h).1).1 rfl
  · exact (hb _ (List.of_mem_zip h).1).2.1 rfl
  · exact (hb _ (List.of_mem_zip h).1).2.1 rfl
  · exact (hb _ (List.of_mem_zip h).1).2.2 rfl

theorem jacobians {h : Heap (GenVar F)} (hi : Inv h) {f : Factor F (GenVar F)} (hf : Good f) (buf : List (Mat F)) :
    ∃ js, f.computeJacobians h buf = .ok js ∧ ProperBlocks h f js := by
  rcases hf with ⟨id, p, u, rfl⟩ | ⟨id, p, u, rfl⟩ | ⟨id, v, rfl⟩
  · exact ⟨_, by simp [genericPrior, VarLike.isConst, hi.1], proper_prior hi.1 (hi.2.2.2 0 (by decide))⟩
  · exact ⟨_, by simp [genericPrior, VarLike.isConst, hi.2.1], proper_prior hi.2.1 (hi.2.2.2 1 (by decide))⟩
  · exact ⟨_, by simp [genericBetween, betweenBlock, VarLike.isConst, hi.1, hi.2.1, hi.2.2.1], proper_between hi id v⟩

/-- These graphs are ready for an optimizer. -/
theorem unused (hb : Built a c m fs) (hg : ∀ f ∈ fs, Good f) : Unused (world a c m fs) where
  history := by
    have := exec_finalizedAfter (env a) (TinyWorld.heap a c m) (build fs) []
      (by intro hx; have := hb.outcomes _ hx; cases this) hb.finalizes (by simp)
    rw [List.zip_nil_left] at this
    exact ⟨_, _, _, this, noJacobianYet⟩
  ids := by
    rw [hb.facs, hb.vars, hb.heap]
    have key : ∀ x ∈ [0, 1, 2], ∀ r ∈ [0, 1, 2],
        VarLike.id (F := F) (TinyWorld.heap a c m r) = VarLike.id (F := F) (TinyWorld.heap a c m x) → r = x := by
      intro x hx r hr e
      simp only [List.mem_cons, List.not_mem_nil, or_false] at hx hr
      rcases hx with rfl | rfl | rfl <;> rcases hr with rfl | rfl | rfl <;> simp [TinyWorld.heap, VarLike.id] at e ⊢
    intro f hf x hx r hr e
    refine key x ?_ r hr e
    rcases hg f hf with ⟨id, p, u, rfl⟩ | ⟨id, p, u, rfl⟩ | ⟨id, v, rfl⟩
    · simp [genericPrior] at hx; simp [hx]
    · simp [genericPrior] at hx; simp [hx]
    · simp [genericBetween] at hx
      simpa using hx
  noRepeats := by
    rw [hb.facs]
    intro f hf k l r hp hq
    rcases hg f hf with ⟨id, p, u, rfl⟩ | ⟨id, p, u, rfl⟩ | ⟨id, v, rfl⟩
    · match k, l with
      | 0, 0 => rfl
      | k + 1, _ => simp [genericPrior] at hp
      | _, l + 1 => simp [genericPrior] at hq
    · match k, l with
      | 0, 0 => rfl
      | k + 1, _ => simp [genericPrior] at hp
      | _, l + 1 => simp [genericPrior] at hq
    · match k, l with
      | 0, 0 => rfl
      | 1, 1 => rfl
      | 2, 2 => rfl
      | 0, 1 | 0, 2 | 1, 0 | 1, 2 | 2, 0 | 2, 1 => simp [genericBetween] at hp hq; subst hp; exact absurd hq (by decide)
      | k + 3, _ => simp [genericBetween] at hp
      | _, l + 3 => simp [genericBetween] at hq
  safe := by
    rw [hb.facs]
    intro f hf h buf _
    rcases hg f hf with ⟨id, p, u, rfl⟩ | ⟨id, p, u, rfl⟩ | ⟨id, v, rfl⟩ <;> rfl
  proper := by
    rw [hb.facs, hb.heap]
    intro h hs f hf js hjs
    have hi : Inv h := by
      obtain ⟨c0, c1, c2, hl⟩ := inv_heap a c m
      exact ⟨((hs 0).2.1).trans c0, ((hs 1).2.1).trans c1, ((hs 2).2.1).trans c2, fun r hr => ((hs r).2.2).trans (hl r hr)⟩
    obtain ⟨js', h1, h2⟩ := jacobians hi (hg f hf) []
    rw [h1] at hjs
    obtain rfl := Res.ok.inj hjs
    exact h2

/-- The original graph. -/
def once (p q u v w : F) : List (Factor F (GenVar F)) :=
  [genericPrior 10 0 [p] u, genericBetween 11 0 1 2 1 v, genericPrior 12 1 [q] w]

/-- Two priors on `a` in place of one. -/
def twice (p q u u' v w : F) : List (Factor F (GenVar F)) :=
  [genericPrior 10 0 [p] u, genericPrior 13 0 [p] u', genericBetween 11 0 1 2 1 v, genericPrior 12 1 [q] w]

/-- Two priors on `a` that may differ, and a prior on `c`. -/
def direct (p p' q u u' w : F) : List (Factor F (GenVar F)) :=
  [genericPrior 10 0 [p] u, genericPrior 13 0 [p'] u', genericPrior 12 1 [q] w]

theorem good_direct (p p' q u u' w : F) : ∀ f ∈ direct p p' q u u' w, Good f := by
  intro f hf
  simp only [direct, List.mem_cons, List.not_mem_nil, or_false] at hf
  rcases hf with rfl | rfl | rfl
  · exact .inl ⟨_, _, _, rfl⟩
  · exact .inl ⟨_, _, _, rfl⟩
  · exact .inr (.inl ⟨_, _, _, rfl⟩)

theorem good_once (p q u v w : F) : ∀ f ∈ once p q u v w, Good f := by
  intro f hf
  simp only [once, List.mem_cons, List.not_mem_nil, or_false] at hf
  rcases hf with rfl | rfl | rfl
  · exact .inl ⟨_, _, _, rfl⟩
  · exact .inr (.inr ⟨_, _, rfl⟩)
  · exact .inr (.inl ⟨_, _, _, rfl⟩)

theorem good_twice (p q u u' v w : F) : ∀ f ∈ twice p q u u' v w, Good f := by
  intro f hf
  simp only [twice, List.mem_cons, List.not_mem_nil, or_false] at hf
  rcases hf with rfl | rfl | rfl | rfl
  · exact .inl ⟨_, _, _, rfl⟩
  · exact .inl ⟨_, _, _, rfl⟩
  · exact .inr (.inr ⟨_, _, rfl⟩)
  · exact .inr (.inl ⟨_, _, _, rfl⟩)

theorem built_once (a c m p q u v w : F) : Built a c m (once p q u v w) where
  outcomes := by
    have : Toy.outcomes (env a) (build (once p q u v w) ++ .finalize :: []) (World.init (heap a c m)) =
      [.ok (), .ok (), .ok (), .ok (), .ok (), .ok (), .ok ()] := by cbv
    rw [this]; simp
  finalizes := by cbv
  vars := by cbv
  facs := by cbv
  heap := by
    funext r
    match r with
    | 0 => cbv
    | 1 => cbv
    | _ + 2 => cbv

theorem built_twice (a c m p q u u' v w : F) : Built a c m (twice p q u u' v w) where
  outcomes := by
    have : Toy.outcomes (env a) (build (twice p q u u' v w) ++ .finalize :: []) (World.init (heap a c m)) =
      [.ok (), .ok (), .ok (), .ok (), .ok (), .ok (), .ok (), .ok ()] := by cbv
    rw [this]; simp
  finalizes := by cbv
  vars := by cbv
  facs := by cbv
  heap := by
    funext r
    match r with
    | 0 => cbv
    | 1 => cbv
    | _ + 2 => cbv

/-- As many residuals as free values. -/
def chain (p u v : F) : List (Factor F (GenVar F)) := [genericPrior 10 0 [p] u, genericBetween 11 0 1 2 1 v]

theorem good_chain (p u v : F) : ∀ f ∈ chain p u v, Good f := by
  intro f hf
  simp only [chain, List.mem_cons, List.not_mem_nil, or_false] at hf
  rcases hf with rfl | rfl
  · exact .inl ⟨_, _, _, rfl⟩
  · exact .inr (.inr ⟨_, _, rfl⟩)

theorem built_chain (a c m p u v : F) : Built a c m (chain p u v) where
  outcomes := by
    have : Toy.outcomes (env a) (build (chain p u v) ++ .finalize :: []) (World.init (heap a c m)) =
      [.ok (), .ok (), .ok (), .ok (), .ok (), .ok ()] := by cbv
    rw [this]; simp
  finalizes := by cbv
  vars := by cbv
  facs := by cbv
  heap := by
    funext r
    match r with
    | 0 => cbv
    | 1 => cbv
    | _ + 2 => cbv

theorem built_direct (a c m p p' q u u' w : F) : Built a c m (direct p p' q u u' w) where
  outcomes := by
    have : Toy.outcomes (env a) (build (direct p p' q u u' w) ++ .finalize :: []) (World.init (heap a c m)) =
      [.ok (), .ok (), .ok (), .ok (), .ok (), .ok (), .ok ()] := by cbv
    rw [this]; simp
  finalizes := by cbv
  vars := by cbv
  facs := by cbv
  heap := by
    funext r
    match r with
    | 0 => cbv
    | 1 => cbv
    | _ + 2 => cbv

attribute [irreducible] world

end Factorama.TinyGroups
