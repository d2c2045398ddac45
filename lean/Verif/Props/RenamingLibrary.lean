import Verif.Props.Renaming
import Verif.Lemmas.RenamingLibrary
import Verif.Lemmas.Variables

/-!
# C132 for the variables and factors of the library
-/

namespace Factorama.Props
open Spec Graph Opt Geo Matrix
variable {Fact : Type}

/-- **C132 for the library**: for programs that use the variable and factor classes of the library, ids are only names. -/
theorem C132_library_partial (A : Arith ℝ) (L : LinAlg ℝ Fact) {h h' : Heap RVar} (hh : OtherIds (F := ℝ) SameUpToId h h')
    {τ : Int → Int} (hτ : Distinct τ) {evs : List (Call ℝ RVar × Res Unit)}
    (hb : ∀ f r, (.user (.addFactor (some f)), r) ∈ evs → ∃ h0 c, Built h0 c f)
    {s : OptWorld ℝ RVar Fact} (hrun : Runs A L (Opt.init A h) evs s) :
    ∃ s', Runs A L (Opt.init A h') (renamedCalls τ evs) s' ∧ SameExceptIds A L SameUpToId τ s s' :=
  C132_partial Ids.library_differ A L hh hτ
    (fun f r hf => by obtain ⟨h0, c, hc⟩ := hb f r hf; exact Ids.library_ignores h0 c f hc) hrun

namespace C132
/-- A pose and a landmark. -/
noncomputable def scene (i j : Int) : Heap RVar
  | 0 => .pose (.make i ![0, 0, 0] ![0, 0, 1])
  | _ => .landmark (.make j ![1, 2, 3])

theorem scene_other : OtherIds (F := ℝ) SameUpToId (scene 1 2) (scene 7 4) := by
  constructor
  · intro r
    match r with
    | 0 => exact ⟨7, rfl⟩
    | _ + 1 => exact ⟨4, rfl⟩
  · intro r r'
    match r, r' with
    | 0, 0 => simp
    | 0, _ + 1 => simp [VarLike.id, scene, PoseVar.make, PoseVar.recompute, LandmarkVar.make]
    | _ + 1, 0 => simp [VarLike.id, scene, PoseVar.make, PoseVar.recompute, LandmarkVar.make]
    | _ + 1, _ + 1 => simp [VarLike.id, scene, LandmarkVar.make]

/-- The pose, the landmark, and a bearing. -/
noncomputable def sightCalls : List (Call ℝ RVar × Res Unit) :=
  [(.user (.addVariable (some 0)), .ok ()), (.user (.addVariable (some 1)), .ok ()),
   (.user (.addFactor (some (Fac.bearingObservation 5 0 1 ![1, 0, 0] 1))), .ok ())]
end C132

example (A : Arith ℝ) (L : LinAlg ℝ Fact) (env : Env ℝ RVar) : ∃ s s' : OptWorld ℝ RVar Fact,
    Runs A L (Opt.init A (C132.scene 1 2)) C132.sightCalls s ∧
    Runs A L (Opt.init A (C132.scene 7 4)) (renamedCalls (· + 3) C132.sightCalls) s' ∧
    SameExceptIds A L SameUpToId (· + 3) s s' := by
  obtain ⟨s, hs⟩ : ∃ s : OptWorld ℝ RVar Fact, Runs A L (Opt.init A (C132.scene 1 2)) C132.sightCalls s :=
    ⟨_, .cons env rfl (by simp) (.cons env rfl (by simp) (.cons env rfl (by simp) (.nil _)))⟩
  obtain ⟨s', h1, h2⟩ := C132_library_partial A L C132.scene_other (τ := (· + 3)) (fun i j h => by simpa using h)
    (fun f r hf => by
      simp only [C132.sightCalls, List.mem_cons, Prod.mk.injEq, Call.user.injEq, reduceCtorEq, Op.addFactor.injEq, Option.some.injEq,
        false_and, false_or, List.not_mem_nil, or_false] at hf
      rw [hf.1]
      exact ⟨C132.scene 1 2, _, .bearingObservation (v := .make 1 ![0, 0, 0] ![0, 0, 1]) (x := .make 2 ![1, 2, 3]) _ _ _ _ _ rfl rfl⟩) hs
  exact ⟨s, s', hs, h1, h2⟩

end Factorama.Props
