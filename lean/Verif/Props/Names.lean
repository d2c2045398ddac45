import Verif.Lemmas.Names
import Verif.Props.GraphStructure

/-! # C72, C73, C74: names, types and lookup by class -/

namespace Factorama.Props
open Factorama Spec Graph

/-! ### C72: names -/

/-- **C72**, variables. In every history the variables of a graph have different names. -/
theorem C72_variables {h0 : Heap RVar} {evs : List (Op ℝ RVar × Res Unit)} {w : World ℝ RVar}
    (hrun : World.Runs (World.init h0) evs w) :
    (w.graph.getAllVariables.map fun r => (w.heap r).name).Nodup := by
  have hn := (C01_variables hrun).2.1
  rw [List.nodup_iff_pairwise_ne, List.pairwise_map] at hn ⊢
  exact hn.imp fun h e => h (name_inj e).2

namespace C72
/-- A pose at address 1 and landmarks elsewhere, with the addresses as ids. -/
noncomputable def heap : Heap RVar := fun r =>
  if r = 1 then .pose (PoseVar.make 1 0 0) else .landmark (LandmarkVar.make r 0)

theorem heap_id (r : VRef) : VarLike.id (heap r) = (r : Int) := by
  unfold heap
  split
  · next h => subst h; rfl
  · rfl

/-- Three variables and two factors with different ids are accepted; a variable offered twice is refused. -/
theorem history {f g : Factor ℝ RVar} (hfg : f.id ≠ g.id) :
    ∃ w evs, World.Runs (World.init heap) evs w ∧ w.graph.getAllVariables = [0, 1, 2] ∧
      w.graph.getAllFactors = [f, g] ∧ w.heap = heap ∧ offeredVars evs = [0, 1, 0, 2] := by
  let env : Env ℝ RVar := ⟨id, fun l => .refl l, fun _ => 0⟩
  have hne : (.ok () : Res Unit) ≠ .ub := by simp
  obtain ⟨w1, s1, v1, f1, e1⟩ := (C01_add_variable (World.Runs.nil (World.init heap)) env 0).2
    (fun r' hr' => absurd hr' (by simp [World.init, Graph.init, Graph.getAllVariables]))
  have r1 := World.Runs.cons env s1 hne (World.Runs.nil w1)
  replace v1 : w1.graph.getAllVariables = [0] := v1
  replace f1 : w1.graph.getAllFactors = [] := f1.trans rfl
  replace e1 : w1.heap = heap := e1
  obtain ⟨w2, s2, v2, f2, e2⟩ := (C01_add_variable r1 env 1).2 (fun r' hr' => by
    rw [v1] at hr'; simp only [List.mem_singleton] at hr'; rw [e1, heap_id, heap_id, hr']; decide)
  have r2 := World.Runs.cons env s1 hne (World.Runs.cons env s2 hne (World.Runs.nil w2))
  rw [v1] at v2; rw [f1] at f2; rw [e1] at e2
  have s3 := (C01_add_variable r2 env 0).1 ⟨0, by rw [v2]; simp, rfl⟩
  have hthrew : (.threw : Res Unit) ≠ .ub := by simp
  have r3 := World.Runs.cons env s1 hne (World.Runs.cons env s2 hne (World.Runs.cons env s3 hthrew (World.Runs.nil w2)))
  obtain ⟨w4, s4, v4, f4, e4⟩ := (C01_add_variable r3 env 2).2 (fun r' hr' => by
    rw [v2] at hr'; simp at hr'
    rw [e2, heap_id, heap_id]
    rcases hr' with rfl | rfl <;> decide)
  have r4 := World.Runs.cons env s1 hne (World.Runs.cons env s2 hne (World.Runs.cons env s3 hthrew
    (World.Runs.cons env s4 hne (World.Runs.nil w4))))
  rw [v2] at v4; rw [f2] at f4; rw [e2] at e4
  obtain ⟨w5, s5, f5, v5, e5⟩ := (C01_add_factor r4 env f).2 (fun f' hf' => absurd hf' (by simp [f4]))
  have r5 := World.Runs.cons env s1 hne (World.Runs.cons env s2 hne (World.Runs.cons env s3 hthrew
    (World.Runs.cons env s4 hne (World.Runs.cons env s5 hne (World.Runs.nil w5)))))
  rw [f4] at f5; rw [v4] at v5; rw [e4] at e5
  obtain ⟨w6, s6, f6, v6, e6⟩ := (C01_add_factor r5 env g).2 (fun f' hf' => by
    rw [f5] at hf'
    simp only [List.nil_append, List.mem_singleton] at hf'
    rw [hf']; exact hfg)
  rw [f5] at f6; rw [v5] at v6; rw [e5] at e6
  exact ⟨w6, _, World.Runs.cons env s1 hne (World.Runs.cons env s2 hne (World.Runs.cons env s3 hthrew
    (World.Runs.cons env s4 hne (World.Runs.cons env s5 hne (World.Runs.cons env s6 hne (World.Runs.nil w6)))))),
    v6, f6, e6, rfl⟩

/-- Two priors on the same variable. -/
noncomputable def first : Factor ℝ RVar := genericPrior 10 0 [0, 0, 0] (1 / 1)
/-- Two priors on the same variable, again. -/
noncomputable def second : Factor ℝ RVar := genericPrior 11 0 [1, 1, 1] (1 / 2)

theorem built_first : Built heap .genericPrior first := .genericPrior 10 0 [0, 0, 0] 1 rfl
theorem built_second : Built heap .genericPrior second := .genericPrior 11 0 [1, 1, 1] 2 rfl

theorem name_first : factorName .genericPrior heap first = factorName .genericPrior heap second := rfl
end C72

/-- The names of three variables. -/
example : ∃ (w : World ℝ RVar) (evs : List (Op ℝ RVar × Res Unit)), World.Runs (World.init C72.heap) evs w ∧
    (w.graph.getAllVariables.map fun r => (w.heap r).name) = ["landmark0", "pose1", "landmark2"] := by
  obtain ⟨w, evs, hr, hv, _, hh, _⟩ := C72.history (f := C72.first) (g := C72.second) (by decide)
  refine ⟨w, evs, hr, ?_⟩
  rw [hv, hh]
  rfl

/-- **C72** is false for factors: two priors on the same variable have the same name. -/
theorem C72_false : ∃ (h0 : Heap RVar) (evs : List (Op ℝ RVar × Res Unit)) (w : World ℝ RVar) (c : FactorClass)
    (f g : Factor ℝ RVar), World.Runs (World.init h0) evs w ∧ f ∈ w.graph.getAllFactors ∧ g ∈ w.graph.getAllFactors ∧
      Built w.heap c f ∧ Built w.heap c g ∧ f.id ≠ g.id ∧ factorName c w.heap f = factorName c w.heap g := by
  obtain ⟨w, evs, hr, _, hf, hh, _⟩ := C72.history (f := C72.first) (g := C72.second) (by decide)
  exact ⟨C72.heap, evs, w, .genericPrior, C72.first, C72.second, hr, by simp [hf], by simp [hf],
    hh ▸ C72.built_first, hh ▸ C72.built_second, by decide, hh ▸ C72.name_first⟩

/-- **C72**, factors; two factors can share a name (`C72_false`), but then they have the same class and the same
variables, and unless the class leaves the id out of the name they are the same factor. -/
theorem C72_factors_partial {h0 : Heap RVar} {evs : List (Op ℝ RVar × Res Unit)} {w : World ℝ RVar}
    (hrun : World.Runs (World.init h0) evs w) {c d : FactorClass} {f g : Factor ℝ RVar}
    (hf : f ∈ w.graph.getAllFactors) (hg : g ∈ w.graph.getAllFactors) (hc : Built w.heap c f) (hd : Built w.heap d g)
    (hvf : ∀ r, some r ∈ f.variables → r ∈ w.graph.getAllVariables)
    (hvg : ∀ r, some r ∈ g.variables → r ∈ w.graph.getAllVariables)
    (e : factorName c w.heap f = factorName d w.heap g) :
    c = d ∧ f.variables = g.variables ∧ (NamesItsId c → f = g) := by
  obtain rfl := factorName_class e
  have hid : NamesItsId c → f = g := fun hn => List.inj_on_of_nodup_map (C01_factors hrun).2 hf hg (factorName_id hn e)
  refine ⟨rfl, ?_, hid⟩
  by_cases hn : NamesItsId c
  · rw [hid hn]
  · have hv := factorName_variables hn (built_variables hc).1 (built_variables hd).1 e
    have hr := (built_variables hc).2
    have hr' := (built_variables hd).2
    have hnames := C72_variables hrun
    clear e hid hc hd
    unfold variableNames at hv
    revert hv hr hr' hvf hvg
    generalize f.variables = l
    generalize g.variables = m
    intro hvf hvg hv hr hr'
    induction l generalizing m with
    | nil =>
      cases m with
      | nil => rfl
      | cons q m => obtain ⟨r, rfl⟩ := hr' q (by simp); simp at hv
    | cons p l ih =>
      obtain ⟨r, rfl⟩ := hr p (by simp)
      cases m with
      | nil => simp at hv
      | cons q m =>
        obtain ⟨r', rfl⟩ := hr' q (by simp)
        simp only [List.filterMap_cons, Option.map_some, List.cons.injEq] at hv
        have e1 := List.inj_on_of_nodup_map hnames (hvf r (by simp)) (hvg r' (by simp)) hv.1
        rw [e1, ih m (fun r h => hvf r (List.mem_cons_of_mem _ h)) (fun r h => hvg r (List.mem_cons_of_mem _ h)) hv.2
          (fun p h => hr p (List.mem_cons_of_mem _ h)) (fun p h => hr' p (List.mem_cons_of_mem _ h))]

/-- The two priors of `C72_false` meet the hypotheses. -/
example : ∃ (w : World ℝ RVar) (evs : List (Op ℝ RVar × Res Unit)), World.Runs (World.init C72.heap) evs w ∧
    FactorClass.genericPrior = FactorClass.genericPrior ∧ C72.first.variables = C72.second.variables ∧
      (NamesItsId .genericPrior → C72.first = C72.second) := by
  obtain ⟨w, evs, hr, hv, hf, hh, _⟩ := C72.history (f := C72.first) (g := C72.second) (by decide)
  refine ⟨w, evs, hr, C72_factors_partial hr (by simp [hf]) (by simp [hf]) (hh ▸ C72.built_first)
    (hh ▸ C72.built_second) ?_ ?_ (hh ▸ C72.name_first)⟩ <;>
    (intro r hr; rw [hv]; simp [C72.first, C72.second, genericPrior] at hr; simp [hr])

/-! ### C73: types -/

/-- **C73**, variables: two objects report the same type exactly if they have the same class. -/
theorem C73_variables_partial (v w : RVar) : v.type = w.type ↔ v.cls = w.cls := by
  cases v <;> cases w <;> simp [RVar.type, RVar.cls]

example : (RVar.pose (PoseVar.make 1 0 0)).type ≠ (RVar.landmark (LandmarkVar.make 1 0)).type := by
  rw [Ne, C73_variables_partial]; simp [RVar.cls]

/-- **C73** is false for factors: classes with different residuals report the same type. -/
theorem C73_false : ¬ ∀ c d : FactorClass, factorType c = factorType d → c = d :=
  fun h => absurd (h .linearVelocity .genericBetween rfl) (by simp)

/-- **C73**, factors: the type tells the class up to three pairs of classes. -/
theorem C73_factors_partial (c d : FactorClass) (h : factorType c = factorType d) :
    c = d ∨ (c = .linearVelocity ∧ d = .genericBetween) ∨ (c = .genericBetween ∧ d = .linearVelocity) ∨
      (c = .rotationPrior ∧ d = .poseOrientationPrior) ∨ (c = .poseOrientationPrior ∧ d = .rotationPrior) ∨
      (c = .bearingProjection ∧ d = .bearingObservation) ∨ (c = .bearingObservation ∧ d = .bearingProjection) := by
  cases c <;> cases d <;> first | (simp; done) | exact absurd h (by simp [factorType])

/-- All three pairs do share a type. -/
example : factorType .linearVelocity = factorType .genericBetween ∧
    factorType .rotationPrior = factorType .poseOrientationPrior ∧
    factorType .bearingProjection = factorType .bearingObservation := ⟨rfl, rfl, rfl⟩

/-! ### C74: lookup by class -/

/-- **C74.** After any history `get_variables_of_type` lists exactly the accepted variables of the class, in order of
acceptance; the class of an object is the one it was constructed with. -/
theorem C74_lookup {h0 : Heap RVar} {evs : List (Op ℝ RVar × Res Unit)} {w : World ℝ RVar}
    (hrun : World.Runs (World.init h0) evs w) (c : VarClass) :
    getVariablesOfType w.heap w.graph c =
      (accepted (fun r => VarLike.id (h0 r)) (offeredVars evs)).filter fun r => (h0 r).cls = c := by
  rw [← (C01_variables hrun).1]
  have hc : ∀ r, (w.heap r).cls = (h0 r).cls := runs_class hrun
  simp only [getVariablesOfType, hc]
  rw [foldl_filter (fun r => (h0 r).cls = c)]
  rfl

example : ∃ (w : World ℝ RVar) (evs : List (Op ℝ RVar × Res Unit)), World.Runs (World.init C72.heap) evs w ∧
    getVariablesOfType w.heap w.graph .landmark = [0, 2] ∧ getVariablesOfType w.heap w.graph .pose = [1] := by
  obtain ⟨w, evs, hr, hv, _, hh, ho⟩ := C72.history (f := C72.first) (g := C72.second) (by decide)
  refine ⟨w, evs, hr, ?_, ?_⟩
  · rw [C74_lookup hr, ← (C01_variables hr).1, hv]; rfl
  · rw [C74_lookup hr, ← (C01_variables hr).1, hv]; rfl

end Factorama.Props
