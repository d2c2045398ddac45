import Verif.Lemmas.Lists
import Verif.Examples.Toy

/-!
# Properties of building and finalizing a graph: C01, C02, C03, C04, C13 (variables)

`F` is any scalar type, `V` any variable class satisfying `LawfulVar`. The examples use the graph of
`Verif/Examples/Toy.lean`.
-/

set_option linter.unusedSectionVars false

namespace Factorama.Props
open Spec Graph
variable {F V : Type} [Zero F] [VarLike F V] [LawfulVar F V]

/-- **C01**, variables. In every history the graph lists exactly the accepted variables in order of acceptance,
their ids are distinct, and lookup by id finds exactly them. -/
theorem C01_variables {h0 : Heap V} {evs : List (Op F V × Res Unit)} {w : World F V}
    (hrun : World.Runs (World.init h0) evs w) :
    w.graph.getAllVariables = accepted (fun r => VarLike.id (h0 r)) (offeredVars evs) ∧
    (w.graph.getAllVariables.map fun r => VarLike.id (w.heap r)).Nodup ∧
    ∀ i r, w.graph.getVariable i = some r ↔ r ∈ w.graph.getAllVariables ∧ VarLike.id (w.heap r) = i := by
  have hh := hist_runs hrun (Hist.init h0)
  exact ⟨(lists_runs hrun (Hist.init h0) _ (fun _ => rfl)).1, hh.reg.ids, hh.reg.vars⟩

/-- The hypothesis is met by a history with a refused duplicate; its conclusion lists the four accepted variables. -/
example : Toy.world.graph.getAllVariables = [0, 1, 2, 3] :=
  (C01_variables (Toy.exec_runs Toy.env (Toy.build ++ .finalize :: Toy.later) (World.init Toy.heap) (by rw [Toy.outcomes_eq]; decide))).1.trans (by rw [Toy.outcomes_eq]; decide +kernel)

/-- **C01**, factors. -/
theorem C01_factors {h0 : Heap V} {evs : List (Op F V × Res Unit)} {w : World F V}
    (hrun : World.Runs (World.init h0) evs w) :
    w.graph.getAllFactors = accepted Factor.id (offeredFactors evs) ∧
    (w.graph.getAllFactors.map Factor.id).Nodup := by
  have hh := hist_runs hrun (Hist.init h0)
  exact ⟨(lists_runs hrun (Hist.init h0) _ (fun _ => rfl)).2, hh.reg.fids⟩

example : (Toy.world.graph.getAllFactors.map Factor.id) = [10, 11] ∧
    (Toy.world.graph.getAllFactors.map Factor.id).Nodup :=
  ⟨by rw [Toy.facs_eq]; rfl, (C01_factors (Toy.exec_runs Toy.env (Toy.build ++ .finalize :: Toy.later) (World.init Toy.heap) (by rw [Toy.outcomes_eq]; decide))).2⟩

/-- **C01**, refusal of a variable: after any history, offering a variable whose id is taken throws and changes
nothing; any other variable is appended and nothing else visible changes. -/
theorem C01_add_variable {h0 : Heap V} {evs : List (Op F V × Res Unit)} {w : World F V}
    (hrun : World.Runs (World.init h0) evs w) (env : Env F V) (r : VRef) :
    ((∃ r' ∈ w.graph.getAllVariables, VarLike.id (w.heap r') = VarLike.id (w.heap r)) →
      World.step env (.addVariable (some r)) w = (w, .threw)) ∧
    ((∀ r' ∈ w.graph.getAllVariables, VarLike.id (w.heap r') ≠ VarLike.id (w.heap r)) →
      ∃ w', World.step env (.addVariable (some r)) w = (w', .ok ()) ∧
        w'.graph.getAllVariables = w.graph.getAllVariables ++ [r] ∧
        w'.graph.getAllFactors = w.graph.getAllFactors ∧ w'.heap = w.heap) := by
  have hh := hist_runs hrun (Hist.init h0)
  constructor
  · rintro ⟨r', hr', e⟩
    have := (hh.reg.vars (VarLike.id (w.heap r)) r').mpr ⟨hr', e⟩
    simp [World.step, World.onGraph, addVariable, this, Res.void]
  · intro hno
    have : w.graph.varsMap (VarLike.id (w.heap r)) = none := by
      cases hm : w.graph.varsMap (VarLike.id (w.heap r)) with
      | none => rfl
      | some r' =>
        obtain ⟨h1, h2⟩ := (hh.reg.vars _ _).mp hm
        exact absurd h2 (hno r' h1)
    simp only [World.step, World.onGraph, addVariable, this]
    exact ⟨_, rfl, rfl, rfl, rfl⟩

example : World.step Toy.env (.addVariable (some 2)) Toy.world = (Toy.world, .threw) :=
  (C01_add_variable (Toy.exec_runs Toy.env (Toy.build ++ .finalize :: Toy.later) (World.init Toy.heap) (by rw [Toy.outcomes_eq]; decide)) Toy.env 2).1
    ⟨2, by rw [show (Toy.exec Toy.env (Toy.build ++ .finalize :: Toy.later) (World.init Toy.heap)) = Toy.world from rfl, Toy.vars_eq]; decide, rfl⟩

/-- **C01**, refusal of a factor. -/
theorem C01_add_factor {h0 : Heap V} {evs : List (Op F V × Res Unit)} {w : World F V}
    (hrun : World.Runs (World.init h0) evs w) (env : Env F V) (f : Factor F V) :
    ((∃ f' ∈ w.graph.getAllFactors, f'.id = f.id) →
      World.step env (.addFactor (some f)) w = (w, .threw)) ∧
    ((∀ f' ∈ w.graph.getAllFactors, f'.id ≠ f.id) →
      ∃ w', World.step env (.addFactor (some f)) w = (w', .ok ()) ∧
        w'.graph.getAllFactors = w.graph.getAllFactors ++ [f] ∧
        w'.graph.getAllVariables = w.graph.getAllVariables ∧ w'.heap = w.heap) := by
  have hh := hist_runs hrun (Hist.init h0)
  constructor
  · rintro ⟨f', hf', e⟩
    have := (hh.reg.facs f.id f').mpr ⟨hf', e⟩
    simp [World.step, World.onGraph, addFactor, this, Res.void]
  · intro hno
    have : w.graph.facsMap f.id = none := by
      cases hm : w.graph.facsMap f.id with
      | none => rfl
      | some f' =>
        obtain ⟨h1, h2⟩ := (hh.reg.facs _ _).mp hm
        exact absurd h2 (hno f' h1)
    simp only [World.step, World.onGraph, addFactor, this]
    exact ⟨_, rfl, rfl, rfl, rfl⟩

example : World.step Toy.env (.addFactor (some (genericPrior 11 0 [] 1))) Toy.world = (Toy.world, .threw) :=
  (C01_add_factor (Toy.exec_runs Toy.env (Toy.build ++ .finalize :: Toy.later) (World.init Toy.heap) (by rw [Toy.outcomes_eq]; decide)) Toy.env _).1
    ⟨genericBetween 11 0 2 3 2 3, by rw [show (Toy.exec Toy.env (Toy.build ++ .finalize :: Toy.later) (World.init Toy.heap)) = Toy.world from rfl, Toy.facs_eq]; simp [Toy.facs], rfl⟩

/-- **C02**. After a successful finalization (and any later evaluations and value changes): the variable at any
position of the insertion order is placed right after the free values of the variables before it, with width its
size, or 0 if it is constant; `num_values()` is the total; every column belongs to exactly one variable, which is
not constant. -/
theorem C02_columns {h0 : Heap V} {pre post : List (Op F V × Res Unit)} {w : World F V}
    (hw : FinalizedAfter h0 pre post w) :
    w.graph.numValues = (w.graph.getAllVariables.map fun r =>
      if VarLike.isConst (w.heap r) then 0 else VarLike.size (w.heap r)).sum ∧
    (∀ before r after, w.graph.getAllVariables = before ++ r :: after →
      w.graph.variablePlacement (VarLike.id (w.heap r)) = some
        ⟨r, (before.map fun r' => if VarLike.isConst (w.heap r') then 0 else VarLike.size (w.heap r')).sum,
          if VarLike.isConst (w.heap r) then 0 else VarLike.size (w.heap r)⟩) ∧
    (∀ c, c < w.graph.numValues → ∃ r ∈ w.graph.getAllVariables, VarLike.isConst (w.heap r) = false ∧
      (∃ p, w.graph.variablePlacement (VarLike.id (w.heap r)) = some p ∧ p.index ≤ c ∧ c < p.index + p.dim) ∧
      ∀ r' ∈ w.graph.getAllVariables, ∀ p', w.graph.variablePlacement (VarLike.id (w.heap r')) = some p' →
        p'.index ≤ c → c < p'.index + p'.dim → r' = r) := by
  have hl := finalizedAfter_layout hw
  refine ⟨hl.nv, ?_, ?_⟩
  · intro before r after hsplit
    simp only [getAllVariables] at hsplit
    have hrm : r ∈ w.graph.varsVec := by rw [hsplit]; simp
    rw [hl.placement hrm]
    have hnd := hl.nodup
    rw [hsplit, List.nodup_append] at hnd
    have hnot : r ∉ before := fun hp => hnd.2.2 r hp r (by simp) rfl
    have : colStart w.heap w.graph.varsVec r = freeTotal w.heap before := by
      unfold colStart
      congr 1
      rw [hsplit, List.takeWhile_append_of_pos]
      · simp
      · intro a ha; simp; rintro rfl; exact hnot ha
    rw [this]
    rfl
  · intro c hc
    rw [hl.nv] at hc
    obtain ⟨r, hr, j, hj, rfl⟩ := col_decomp w.heap w.graph.varsVec hl.nodup c hc
    refine ⟨r, hr, nonconst_of_freeSize hj, ⟨_, hl.placement hr, ?_, ?_⟩, ?_⟩
    · simp
    · simpa using hj
    · intro r' hr' p' hp' h1 h2
      rw [hl.placement hr'] at hp'
      obtain rfl := Option.some.inj hp'
      exact col_unique (vars := w.graph.varsVec) hr' hr ⟨h1, h2⟩ ⟨by omega, by omega⟩

/-- Variable 2 (third in insertion order, behind a variable of size 2 and a constant) gets columns 2 and 3. -/
example : Toy.world.graph.numValues = 4 ∧ Toy.world.graph.variablePlacement 3 = some ⟨2, 2, 2⟩ := by
  refine ⟨Toy.numValues_eq, ?_⟩
  have h := (C02_columns Toy.finalizedAfter).2.1 [0, 1] 2 [3] Toy.vars_eq
  rw [Toy.id_eq.2.2.1] at h
  exact h.trans (by decide +kernel)

/-- **C03**. After a successful finalization: the factor inserted as number `k` occupies the residual rows right
after those of the factors before it; `num_residuals()` is the total; every row belongs to exactly one factor.
(The placement of factor number `k` is found under key `k`, see C13.) -/
theorem C03_rows {h0 : Heap V} {pre post : List (Op F V × Res Unit)} {w : World F V}
    (hw : FinalizedAfter h0 pre post w) :
    w.graph.numResiduals = (w.graph.getAllFactors.map fun f => f.residualSize).sum ∧
    (∀ before f after, w.graph.getAllFactors = before ++ f :: after →
      ∃ p, w.graph.factorPlacement before.length = some p ∧ p.factor = f ∧
        p.residualIndex = (before.map fun f' => f'.residualSize).sum ∧ p.residualDim = f.residualSize) ∧
    (∀ a, a < w.graph.numResiduals → ∃ k p, k < w.graph.getAllFactors.length ∧
      w.graph.factorPlacement (Int.ofNat k) = some p ∧ p.residualIndex ≤ a ∧ a < p.residualIndex + p.residualDim ∧
      ∀ (k' : Nat) p', w.graph.factorPlacement (Int.ofNat k') = some p' →
        p'.residualIndex ≤ a → a < p'.residualIndex + p'.residualDim → k' = k) := by
  have hl := finalizedAfter_layout hw
  have hlook : ∀ (k : Nat), w.graph.factorPlacement (Int.ofNat k) = w.graph.facs[k]?.map fun f =>
      ⟨f, rowStart w.graph.facs k, f.residualSize,
        (colsOf w.heap (plOf w.heap w.graph.varsVec) f.variables).map (·.1),
        (colsOf w.heap (plOf w.heap w.graph.varsVec) f.variables).map (·.2)⟩ := by
    intro k
    simp only [factorPlacement, hl.fpl]
    have := lookup_placedList w.heap (plOf w.heap w.graph.varsVec) w.graph.facs 0 0 k
    simp only [Nat.zero_add] at this
    rw [this, getElem?_placedList]
    cases w.graph.facs[k]? <;> simp [rowStart]
  refine ⟨hl.nr, ?_, ?_⟩
  · intro before f after hsplit
    simp only [getAllFactors] at hsplit
    have hf : w.graph.facs[before.length]? = some f := by rw [hsplit]; simp
    have := hlook before.length
    rw [hf] at this
    refine ⟨_, this, rfl, ?_, rfl⟩
    simp [rowStart, hsplit, rowTotal]
  · intro a ha
    rw [hl.nr] at ha
    obtain ⟨k, f, i, hf, hi, rfl⟩ := row_decomp w.graph.facs a ha
    have hk := hlook k
    rw [hf] at hk
    refine ⟨k, _, (List.getElem?_eq_some_iff.mp hf).1, hk, by simp, by simpa using hi, ?_⟩
    intro k' p' hp' h1 h2
    rw [hlook k'] at hp'
    obtain ⟨f', hf', rfl⟩ := Option.map_eq_some_iff.mp hp'
    exact row_unique hf' hf ⟨h1, h2⟩ ⟨by omega, by omega⟩

example : Toy.world.graph.numResiduals = 4 := (C03_rows Toy.finalizedAfter).1.trans (by rw [Toy.facs_eq]; rfl)

/-- **C04**. In every state, `finalize_structure()` returns normally if and only if the graph is well posed (no
null variable, every non-constant variable of a factor known by id, at least as many residuals as free values), and
throws otherwise. -/
theorem C04_finalize_iff (env : Env F V) (w : World F V) :
    ((World.step env .finalize w).2 = .ok () ↔ WellPosed w.heap w.graph.getAllVariables w.graph.getAllFactors) ∧
    (¬ WellPosed w.heap w.graph.getAllVariables w.graph.getAllFactors → (World.step env .finalize w).2 = .threw) := by
  by_cases hw : WellPosed w.heap w.graph.varsVec w.graph.facs
  · obtain ⟨g', e, _⟩ := finalize_ok hw
    simp only [World.step, World.onGraph, e, Res.void]
    exact ⟨⟨fun _ => hw, fun _ => trivial⟩, fun h => absurd hw h⟩
  · obtain ⟨g', e, _⟩ := finalize_threw hw
    simp only [World.step, World.onGraph, e, Res.void]
    exact ⟨⟨fun h => by simp at h, fun h => absurd h hw⟩, fun _ => trivial⟩

/-- Both outcomes occur: the history of the example graph contains a refused and an accepted finalization. -/
example : (World.step Toy.env .finalize (Toy.exec Toy.env (Toy.build.take 1) (World.init Toy.heap))).2 = .threw ∧
    (World.step Toy.env .finalize (Toy.exec Toy.env Toy.build (World.init Toy.heap))).2 = .ok () := by
  decide +kernel

/-- **C13**, variables: after a successful finalization `variable_placement(id)` is the placement of the graph
variable with that id, and reports no placement for any other id. The factor half of C13 is false, see
`C13_factor_lookup_false`. -/
theorem C13_variable_lookup_partial {h0 : Heap V} {pre post : List (Op F V × Res Unit)} {w : World F V}
    (hw : FinalizedAfter h0 pre post w) (i : Int) :
    (∀ p, w.graph.variablePlacement i = some p →
      p.varRef ∈ w.graph.getAllVariables ∧ VarLike.id (w.heap p.varRef) = i) ∧
    (w.graph.variablePlacement i = none ↔ ∀ r ∈ w.graph.getAllVariables, VarLike.id (w.heap r) ≠ i) := by
  have hl := finalizedAfter_layout hw
  have hiff : (w.graph.variablePlacement i).isSome ↔ ∃ r ∈ w.graph.varsVec, VarLike.id (w.heap r) = i := by
    simp only [variablePlacement, hl.pl, plOf_isSome]
  constructor
  · intro p hp
    obtain ⟨r, hr, he⟩ := hiff.mp (by simp [hp])
    have := hl.placement hr
    rw [he, hp] at this
    obtain rfl := Option.some.inj this
    exact ⟨hr, he⟩
  · rw [← Option.not_isSome_iff_eq_none, hiff]
    constructor
    · intro h r hr he; exact h ⟨r, hr, he⟩
    · rintro h ⟨r, hr, he⟩; exact h r hr he

example : Toy.world.graph.variablePlacement 5 = none :=
  (C13_variable_lookup_partial Toy.finalizedAfter 5).2.mpr (by rw [Toy.vars_eq]; decide +kernel)

end Factorama.Props
