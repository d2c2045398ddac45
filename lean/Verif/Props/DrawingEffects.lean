import Verif.Props.DrawingRegions

/-!
# The limits of a drawing, and what drawing changes: C98, C99
-/

namespace Factorama.Props
open Spec Matrix Geo Plot

/-! ### C98 -/

theorem le_top {ps : List V3} {p : V3} (hp : p ∈ ps) (i : Fin 3) : p i ≤ top ps i := by
  cases ps with
  | nil => simp at hp
  | cons q qs =>
    have key : ∀ qs : List V3, q i ≤ qs.foldr (fun a m => max (a i) m) (q i) ∧
        ∀ a ∈ qs, a i ≤ qs.foldr (fun a m => max (a i) m) (q i) := by
      intro qs
      induction qs with
      | nil => simp
      | cons a as ih =>
        refine ⟨ih.1.trans (le_max_right _ _), fun b hb => ?_⟩
        rcases List.mem_cons.mp hb with rfl | hb
        · exact le_max_left _ _
        · exact (ih.2 b hb).trans (le_max_right _ _)
    rcases List.mem_cons.mp hp with rfl | hp
    · exact (key qs).1
    · exact (key qs).2 p hp

theorem bottom_le {ps : List V3} {p : V3} (hp : p ∈ ps) (i : Fin 3) : bottom ps i ≤ p i := by
  cases ps with
  | nil => simp at hp
  | cons q qs =>
    have key : ∀ qs : List V3, qs.foldr (fun a m => min (a i) m) (q i) ≤ q i ∧
        ∀ a ∈ qs, qs.foldr (fun a m => min (a i) m) (q i) ≤ a i := by
      intro qs
      induction qs with
      | nil => simp
      | cons a as ih =>
        refine ⟨(min_le_right _ _).trans ih.1, fun b hb => ?_⟩
        rcases List.mem_cons.mp hb with rfl | hb
        · exact min_le_left _ _
        · exact (min_le_right _ _).trans (ih.2 b hb)
    rcases List.mem_cons.mp hp with rfl | hp
    · exact (key qs).1
    · exact (key qs).2 p hp

theorem top_mem {ps : List V3} (h : ps ≠ []) (i : Fin 3) : ∃ p ∈ ps, p i = top ps i := by
  cases ps with
  | nil => exact absurd rfl h
  | cons q qs =>
    have key : ∀ qs : List V3, ∃ p ∈ q :: qs, p i = qs.foldr (fun a m => max (a i) m) (q i) := by
      intro qs
      induction qs with
      | nil => exact ⟨q, by simp, rfl⟩
      | cons a as ih =>
        obtain ⟨p, hp, e⟩ := ih
        rcases max_choice (a i) (as.foldr (fun a m => max (a i) m) (q i)) with hm | hm
        · exact ⟨a, by simp, hm.symm⟩
        · refine ⟨p, ?_, e.trans hm.symm⟩
          rcases List.mem_cons.mp hp with rfl | hp
          · simp
          · simp [hp]
    exact key qs

theorem bottom_mem {ps : List V3} (h : ps ≠ []) (i : Fin 3) : ∃ p ∈ ps, p i = bottom ps i := by
  cases ps with
  | nil => exact absurd rfl h
  | cons q qs =>
    have key : ∀ qs : List V3, ∃ p ∈ q :: qs, p i = qs.foldr (fun a m => min (a i) m) (q i) := by
      intro qs
      induction qs with
      | nil => exact ⟨q, by simp, rfl⟩
      | cons a as ih =>
        obtain ⟨p, hp, e⟩ := ih
        rcases min_choice (a i) (as.foldr (fun a m => min (a i) m) (q i)) with hm | hm
        · exact ⟨a, by simp, hm.symm⟩
        · refine ⟨p, ?_, e.trans hm.symm⟩
          rcases List.mem_cons.mp hp with rfl | hp
          · simp
          · simp [hp]
    exact key qs

/-- **C98** A 3D drawing that shows a variable has limits. They enclose all markers, the scale is the same along all three
axes, and along one axis they are no wider than needed. -/
theorem C98_partial {E : Eigh} {o : Options} {h : Heap RVar} {vars : List VRef} {facs : List PyFactor} {covs : Covs}
    {items : List Item} (hd : draw E o h vars facs covs = .ok items) (h3 : o.threeD = true) (hne : markers items ≠ []) :
    ∃ lo hi, Item.limits lo hi ∈ items ∧ (∀ m p, (m, p) ∈ markers items → InBox lo hi p) ∧
      (∀ i j, hi i - lo i = hi j - lo j) ∧
      ∃ i, ∃ m p m' p', (m, p) ∈ markers items ∧ (m', p') ∈ markers items ∧ p i = lo i ∧ p' i = hi i := by
  obtain ⟨g, hg, hmk⟩ := draw_markers hd
  obtain ⟨g', ms, hg', _, rfl⟩ := draw_parts hd
  rw [hg] at hg'
  cases hg'
  rw [hmk] at hne ⊢
  have hps : g.positions ≠ [] := by
    rw [← marks_positions]
    simpa using hne
  have hmem : ∀ {m : Mark} {p : V3}, (m, p) ∈ g.marks → p ∈ g.positions := by
    intro m p hp
    rw [← marks_positions]
    exact List.mem_map.mpr ⟨_, hp, rfl⟩
  have hmem' : ∀ {p : V3}, p ∈ g.positions → ∃ m, (m, p) ∈ g.marks := by
    intro p hp
    rw [← marks_positions] at hp
    obtain ⟨⟨m, q⟩, hq, rfl⟩ := List.mem_map.mp hp
    exact ⟨m, hq⟩
  obtain ⟨half, hhalf⟩ : ∃ half, half = max (max (extent g.positions 0) (extent g.positions 1)) (extent g.positions 2) / 2 := ⟨_, rfl⟩
  have hge : ∀ i, extent g.positions i / 2 ≤ half := by
    intro i
    rw [hhalf]
    have : extent g.positions i ≤ max (max (extent g.positions 0) (extent g.positions 1)) (extent g.positions 2) := by
      fin_cases i
      · exact (le_max_left _ _).trans (le_max_left _ _)
      · exact (le_max_right _ _).trans (le_max_left _ _)
      · exact le_max_right _ _
    linarith
  have heq : ∃ i, extent g.positions i / 2 = half := by
    rw [hhalf]
    rcases max_choice (max (extent g.positions 0) (extent g.positions 1)) (extent g.positions 2) with e | e
    · rcases max_choice (extent g.positions 0) (extent g.positions 1) with e' | e'
      · exact ⟨0, by rw [e, e']⟩
      · exact ⟨1, by rw [e, e']⟩
    · exact ⟨2, by rw [e]⟩
  refine ⟨fun i => (top g.positions i + bottom g.positions i) * (5 / 10) - half,
    fun i => (top g.positions i + bottom g.positions i) * (5 / 10) + half, ?_, ?_, ?_, ?_⟩
  · simp only [List.mem_append]
    refine .inr ?_
    rw [if_pos h3]
    unfold axisLimits
    rw [if_neg (by simpa using hps), hhalf]
    exact List.mem_singleton.mpr rfl
  · intro m p hp i
    have h1 := le_top (hmem hp) i
    have h2 := bottom_le (hmem hp) i
    have h4 := hge i
    unfold extent at h4
    constructor <;> linarith
  · intro i j
    ring
  · obtain ⟨i, hi⟩ := heq
    obtain ⟨p, hp, e⟩ := bottom_mem hps i
    obtain ⟨p', hp', e'⟩ := top_mem hps i
    obtain ⟨m, hm⟩ := hmem' hp
    obtain ⟨m', hm'⟩ := hmem' hp'
    refine ⟨i, m, p, m', p', hm, hm', ?_, ?_⟩
    · rw [e, ← hi]; unfold extent; ring
    · rw [e', ← hi]; unfold extent; ring


/-- Several variables and all kinds of lines. -/
example : ∃ items, draw C94.eigh {} C94.heap [0, 1, 2, 3, 4] [C94.bearing, C94.planar, C94.ranged] (fun _ => none) = .ok items ∧
    ∃ lo hi, Item.limits lo hi ∈ items ∧ (∀ m p, (m, p) ∈ markers items → InBox lo hi p) ∧
      ∀ i j, hi i - lo i = hi j - lo j := by
  obtain ⟨items, hi⟩ := C94_partial C94.eigh {} C94.heap [0, 1, 2, 3, 4] [C94.bearing, C94.planar, C94.ranged]
    (fun _ => none) C94.sized C94.seen fun _ => C94.drawable
  have hm : (Mark.pose, (0 : V3)) ∈ markers items :=
    (C95_partial hi).mem_iff.mpr (List.mem_filterMap.mpr ⟨0, by simp, by simp [C94.heap, shownAs]⟩)
  obtain ⟨lo, hi', h1, h2, h3, _⟩ := C98_partial hi rfl (fun e => by rw [e] at hm; simp at hm)
  exact ⟨items, hi, lo, hi', h1, h2, h3⟩

/-- **C98** is false of the code for lines: the line of a measurement that disagrees with the estimate may end outside the
limits. -/
theorem C98_false : ¬ ∀ (E : Eigh) (o : Options) (h : Heap RVar) (vars : List VRef) (facs : List PyFactor) (covs : Covs)
    (items : List Item), LandmarksSized h → (∀ f ∈ facs, Seen h f) → draw E o h vars facs covs = .ok items → o.threeD = true →
    ∀ lo hi, Item.limits lo hi ∈ items → ∀ k a b, (k, a, b) ∈ lines items → InBox lo hi a ∧ InBox lo hi b := by
  intro hall
  have hseen : ∀ f ∈ [PyFactor.rangeBearing2D 10 2 3 100 0 1 (1 / 10)], Seen C94.heap f := by
    intro f hf
    rw [List.mem_singleton.mp hf]
    exact .rangeBearing2D (v := ⟨3, false, ![1, 2], 0⟩) 10 2 3 _ _ _ _ (by simp [C94.heap]) (by simp [C94.heap]; rfl)
  obtain ⟨items, hi⟩ := C94_partial C94.eigh {} C94.heap [2, 3] [PyFactor.rangeBearing2D 10 2 3 100 0 1 (1 / 10)]
    (fun _ => none) C94.sized hseen (by simp [PyFactor.rangeBearing2D])
  have hline := measurement_drawn hi rfl (f := PyFactor.rangeBearing2D 10 2 3 100 0 1 (1 / 10)) (by simp)
    (k := .rangeBearing) (a := lift ![1, 2]) (b := lift (![1, 2] + (100 : ℝ) • planarBearing ⟨3, false, ![1, 2], 0⟩ 0)) (by
      simp [measurementLine, PyFactor.rangeBearing2D, factorType, Fac.rangeBearing2D, C94.heap, pyPose2d, accessor,
        Res.andThen, Res.map])
  obtain ⟨g, ms, hg, hms, e⟩ := draw_parts hi
  have hpos : g.positions = [![1, 2, 0], ![4, 6, 0]] := by
    simp [gather, C94.heap, Res.map] at hg
    subst hg
    simp [Gathered.positions, lift]
  have hlim : axisLimits g.positions = [.limits (fun i => (top g.positions i + bottom g.positions i) * (5 / 10) - 2)
      (fun i => (top g.positions i + bottom g.positions i) * (5 / 10) + 2)] := by
    have e0 : extent g.positions 0 = 3 := by rw [hpos]; norm_num [extent, top, bottom]
    have e1 : extent g.positions 1 = 4 := by rw [hpos]; norm_num [extent, top, bottom]
    have e2 : extent g.positions 2 = 0 := by rw [hpos]; simp [extent, top, bottom, show (![4, 6, 0] : V3) 2 = 0 from rfl, show (![1, 2, 0] : V3) 2 = 0 from rfl]
    unfold axisLimits
    rw [if_neg (by rw [hpos]; simp), e0, e1, e2]
    norm_num
  have hmem : Item.limits (fun i => (top g.positions i + bottom g.positions i) * (5 / 10) - 2)
      (fun i => (top g.positions i + bottom g.positions i) * (5 / 10) + 2) ∈ items := by
    rw [e]
    refine List.mem_append.mpr (.inr ?_)
    rw [if_pos rfl, hlim]
    exact List.mem_singleton.mpr rfl
  have hbox := ((hall _ _ _ _ _ _ _ C94.sized hseen hi rfl _ _ hmem _ _ _ hline).2 0).2
  rw [hpos] at hbox
  norm_num [lift, planarBearing, top, bottom, mulVec, dotProduct, Fin.sum_univ_two] at hbox

/-! ### C99 -/

/-- **C99, the part that holds**: drawing never changes a variable or the graph; without covariances it changes nothing at all;
with covariances it has the effect of `prepare_to_estimate_covariances()`, so none if they have been prepared already. -/
theorem C99_partial {Fact : Type} (E : Eigh) (L : LinAlg ℝ Fact) (o : Options) (facs : List PyFactor)
    (s : OptWorld ℝ RVar Fact) :
    (plot E L o facs s).1.heap = s.heap ∧ (plot E L o facs s).1.graph = s.graph ∧
    (o.covariance = false → (plot E L o facs s).1 = s) ∧
    (o.covariance = true → (plot E L o facs s).1 = (Opt.prepare realArith L s).1) ∧
    (s.opt.hessianValid = true → (plot E L o facs s).1 = s) := by
  have h1 : o.covariance = false → (plot E L o facs s).1 = s := by
    intro h
    unfold plot
    rw [h]
    rfl
  have h2 : o.covariance = true → (plot E L o facs s).1 = (Opt.prepare realArith L s).1 := by
    intro h
    unfold plot
    rw [if_pos h]
    rcases e : Opt.prepare realArith L s with ⟨s', r⟩
    simp only [SE.bind, e]
    cases r <;> rfl
  obtain ⟨e1, e2⟩ := prepare_same (L := L) s
  refine ⟨?_, ?_, h1, h2, fun hv => ?_⟩
  · by_cases h : o.covariance = true
    · rw [h2 h, e1]
    · rw [h1 (by simpa using h)]
  · by_cases h : o.covariance = true
    · rw [h2 h, e2]
    · rw [h1 (by simpa using h)]
  · by_cases h : o.covariance = true
    · rw [h2 h]
      rcases Opt.prepare_cases realArith L s with ⟨_, e⟩ | ⟨e, _⟩ | ⟨e, _⟩
      · rw [e]
      · rw [hv] at e; simp at e
      · rw [hv] at e; simp at e
    · exact h1 (by simpa using h)

/-- Drawing twice, with covariances, is drawing once. -/
example (E : Eigh) (facs : List PyFactor) :
    (plot E Ldlt.linAlg (C97.options false) facs (plot E Ldlt.linAlg (C97.options false) facs C97.start).1).1 =
      (plot E Ldlt.linAlg (C97.options false) facs C97.start).1 := by
  refine (C99_partial E Ldlt.linAlg _ facs _).2.2.2.2 ?_
  rw [(C99_partial E Ldlt.linAlg _ facs C97.start).2.2.2.1 rfl, C97.prepared]

namespace C99
/-- What a list of calls does. -/
noncomputable def after (env : Env ℝ RVar) : List (Opt.Call ℝ RVar) → OptWorld ℝ RVar (Ldlt.Fact ℝ) →
    OptWorld ℝ RVar (Ldlt.Fact ℝ)
  | [], s => s
  | c :: cs, s => after env cs (Opt.step realArith Ldlt.linAlg env c s).1

noncomputable def outcomes (env : Env ℝ RVar) : List (Opt.Call ℝ RVar) → OptWorld ℝ RVar (Ldlt.Fact ℝ) → List (Res Unit)
  | [], _ => []
  | c :: cs, s => (Opt.step realArith Ldlt.linAlg env c s).2 :: outcomes env cs (Opt.step realArith Ldlt.linAlg env c s).1

theorem after_runs (env : Env ℝ RVar) (cs : List (Opt.Call ℝ RVar)) (s : OptWorld ℝ RVar (Ldlt.Fact ℝ))
    (h : Res.ub ∉ outcomes env cs s) : Opt.Runs realArith Ldlt.linAlg s (cs.zip (outcomes env cs s)) (after env cs s) := by
  induction cs generalizing s with
  | nil => exact .nil s
  | cons c cs ih =>
    simp only [outcomes, List.mem_cons, not_or] at h
    exact .cons env rfl (fun e => h.1 e.symm) (ih _ h.2)

theorem after_append (env : Env ℝ RVar) (as bs : List (Opt.Call ℝ RVar)) (s : OptWorld ℝ RVar (Ldlt.Fact ℝ)) :
    after env (as ++ bs) s = after env bs (after env as s) := by
  induction as generalizing s with
  | nil => rfl
  | cons a as ih => exact ih _

/-- A coordinate transform whose scale is free; everything else is constant. -/
noncomputable def heap (r : V3) (R : M3) (x y b : ℝ) : Heap RVar := fun i =>
  if i = 0 then .rotation ⟨1, true, r, R⟩
  else if i = 1 then .generic ⟨2, true, [x, x, x]⟩
  else if i = 2 then .generic ⟨3, false, [y]⟩
  else if i = 3 then .landmark ⟨4, true, [x, x, x]⟩
  else .landmark ⟨5, true, [b, x, x]⟩

noncomputable def env (x : ℝ) : Env ℝ RVar := ⟨id, fun _ => .refl _, fun _ => x⟩

/-- Build the graph, compute its Jacobian and finish an optimization without an iteration. -/
noncomputable def program (w : ℝ) : List (Opt.Call ℝ RVar) :=
  [.user (.addVariable (some 0)), .user (.addVariable (some 1)), .user (.addVariable (some 2)), .user (.addVariable (some 3)),
    .user (.addVariable (some 4)), .user (.addFactor (some (Fac.coordinateTransform 10 0 1 2 3 4 w))), .user .finalize,
    .user .sparse,
    .setup true { (Optimizer.init realArith (Fact := Ldlt.Fact ℝ)).settings with maxIterations := 0 }, .optimize]

variable (r : V3) (R : M3) (x y b c w : ℝ)

noncomputable def state : OptWorld ℝ RVar (Ldlt.Fact ℝ) := after (env x) (program w) (Opt.init realArith (heap r R x y b))

/-- Afterwards: change the landmark, and compute the Jacobian again. -/
noncomputable def later : List (Opt.Call ℝ RVar) := [.user (.setValue 4 [c, x, x]), .user .sparse]

/-- The state with covariances prepared. -/
noncomputable def ready (H : Mat ℝ) (f : Ldlt.Fact ℝ) : OptWorld ℝ RVar (Ldlt.Fact ℝ) :=
  { state r R x y b w with opt := { (state r R x y b w).opt with hessian := H, solver := some f, hessianValid := true } }

theorem outcomes_eq : outcomes (env x) (program w) (Opt.init realArith (heap r R x y b)) = List.replicate 10 (.ok ()) := by cbv

theorem runs : Opt.Runs realArith Ldlt.linAlg (Opt.init realArith (heap r R x y b)) ((program w).zip (outcomes (env x) (program w)
    (Opt.init realArith (heap r R x y b)))) (state r R x y b w) := after_runs _ _ _ (by rw [outcomes_eq]; decide)

/-- The Jacobian of the scale, for the landmark at `b`. -/
noncomputable def jacobian : SpMat ℝ := ⟨3, [⟨3, [(0, ((-(1 / w) • R) *ᵥ ![b, x, x]) 0), (1, ((-(1 / w) • R) *ᵥ ![b, x, x]) 1),
  (2, ((-(1 / w) • R) *ᵥ ![b, x, x]) 2)]⟩], 3⟩

theorem sparse_eq : (state r R x y b w).graph.sparseJacobian = .ok (jacobian R x b w) := by cbv
theorem state_flags : (state r R x y b w).opt.hessianValid = false ∧ (state r R x y b w).opt.complete = true := by
  constructor <;> cbv
theorem state_facs : (state r R x y b w).graph.getAllFactors = [Fac.coordinateTransform 10 0 1 2 3 4 w] := by cbv
theorem state_placement : (state r R x y b w).graph.variablePlacement 3 = some ⟨2, 0, 1⟩ := by cbv
theorem state_heap : (state r R x y b w).heap 2 = .generic ⟨3, false, [y]⟩ := by cbv
theorem state_vars : (state r R x y b w).graph.getAllVariables = [0, 1, 2, 3, 4] := by cbv

theorem later_sparse : (after (env x) (later x c) (state r R x y b w)).graph.sparseJacobian = .ok (jacobian R x c w) := by cbv
theorem later_flags : (after (env x) (later x c) (state r R x y b w)).opt.hessianValid = false ∧
    (after (env x) (later x c) (state r R x y b w)).opt.complete = true := by
  constructor <;> cbv
theorem later_keep (H : Mat ℝ) (f : Ldlt.Fact ℝ) : (after (env x) (later x c) (ready r R x y b w H f)).opt.hessianValid = true ∧
    (after (env x) (later x c) (ready r R x y b w H f)).opt.complete = true ∧
    (after (env x) (later x c) (ready r R x y b w H f)).opt.hessian = H ∧
    (after (env x) (later x c) (ready r R x y b w H f)).opt.solver = some f := by
  refine ⟨?_, ?_, ?_, ?_⟩ <;> cbv
theorem later_heap : (after (env x) (later x c) (state r R x y b w)).heap 2 = .generic ⟨3, false, [y]⟩ := by cbv
theorem later_heap' (H : Mat ℝ) (f : Ldlt.Fact ℝ) :
    (after (env x) (later x c) (ready r R x y b w H f)).heap 2 = .generic ⟨3, false, [y]⟩ := by cbv
theorem later_placement : (after (env x) (later x c) (state r R x y b w)).graph.variablePlacement 3 = some ⟨2, 0, 1⟩ := by cbv
theorem later_placement' (H : Mat ℝ) (f : Ldlt.Fact ℝ) :
    (after (env x) (later x c) (ready r R x y b w H f)).graph.variablePlacement 3 = some ⟨2, 0, 1⟩ := by cbv
theorem heap_eq : (state r R x y b w).heap = heap r R x y b := by
  funext i
  cbv

attribute [irreducible] state

theorem sized : LandmarksSized (heap r R x y b) := by
  intro i v h
  unfold heap at h
  split at h
  · simp at h
  split at h
  · simp at h
  split at h
  · simp at h
  split at h <;> cases h <;> rfl

theorem gram_eq : ((Ldlt.linAlg : LinAlg ℝ (Ldlt.Fact ℝ)).factorize (Ldlt.linAlg.gram (jacobian 1 0 b 1)) =
      if b = 0 then none else some [(b * b, [])]) ∧
    ((Ldlt.linAlg : LinAlg ℝ (Ldlt.Fact ℝ)).gram (jacobian 1 0 b 1)).rows = 1 ∧
    ((Ldlt.linAlg : LinAlg ℝ (Ldlt.Fact ℝ)).gram (jacobian 1 0 b 1)).cols = 1 := by
  refine ⟨?_, rfl, rfl⟩
  have hv : (-(1 / (1 : ℝ)) • (1 : M3)) *ᵥ ![b, 0, 0] = ![-b, 0, 0] := by
    rw [smul_mulVec, one_mulVec]
    simp
  have hj : jacobian 1 0 b 1 = ⟨3, [⟨3, [(0, -b), (1, 0), (2, 0)]⟩], 3⟩ := by
    unfold jacobian
    rw [hv]
    rfl
  rw [hj]
  simp [Ldlt.linAlg, Ldlt.gram, Ldlt.rowsOf, Ldlt.factorRows, Ldlt.sumTo, SpMat.coeff, List.range_succ, List.lookup]

variable {b} in
theorem prepared {s : OptWorld ℝ RVar (Ldlt.Fact ℝ)} (hJ : s.graph.sparseJacobian = .ok (jacobian 1 0 b 1)) (hb : b ≠ 0)
    (hv : s.opt.hessianValid = false ∧ s.opt.complete = true) :
    Opt.prepare realArith Ldlt.linAlg s = ({ s with opt := { s.opt with
      hessian := Ldlt.linAlg.gram (jacobian 1 0 b 1), solver := some [(b * b, [])], hessianValid := true } }, .ok ()) := by
  have hf := (gram_eq b).1
  rw [if_neg hb] at hf
  have hD : (Ldlt.linAlg : LinAlg ℝ (Ldlt.Fact ℝ)).vectorD [(b * b, [])] = [b * b] := rfl
  unfold Opt.prepare
  simp [SE.bind, SE.get, hJ, hv, hD, SE.lift, hf, Opt.modOpt]

variable {b} in
theorem estimated {s : OptWorld ℝ RVar (Ldlt.Fact ℝ)} (hb : 1 ≤ b) (hs : s.opt.complete = true ∧ s.opt.hessianValid = true ∧
      s.opt.hessian = Ldlt.linAlg.gram (jacobian 1 0 b 1) ∧ s.opt.solver = some [(b * b, [])])
    (hh : s.heap 2 = .generic ⟨3, false, [y]⟩) (hp : s.graph.variablePlacement 3 = some ⟨2, 0, 1⟩) :
    ∃ P, Opt.estimateCovariance realArith Ldlt.linAlg s (some 2) = .ok (some P) ∧ P.entry 0 0 = 1 / (b * b) := by
  obtain ⟨h1, h2, h3, h4⟩ := hs
  have hc : VarLike.isConst (F := ℝ) (RVar.generic ⟨3, false, [y]⟩) = false := rfl
  have hz : VarLike.size (F := ℝ) (RVar.generic ⟨3, false, [y]⟩) = 1 := rfl
  have hi : VarLike.id (F := ℝ) (RVar.generic ⟨3, false, [y]⟩) = 3 := rfl
  have hle : ¬ (1000000000000 : ℝ) < 1 / (b * b) := by
    have : 1 / (b * b) ≤ 1 := by rw [div_le_one (by nlinarith)]; nlinarith
    linarith
  have hr : (Ldlt.gram (jacobian 1 0 b 1)).rows = 1 := rfl
  have hcol : (Ldlt.gram (jacobian 1 0 b 1)).cols = 1 := rfl
  unfold Opt.estimateCovariance
  simp [hh, hc, hz, hi, hp, h1, h2, h3, h4, hr, hcol, Ldlt.linAlg, Opt.solveColumns, Opt.unitVector, Ldlt.solveFact,
    List.range_succ, Opt.allEntries, realArith, Ldlt.dot, Opt.blockOf]
  rw [if_neg (by rw [← mul_inv, ← one_div]; norm_num at hle ⊢; exact hle)]
  refine ⟨_, rfl, ?_⟩
  simp [Opt.averageInPlace]
  ring
end C99

/-- **C99** is false of the code: the covariance reported for the scale after moving a landmark and computing the Jacobian
again is `1/4`. If a drawing with covariances was made before, it is `1`, that of the earlier position. -/
theorem C99_false : ¬ ∀ (E : Eigh) (env : Env ℝ RVar) (h0 : Heap RVar) (evs : List (Opt.Call ℝ RVar × Res Unit))
    (s s' : OptWorld ℝ RVar (Ldlt.Fact ℝ)) (o : Options) (facs : List PyFactor) (items : List Item), Diagonalizes E →
    Opt.Runs realArith Ldlt.linAlg (Opt.init realArith h0) evs s → (∀ f ∈ facs, Seen s.heap f) →
    facs.map PyFactor.fac = s.graph.getAllFactors → plot E Ldlt.linAlg o facs s = (s', .ok items) →
    ∀ calls v, Opt.estimateCovariance realArith Ldlt.linAlg (C99.after env calls s) (some v) =
      Opt.estimateCovariance realArith Ldlt.linAlg (C99.after env calls s') (some v) := by
  intro hall
  obtain ⟨E, hE⟩ := exists_diagonalizes
  have hJ := C99.sparse_eq 0 1 0 1 1 1
  have hfl := C99.state_flags 0 1 0 1 1 1
  have hh := C99.heap_eq 0 1 0 1 1 1
  have hvars := C99.state_vars 0 1 0 1 1 1
  have hprep := C99.prepared hJ one_ne_zero hfl
  obtain ⟨P, hP⟩ : ∃ P, Opt.estimateCovariance realArith Ldlt.linAlg (C99.ready 0 1 0 1 1 1
      (Ldlt.linAlg.gram (C99.jacobian 1 0 1 1)) [(1 * 1, [])]) (some 2) = .ok (some P) := by
    obtain ⟨P, hP, _⟩ := C99.estimated (y := 1) (s := C99.ready 0 1 0 1 1 1
      (Ldlt.linAlg.gram (C99.jacobian 1 0 1 1)) [(1 * 1, [])]) le_rfl ⟨hfl.2, rfl, rfl, rfl⟩
      (C99.state_heap ..) (C99.state_placement ..)
    exact ⟨P, hP⟩
  have hconst : ∀ s : OptWorld ℝ RVar (Ldlt.Fact ℝ), s.heap = C99.heap 0 1 0 1 1 → ∀ i ∈ [0, 1, 3, 4],
      Opt.estimateCovariance realArith Ldlt.linAlg s (some i) = .ok none := by
    intro s hs i hi
    unfold Opt.estimateCovariance
    dsimp only
    refine if_pos (.inl ?_)
    rw [hs]
    simp only [List.mem_cons, List.not_mem_nil, or_false] at hi
    rcases hi with rfl | rfl | rfl | rfl <;> simp [C99.heap, VarLike.isConst]
  obtain ⟨covs, hcol⟩ : ∃ covs, collect Ldlt.linAlg (C99.ready 0 1 0 1 1 1
      (Ldlt.linAlg.gram (C99.jacobian 1 0 1 1)) [(1 * 1, [])]) [0, 1, 2, 3, 4] = .ok covs := by
    have hr : (C99.ready 0 1 0 1 1 1 (Ldlt.linAlg.gram (C99.jacobian 1 0 1 1)) [(1 * 1, [])]).heap = C99.heap 0 1 0 1 1 := hh
    simp only [collect, hP, hconst _ hr 0 (by simp), hconst _ hr 1 (by simp), hconst _ hr 3 (by simp),
      hconst _ hr 4 (by simp), Res.andThen, Res.map]
    exact ⟨_, rfl⟩
  have hseen : ∀ f ∈ [(⟨.coordinateTransform, Fac.coordinateTransform 10 0 1 2 3 4 1, none, none, none⟩ : PyFactor)],
      Seen (C99.heap 0 1 0 1 1) f := by
    intro f hf
    rw [List.mem_singleton.mp hf]
    exact .other _ (.coordinateTransform (v := ⟨1, true, 0, 1⟩) (o := ⟨2, true, [0, 0, 0]⟩) (s := ⟨3, false, [1]⟩)
      (a := ⟨4, true, [0, 0, 0]⟩) (b := ⟨5, true, [1, 0, 0]⟩) 10 0 1 2 3 4 1 (by simp [C99.heap]) (by simp [C99.heap])
      (by simp [C99.heap]) (by simp [C99.heap]) (by simp [C99.heap]) rfl rfl) (by simp) (by simp) (by simp) rfl rfl rfl
  obtain ⟨items, hi⟩ := C94_partial E (C97.options false) (C99.heap 0 1 0 1 1) [0, 1, 2, 3, 4] _ covs (C99.sized 0 1 0 1 1) hseen
    (by simp)
  have hplot : plot E Ldlt.linAlg (C97.options false)
      [⟨.coordinateTransform, Fac.coordinateTransform 10 0 1 2 3 4 1, none, none, none⟩] (C99.state 0 1 0 1 1 1) =
      (C99.ready 0 1 0 1 1 1 (Ldlt.linAlg.gram (C99.jacobian 1 0 1 1)) [(1 * 1, [])], .ok items) := by
    unfold plot
    rw [if_pos (show (C97.options false).covariance = true from rfl)]
    refine (SE.bind_ok hprep).trans ?_
    refine Prod.ext rfl ?_
    show Res.andThen (collect Ldlt.linAlg (C99.ready 0 1 0 1 1 1
      (Ldlt.linAlg.gram (C99.jacobian 1 0 1 1)) [(1 * 1, [])]) (C99.state 0 1 0 1 1 1).graph.getAllVariables) _ = _
    rw [hvars, hcol]
    show draw E _ (C99.state 0 1 0 1 1 1).heap _ _ covs = _
    rw [hh]
    exact hi
  have h := hall E (C99.env 0) _ _ _ _ _ _ _ hE (C99.runs 0 1 0 1 1 1) (by rw [hh]; exact hseen)
    (by rw [C99.state_facs]; rfl) hplot (C99.later 0 2 ++ [.prepare]) 2
  rw [C99.after_append, C99.after_append] at h
  have hstep : ∀ t, C99.after (C99.env 0) [.prepare] t = (Opt.prepare realArith Ldlt.linAlg t).1 := fun _ => rfl
  have hp1 := C99.prepared (C99.later_sparse 0 1 0 1 1 2 1) two_ne_zero (C99.later_flags 0 1 0 1 1 2 1)
  have hk := C99.later_keep 0 1 0 1 1 2 1 (Ldlt.linAlg.gram (C99.jacobian 1 0 1 1)) [(1 * 1, [])]
  have hp2 := (Opt.prepare_cases realArith Ldlt.linAlg (C99.after (C99.env 0) (C99.later 0 2) (C99.ready 0 1 0 1 1 1
    (Ldlt.linAlg.gram (C99.jacobian 1 0 1 1)) [(1 * 1, [])]))).resolve_right (by rw [hk.1]; simp)
  rw [hstep, hstep, hp2.2] at h
  obtain ⟨P1, hP1, e1⟩ := C99.estimated (b := 2) (y := 1) (s := (Opt.prepare realArith Ldlt.linAlg
    (C99.after (C99.env 0) (C99.later 0 2) (C99.state 0 1 0 1 1 1))).1) (by norm_num)
    (by rw [hp1]; exact ⟨(C99.later_flags 0 1 0 1 1 2 1).2, rfl, rfl, rfl⟩)
    (by rw [hp1]; exact C99.later_heap 0 1 0 1 1 2 1) (by rw [hp1]; exact C99.later_placement 0 1 0 1 1 2 1)
  obtain ⟨P2, hP2, e2⟩ := C99.estimated (b := 1) (y := 1) le_rfl ⟨hk.2.1, hk.1, hk.2.2.1, hk.2.2.2⟩
    (C99.later_heap' 0 1 0 1 1 2 1 _ _) (C99.later_placement' 0 1 0 1 1 2 1 _ _)
  dsimp only at h
  rw [hP2] at h
  have h := hP1.symm.trans h
  cases h
  rw [e1] at e2
  norm_num at e2

end Factorama.Props
