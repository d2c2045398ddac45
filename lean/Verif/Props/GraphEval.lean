import Verif.Lemmas.Lists
import Verif.Examples.Toy

/-!
# Properties of evaluating a finalized graph: C05, C06, C07, C09, C10, C11

`F` is any scalar type (in particular IEEE doubles), `V` any variable class satisfying `LawfulVar`. `FinalizedAfter`
describes all worlds reached by an arbitrary history, a successful `finalize_structure()`, and then an arbitrary
sequence of evaluations and value changes (throwing calls included). The examples use the
graph of `Verif/Examples/Toy.lean`.
-/

set_option linter.unusedSectionVars false

namespace Factorama.Props
open Spec Graph
variable {F V : Type} [Zero F] [VarLike F V] [LawfulVar F V]

/-- **C05**. If every factor's residual evaluation succeeds with a vector of the announced size, the full residual
is their concatenation in insertion order, for every hash iteration order (`env.order`), every content of fresh
memory (`env.junk`), and every previous content `buf` of the caller's vector. -/
theorem C05_residual {h0 : Heap V} {pre post : List (Op F V × Res Unit)} {w : World F V}
    (hw : FinalizedAfter h0 pre post w) (segs : List (List F)) (hlen : segs.length = w.graph.getAllFactors.length)
    (hseg : ∀ (k : Nat) f, w.graph.getAllFactors[k]? = some f → ∃ s, segs[k]? = some s ∧
      f.computeResidual w.heap = .ok s ∧ s.length = f.residualSize) (env : Env F V) :
    (∃ g', computeResidual env w.heap w.graph = (g', .ok segs.flatten) ∧ g'.residual = .ok segs.flatten) ∧
    (∀ buf, computeResidualInto env w.graph w.heap buf = (segs.flatten, .ok ())) := by
  have hl := finalizedAfter_layout hw
  exact ⟨⟨_, residual_layout hl segs hlen hseg, by simp [Graph.residual]⟩, residualInto_layout hl segs hlen hseg⟩

example : ∃ g', computeResidual Toy.envRev Toy.world.heap Toy.world.graph = (g', .ok [10, 8, -6, -9]) := by
  have h := C05_residual Toy.finalizedAfter [[10, 8], [-6, -9]] (by rw [Toy.facs_eq]; rfl) (by
    obtain ⟨v0, v2, v3⟩ := Toy.value_eq
    intro k f hf
    rw [Toy.facs_eq] at hf
    match k with
    | 0 =>
      obtain rfl : genericPrior 10 0 [4, 4] 2 = f := by simpa [Toy.facs] using hf
      exact ⟨_, rfl, by simp only [genericPrior, v0]; rfl, rfl⟩
    | 1 =>
      obtain rfl : genericBetween 11 0 2 3 2 3 = f := by simpa [Toy.facs] using hf
      exact ⟨_, rfl, by simp only [genericBetween, v0, v2, v3]; rfl, rfl⟩
    | k + 2 => simp [Toy.facs] at hf) Toy.envRev
  obtain ⟨⟨g', h1, _⟩, _⟩ := h
  exact ⟨g', h1⟩

/-- **C06**. Suppose no Jacobian was computed before the finalization, ids identify variables, and no factor mentions
a variable twice. Whenever all factors report proper blocks (one per variable, of the right shape, empty for constants)
at the current values, the dense Jacobian is the block assembly of exactly these blocks, with zeros elsewhere, for
every hash order — after any number of earlier evaluations (also failed ones) at other values. -/
theorem C06_dense {h0 : Heap V} {pre post : List (Op F V × Res Unit)} {w : World F V}
    (hw : FinalizedAfter h0 pre post w) (hpre : NoJacobianYet pre)
    (hid : IdsIdentify w.heap w.graph.getAllVariables w.graph.getAllFactors) (hnr : NoRepeats w.graph.getAllFactors)
    (blocks : Nat → List (Mat F))
    (hblocks : ∀ (k : Nat) f, w.graph.getAllFactors[k]? = some f →
      f.computeJacobians w.heap [] = .ok (blocks k) ∧ ProperBlocks w.heap f (blocks k)) (env : Env F V) :
    ∃ g' J, computeDense env w.heap w.graph = (g', .ok J) ∧ g'.jacobian = .ok J ∧
      J.rows = w.graph.numResiduals ∧ J.cols = w.graph.numValues ∧
      IsStackedJacobian w.heap w.graph.getAllVariables w.graph.getAllFactors blocks J.entry := by
  have hr := finalizedAfter_ready (good := fun _ _ => True) hw hpre hid hnr (fun _ => trivial)
    (fun _ _ _ _ _ _ _ _ => trivial)
  obtain ⟨J, e1, e2, e3, e4⟩ := computeDense_ok (env := env) hr blocks hblocks
  exact ⟨_, J, e1, by simp [Graph.jacobian], e2, e3, e4⟩

/-- All hypotheses are met by the example graph, after several evaluations, increments and refused calls. -/
example : ∃ g' J, computeDense Toy.envRev Toy.world.heap Toy.world.graph = (g', .ok J) ∧
    IsStackedJacobian Toy.world.heap Toy.world.graph.getAllVariables Toy.world.graph.getAllFactors Toy.blocks J.entry := by
  obtain ⟨g', J, h1, _, _, _, h5⟩ := C06_dense Toy.finalizedAfter Toy.noJacobianYet Toy.identify Toy.noRepeats
    Toy.blocks Toy.blocks_ok Toy.envRev
  exact ⟨g', J, h1, h5⟩

/-- **C07**. Under the hypotheses of C06, if moreover the factors' blocks do not depend on left-over contents of the
re-used output vector, and some factor involves a non-constant variable, the sparse evaluation succeeds — the first
and every later one — and has the same coefficients as any dense evaluation at the same values. -/
theorem C07_sparse {h0 : Heap V} {pre post : List (Op F V × Res Unit)} {w : World F V}
    (hw : FinalizedAfter h0 pre post w) (hpre : NoJacobianYet pre)
    (hid : IdsIdentify w.heap w.graph.getAllVariables w.graph.getAllFactors) (hnr : NoRepeats w.graph.getAllFactors)
    (hsafe : ∀ f ∈ w.graph.getAllFactors, ReuseSafe f) (blocks : Nat → List (Mat F))
    (hblocks : ∀ (k : Nat) f, w.graph.getAllFactors[k]? = some f →
      f.computeJacobians w.heap [] = .ok (blocks k) ∧ ProperBlocks w.heap f (blocks k))
    (hfree : ∃ f ∈ w.graph.getAllFactors, ∃ r, some r ∈ f.variables ∧ VarLike.isConst (w.heap r) = false) :
    ∃ g' m, computeSparse w.heap w.graph = (g', .ok m) ∧ g'.sparseJacobian = .ok m ∧
      m.rows = w.graph.numResiduals ∧ m.columns.length = w.graph.numValues ∧
      IsStackedJacobian w.heap w.graph.getAllVariables w.graph.getAllFactors blocks m.coeff ∧
      ∀ (env : Env F V) g'' J, computeDense env w.heap w.graph = (g'', .ok J) →
        ∀ a b, a < w.graph.numResiduals → b < w.graph.numValues → m.coeff a b = J.entry a b := by
  have hr := finalizedAfter_ready (good := fun k b => ∀ f, w.graph.facs[k]? = some f → OwnBuffer f b) hw hpre hid hnr
    (fun _ _ _ => .nil) (fun k f hf h buf js hb hj f' hf' => by
      obtain rfl : f = f' := by simpa [hf] using hf'
      exact .out (hb f hf) hj)
  have hproper := fun (k : Nat) f hf => (hblocks k f hf).2
  obtain ⟨g', m, e1, e2, e3, e4, e5⟩ := computeSparse_ok hr blocks hblocks
    (fun k f hf h buf hb => hsafe f (List.mem_of_getElem? hf) h buf (hb f hf))
    (fun hc => alloc_pos hr blocks hproper hfree hc.2)
  have hst := sparse_stacked hr.laid hr.ids hr.ident hr.norep blocks hproper m e5
  refine ⟨g', m, e1, ?_, e3, e4, hst, ?_⟩
  · have : g'.sparseValid = true := by
      unfold computeSparse at e1
      rw [if_neg (by simp [hr.laid.fin]), if_neg (by simp [hr.laid.sinit])] at e1
      split at e1
      · simp at e1
      · simp at e1
      · dsimp only at e1
        split at e1
        · simp at e1
        · simp at e1
        · simp only [Prod.mk.injEq] at e1
          rw [← e1.1]
    simp [Graph.sparseJacobian, this, e2]
  · intro env g'' J hJ a b ha hb
    obtain ⟨J', d1, _, _, d4⟩ := computeDense_ok (env := env) hr blocks hblocks
    rw [d1] at hJ
    obtain rfl : J' = J := by simpa using (Prod.mk.inj hJ).2
    rw [hr.laid.nr] at ha
    rw [hr.laid.nv] at hb
    exact stacked_unique (nodup_of_ids_nodup hr.ids) hproper hst d4 ha hb

example : ∃ g' m, computeSparse Toy.world.heap Toy.world.graph = (g', .ok m) ∧ m.coeff 2 0 = -3 ∧ m.coeff 0 2 = 0 := by
  obtain ⟨g', m, h1, _⟩ := C07_sparse Toy.finalizedAfter Toy.noJacobianYet Toy.identify Toy.noRepeats
    Toy.reuseSafe Toy.blocks Toy.blocks_ok Toy.free
  have e : ((computeSparse Toy.world.heap Toy.world.graph).2 matches .ok m) = true := by rw [h1]
  refine ⟨g', m, h1, ?_⟩
  have h2 : (match (computeSparse Toy.world.heap Toy.world.graph).2 with
      | .ok m => some (m.coeff 2 0, m.coeff 0 2) | _ => none) = some (-3, 0) := by decide +kernel
  rw [h1] at h2
  simpa using h2

/-- **C07**, the excluded corner: in a finalized graph without any Jacobian entry (every variable of every factor is
constant) the first sparse evaluation succeeds with an all-zero matrix, but each later one throws, because Eigen's
value pointer is null. -/
theorem C07_no_entries_throws {h0 : Heap V} {pre post : List (Op F V × Res Unit)} {w : World F V}
    (hw : FinalizedAfter h0 pre post w) (hpre : NoJacobianYet pre)
    (hid : IdsIdentify w.heap w.graph.getAllVariables w.graph.getAllFactors) (hnr : NoRepeats w.graph.getAllFactors)
    (hsafe : ∀ f ∈ w.graph.getAllFactors, ReuseSafe f) (blocks : Nat → List (Mat F))
    (hblocks : ∀ (k : Nat) f, w.graph.getAllFactors[k]? = some f →
      f.computeJacobians w.heap [] = .ok (blocks k) ∧ ProperBlocks w.heap f (blocks k))
    (halloc : w.graph.sparse.alloc = 0) (hdone : w.graph.sparseJacobian ≠ .threw) :
    ∃ g', computeSparse w.heap w.graph = (g', .threw) := by
  have hr := finalizedAfter_ready (good := fun k b => ∀ f, w.graph.facs[k]? = some f → OwnBuffer f b) hw hpre hid hnr
    (fun _ _ _ => .nil) (fun k f hf h buf js hb hj f' hf' => by
      obtain rfl : f = f' := by simpa [hf] using hf'
      exact .out (hb f hf) hj)
  have hv : w.graph.sparseValid = true := by
    unfold Graph.sparseJacobian at hdone
    by_cases h : w.graph.sparseValid
    · exact h
    · simp [h] at hdone
  obtain ⟨s, e1, hso, _⟩ := sparseLoop_ok hr.laid hr.ids hr.ident _ hr.safe
    (fun k f hf h buf hb => hsafe f (List.mem_of_getElem? hf) h buf (hb f hf)) hr.comps blocks hblocks
  have h1 : s.g.sparseValid = true := by rw [hso.eq]; exact hv
  have h2 : s.g.sparse = w.graph.sparse := by rw [hso.eq]
  refine ⟨{ s.g with sparse := w.graph.sparse }, ?_⟩
  unfold computeSparse
  rw [if_neg (by simp [hr.laid.fin]), if_neg (by simp [hr.laid.sinit]), e1]
  simp only [h1, if_true, h2]
  simp [copySparse, SE.bind, SE.get, SE.throw, halloc]

namespace C07
/-- A graph with one constant variable and a between factor on constants only; the sparse Jacobian has been computed once. -/
def heap : Heap (GenVar Int) := fun r => ⟨r + 1, true, [5]⟩
def build : List (Op Int (GenVar Int)) :=
  [.addVariable (some 0), .addVariable (some 1), .addVariable (some 2), .addFactor (some (genericBetween 10 0 1 2 1 2))]
def world : World Int (GenVar Int) := Toy.exec Toy.env (build ++ .finalize :: [.sparse]) (World.init heap)
theorem finalizedAfter : FinalizedAfter heap (build.zip [.ok (), .ok (), .ok (), .ok ()]) [(.sparse, .ok ())] world := by
  have h := Toy.exec_finalizedAfter Toy.env heap build [.sparse] (by decide +kernel) (by decide +kernel)
    (by simp [Op.isValueOp])
  rw [show Toy.outcomes Toy.env build (World.init heap) = [.ok (), .ok (), .ok (), .ok ()] by decide +kernel,
    show Toy.outcomes Toy.env [.sparse] (Toy.exec Toy.env (build ++ [.finalize]) (World.init heap)) = [.ok ()] by
      decide +kernel] at h
  exact h
theorem facs_eq : world.graph.getAllFactors = [genericBetween 10 0 1 2 1 2] :=
  (lists_runs finalizedAfter.1 (Hist.init heap) _ fun _ => rfl).2
theorem heap_eq : world.heap 0 = ⟨1, true, [5]⟩ ∧ world.heap 1 = ⟨2, true, [5]⟩ ∧ world.heap 2 = ⟨3, true, [5]⟩ := by
  decide +kernel
end C07

/-- The second sparse evaluation throws. -/
example : ∃ g', computeSparse C07.world.heap C07.world.graph = (g', .threw) := by
  obtain ⟨h0, h1, h2⟩ := C07.heap_eq
  refine C07_no_entries_throws C07.finalizedAfter (by simp [NoJacobianYet, C07.build]) ?_ ?_ ?_
    (fun _ => [Mat.empty, Mat.empty, Mat.empty]) ?_ (by decide +kernel) ?_
  · intro f hf v hv r hr e
    rw [C07.facs_eq, List.mem_singleton] at hf
    subst hf
    rw [show C07.world.graph.getAllVariables = [0, 1, 2] by decide +kernel] at hr
    simp only [genericBetween, List.mem_cons, List.not_mem_nil, or_false, Option.some.injEq] at hv hr
    rcases hv with rfl | rfl | rfl <;> rcases hr with rfl | rfl | rfl <;> first
      | rfl
      | (simp only [h0, h1, h2, VarLike.id] at e; exact absurd e (by decide))
  · intro f hf p q r hp hq
    rw [C07.facs_eq, List.mem_singleton] at hf
    subst hf
    simp only [genericBetween] at hp hq
    match p, q with
    | 0, 0 | 1, 1 | 2, 2 => rfl
    | 0, 1 | 0, 2 | 1, 0 | 1, 2 | 2, 0 | 2, 1 => simp at hp hq; subst hp; exact absurd hq (by decide)
    | p + 3, _ => simp at hp
    | _, q + 3 => simp at hq
  · intro f hf h buf _
    rw [C07.facs_eq, List.mem_singleton] at hf
    subst hf
    rfl
  · intro k f hf
    rw [C07.facs_eq] at hf
    match k with
    | 0 =>
      obtain rfl : genericBetween 10 0 1 2 1 2 = f := by simpa using hf
      refine ⟨by simp only [genericBetween, betweenBlock, h0, h1, h2]; rfl, fun p r hp => ?_⟩
      match p with
      | 0 =>
        obtain rfl : 0 = r := by simpa [genericBetween] using hp
        exact ⟨Mat.empty, rfl, fun _ => rfl, by rw [h0]; simp [VarLike.isConst]⟩
      | 1 =>
        obtain rfl : 1 = r := by simpa [genericBetween] using hp
        exact ⟨Mat.empty, rfl, fun _ => rfl, by rw [h1]; simp [VarLike.isConst]⟩
      | 2 =>
        obtain rfl : 2 = r := by simpa [genericBetween] using hp
        exact ⟨Mat.empty, rfl, fun _ => rfl, by rw [h2]; simp [VarLike.isConst]⟩
      | p + 3 => simp [genericBetween] at hp
    | k + 1 => simp at hf
  · simp [sparseJacobian, show C07.world.graph.sparseValid = true by decide +kernel]

/-- **C09**. `apply_increment(dx)` with the right length, when each non-constant variable accepts the part of `dx` at
its own columns, replaces each such variable by its increment and leaves every other object as it was. -/
theorem C09_apply {h0 : Heap V} {pre post : List (Op F V × Res Unit)} {w : World F V}
    (hw : FinalizedAfter h0 pre post w) (dx : List F) (hlen : dx.length = w.graph.numValues) (new : VRef → V)
    (hnew : ∀ r ∈ w.graph.getAllVariables, VarLike.isConst (w.heap r) = false →
      VarLike.applyIncr (w.heap r) (partOf w.heap w.graph.getAllVariables dx r) = .ok (new r)) (env : Env F V) :
    World.step env (.applyIncrement dx) w = (⟨fun r =>
      if r ∈ w.graph.getAllVariables ∧ VarLike.isConst (w.heap r) = false then new r else w.heap r, w.graph⟩, .ok ()) := by
  have hl := finalizedAfter_layout hw
  simp only [World.step, World.onHeap, applyIncrement_ok hl dx hlen new hnew]
  rfl

/-- After the example's history the free variables hold 9, 8 and 7, 6; constants keep their values. -/
example : (World.step Toy.env (.applyIncrement [1, 2, 3, 4]) Toy.world).2 = .ok () := by
  have h := C09_apply Toy.finalizedAfter [1, 2, 3, 4] (by rw [Toy.numValues_eq]; rfl)
    (fun r => if r = 0 then ⟨1, false, [10, 10]⟩ else ⟨3, false, [10, 10]⟩) (by
      rw [Toy.vars_eq]; decide +kernel) Toy.env
  rw [h]

/-- **C09**, refusals: a vector of the wrong length, or a graph not yet finalized, is refused and nothing changes. -/
theorem C09_refused (env : Env F V) (dx : List F) (w : World F V)
    (h : w.graph.finalized = false ∨ dx.length ≠ w.graph.numValues) :
    World.step env (.applyIncrement dx) w = (w, .threw) := by
  simp only [World.step, World.onHeap, applyIncrement]
  rcases h with h | h
  · rw [if_pos (by simp [h])]; rfl
  · by_cases hf : w.graph.finalized
    · rw [if_neg (by simp [hf]), if_pos h]; rfl
    · rw [if_pos (by simpa using hf)]; rfl

example : World.step Toy.env (.applyIncrement [1, 2, 3]) Toy.world = (Toy.world, .threw) :=
  C09_refused Toy.env _ Toy.world (Or.inr (by rw [Toy.numValues_eq]; decide))

/-- **C10**, reading. -/
theorem C10_get {h0 : Heap V} {pre post : List (Op F V × Res Unit)} {w : World F V}
    (hw : FinalizedAfter h0 pre post w)
    (hval : ∀ r ∈ w.graph.getAllVariables, VarLike.isConst (w.heap r) = false →
      (VarLike.value (w.heap r)).length = VarLike.size (w.heap r)) (env : Env F V) :
    getVariableVector env w.graph w.heap =
      .ok ((w.graph.getAllVariables.filter fun r => !VarLike.isConst (w.heap r)).flatMap fun r =>
        VarLike.value (w.heap r)) :=
  getVariableVector_ok (finalizedAfter_layout hw) hval

example : getVariableVector Toy.env Toy.world.graph Toy.world.heap = .ok [9, 8, 7, 6] :=
  (C10_get Toy.finalizedAfter (by rw [Toy.vars_eq]; decide +kernel) Toy.env).trans
    (by rw [Toy.vars_eq]; decide +kernel)

/-- **C10**, writing back what was read changes nothing, if every free variable accepts its own value. -/
theorem C10_set_get {h0 : Heap V} {pre post : List (Op F V × Res Unit)} {w : World F V}
    (hw : FinalizedAfter h0 pre post w)
    (hval : ∀ r ∈ w.graph.getAllVariables, VarLike.isConst (w.heap r) = false →
      (VarLike.value (w.heap r)).length = VarLike.size (w.heap r))
    (hself : ∀ r ∈ w.graph.getAllVariables, VarLike.isConst (w.heap r) = false →
      VarLike.setValue (w.heap r) (VarLike.value (w.heap r)) = .ok (w.heap r)) (env : Env F V) (x : List F)
    (hx : getVariableVector env w.graph w.heap = .ok x) :
    World.step env (.setVector x) w = (w, .ok ()) := by
  have hl := finalizedAfter_layout hw
  rw [C10_get hw hval env] at hx
  obtain rfl := Res.ok.inj hx
  have hparts := parts_of_concat w.heap w.graph.varsVec hl.nodup hval
  have hlen : ((w.graph.varsVec.filter fun r => !VarLike.isConst (w.heap r)).flatMap fun r =>
      VarLike.value (w.heap r)).length = w.graph.numValues := by
    rw [hl.nv, concat_length w.heap w.graph.varsVec hval]
  have := setVector_ok hl _ hlen w.heap (fun r hr hc => by
    rw [hparts r hr hc]; exact hself r hr hc)
  simp only [World.step, World.onHeap, getAllVariables, this]
  simp only [ite_self]
  rfl

example : World.step Toy.env (.setVector [9, 8, 7, 6]) Toy.world = (Toy.world, .ok ()) :=
  C10_set_get Toy.finalizedAfter (by rw [Toy.vars_eq]; decide +kernel) (by rw [Toy.vars_eq]; decide +kernel) Toy.env _
    (by decide +kernel)

/-- **C10**, reading back what was written: if every free variable accepts its part of `x` and then reports it as its
value, `get_variable_vector()` returns `x`. -/
theorem C10_get_set {h0 : Heap V} {pre post : List (Op F V × Res Unit)} {w : World F V}
    (hw : FinalizedAfter h0 pre post w) (x : List F) (hlen : x.length = w.graph.numValues) (new : VRef → V)
    (hnew : ∀ r ∈ w.graph.getAllVariables, VarLike.isConst (w.heap r) = false →
      VarLike.setValue (w.heap r) (partOf w.heap w.graph.getAllVariables x r) = .ok (new r) ∧
      VarLike.value (new r) = partOf w.heap w.graph.getAllVariables x r) (env : Env F V) :
    ∃ w', World.step env (.setVector x) w = (w', .ok ()) ∧
      (∀ r, w'.heap r = if r ∈ w.graph.getAllVariables ∧ VarLike.isConst (w.heap r) = false then new r else w.heap r) ∧
      getVariableVector env w'.graph w'.heap = .ok x := by
  have hl := finalizedAfter_layout hw
  have hset := setVector_ok hl x hlen new (fun r hr hc => (hnew r hr hc).1)
  have hstep : World.step env (.setVector x) w = (⟨fun r =>
      if r ∈ w.graph.varsVec ∧ VarLike.isConst (w.heap r) = false then new r else w.heap r, w.graph⟩, .ok ()) := by
    simp only [World.step, World.onHeap, hset]; rfl
  refine ⟨_, hstep, fun _ => rfl, ?_⟩
  have hk := kept_step (env := env) (op := .setVector x) (w := w) trivial
  rw [hstep] at hk
  have hl' := hl.kept hk.1 hk.2
  have hcongr : ∀ r ∈ w.graph.varsVec, VarLike.isConst (w.heap r) = false →
      (if r ∈ w.graph.varsVec ∧ VarLike.isConst (w.heap r) = false then new r else w.heap r) = new r := by
    intro r hr hc; simp [hr, hc]
  have hend : ∀ r ∈ w.graph.varsVec, VarLike.isConst (w.heap r) = false →
      (partOf w.heap w.graph.varsVec x r).length = VarLike.size (w.heap r) := by
    intro r hr hc
    have := col_end_le (h := w.heap) hr
    rw [freeSize_of_nonconst hc, ← hl.nv, ← hlen] at this
    simp only [partOf, List.length_take, List.length_drop]
    omega
  rw [getVariableVector_ok hl' (by
    intro r hr hc
    simp only at hc hr ⊢
    have hc0 : VarLike.isConst (w.heap r) = false := by rw [(hk.2 r).2.1] at hc; exact hc
    rw [hcongr r hr hc0, (hnew r hr hc0).2]
    have h1 := hend r hr hc0
    have h2 : VarLike.size (new r) = VarLike.size (w.heap r) := LawfulVar.size_setValue _ _ _ (hnew r hr hc0).1
    rw [h2]; exact h1)]
  congr 1
  have hfilter : (w.graph.varsVec.filter fun r => !VarLike.isConst
      (if r ∈ w.graph.varsVec ∧ VarLike.isConst (w.heap r) = false then new r else w.heap r)) =
      w.graph.varsVec.filter fun r => !VarLike.isConst (w.heap r) := by
    apply List.filter_congr
    intro r hr
    have := (hk.2 r).2.1
    rw [this]
  simp only [getAllVariables] at hnew ⊢
  rw [hfilter]
  have h3 := concat_parts w.heap w.graph.varsVec hl.nodup x (by rw [hlen, hl.nv]) [] w.graph.varsVec rfl
  simp only [freeTotal, List.map_nil, List.sum_nil, List.drop_zero] at h3
  refine Eq.trans ?_ h3
  rw [List.flatMap_def, List.flatMap_def]
  congr 1
  apply List.map_congr_left
  intro r hr
  simp only [List.mem_filter] at hr
  have hc0 : VarLike.isConst (w.heap r) = false := by simpa using hr.2
  rw [hcongr r hr.1 hc0, (hnew r hr.1 hc0).2]

example : ∃ w', World.step Toy.env (.setVector [1, 2, 3, 4]) Toy.world = (w', .ok ()) ∧
    getVariableVector Toy.env w'.graph w'.heap = .ok [1, 2, 3, 4] := by
  obtain ⟨w', h1, _, h3⟩ := C10_get_set Toy.finalizedAfter [1, 2, 3, 4] (by rw [Toy.numValues_eq]; rfl)
    (fun r => if r = 0 then ⟨1, false, [1, 2]⟩ else ⟨3, false, [3, 4]⟩) (by rw [Toy.vars_eq]; decide +kernel) Toy.env
  exact ⟨w', h1, h3⟩

/-- **C11**. In every history without a successful `finalize_structure()`, all numeric calls throw and change nothing. -/
theorem C11_guards {h0 : Heap V} {evs : List (Op F V × Res Unit)} {w : World F V}
    (hrun : World.Runs (World.init h0) evs w) (hno : (.finalize, .ok ()) ∉ evs) (env : Env F V) :
    (∀ dx, World.step env (.applyIncrement dx) w = (w, .threw)) ∧
    World.step env .residual w = (w, .threw) ∧
    (∀ buf, computeResidualInto env w.graph w.heap buf = (buf, .threw)) ∧
    World.step env .dense w = (w, .threw) ∧
    World.step env .denseAndResidual w = (w, .threw) ∧
    World.step env .sparse w = (w, .threw) := by
  have hf := not_finalized hrun hno
  refine ⟨fun dx => C09_refused env dx w (Or.inl hf), ?_, ?_, ?_, ?_, ?_⟩
  · simp [World.step, World.onGraph, computeResidual, hf, Res.void]
  · intro buf; simp [computeResidualInto, hf, SE.throw]
  · simp [World.step, World.onGraph, computeDense, hf, Res.void]
  · simp [World.step, World.onGraph, computeDenseAndResidual, hf, Res.void]
  · simp [World.step, World.onGraph, computeSparse, hf, Res.void]

/-- A history with a failed finalization. -/
example : World.step Toy.env .sparse (Toy.exec Toy.env Toy.build (World.init Toy.heap)) =
    (Toy.exec Toy.env Toy.build (World.init Toy.heap), .threw) := by
  have ho : Toy.outcomes Toy.env Toy.build (World.init Toy.heap) =
      [.ok (), .threw, .ok (), .ok (), .threw, .ok (), .ok (), .ok ()] := by decide +kernel
  have hr := Toy.exec_runs Toy.env Toy.build (World.init Toy.heap) (by rw [ho]; decide)
  rw [ho] at hr
  exact (C11_guards hr (by simp [Toy.build, Toy.facs]) Toy.env).2.2.2.2.2

/-- **C11**, cached results: `residual()`, `jacobian()` and `sparse_jacobian()` throw until a computation of that kind
has succeeded. (A combined evaluation may compute the dense Jacobian and then throw on the residual.) -/
theorem C11_caches {h0 : Heap V} {evs : List (Op F V × Res Unit)} {w : World F V}
    (hrun : World.Runs (World.init h0) evs w) :
    ((.residual, .ok ()) ∉ evs → (.denseAndResidual, .ok ()) ∉ evs → w.graph.residual = .threw) ∧
    ((.dense, .ok ()) ∉ evs → (∀ r, (.denseAndResidual, r) ∉ evs) → w.graph.jacobian = .threw) ∧
    ((.sparse, .ok ()) ∉ evs → w.graph.sparseJacobian = .threw) := by
  refine ⟨fun h1 h2 => ?_, fun h1 h2 => ?_, fun h1 => ?_⟩
  · have := flag_runs hrun (fun w => w.graph.resValid)
      (fun ev => ev = (.residual, .ok ()) ∨ ev = (.denseAndResidual, .ok ()))
      (fun _ _ _ _ _ hs _ => (flags_step hs).2.2.1) rfl
      (by rintro ev hev (e | e) <;> subst e <;> contradiction)
    simp [Graph.residual, this]
  · have := flag_runs hrun (fun w => w.graph.jacValid)
      (fun ev => ev = (.dense, .ok ()) ∨ ev.1 = .denseAndResidual)
      (fun _ _ _ _ _ hs _ => (flags_step hs).1) rfl
      (by
        rintro ⟨op, r⟩ hev (e | e)
        · exact h1 (e ▸ hev)
        · simp only at e; subst e; exact h2 r hev)
    simp [Graph.jacobian, this]
  · have := flag_runs hrun (fun w => w.graph.sparseValid) (fun ev => ev = (.sparse, .ok ()))
      (fun _ _ _ _ _ hs _ => (flags_step hs).2.1) rfl (fun ev hev e => h1 (e ▸ hev))
    simp [Graph.sparseJacobian, this]

example : (Toy.exec Toy.env Toy.build (World.init Toy.heap)).graph.jacobian = .threw := by
  have ho : Toy.outcomes Toy.env Toy.build (World.init Toy.heap) =
      [.ok (), .threw, .ok (), .ok (), .threw, .ok (), .ok (), .ok ()] := by decide +kernel
  have hr := Toy.exec_runs Toy.env Toy.build (World.init Toy.heap) (by rw [ho]; decide)
  rw [ho] at hr
  exact (C11_caches hr).2.1 (by simp [Toy.build]) (by simp [Toy.build])

end Factorama.Props
