import Verif.Lemmas.RepeatsBuild
import Verif.Examples.TinyGroups
import Verif.Props.Units

/-!
# Property C106: repeated measurements add up their information
-/

namespace Factorama.Props
open Spec Graph Opt

/-- **C106**, factors of the library. In place of one factor there are several of the same class with the same arguments and
other ids, whose standard deviations are those of the one factor divided by `c₁, c₂, …`, where the squares of these numbers
add up to 1. -/
theorem C106_library (l1 l2 : List (Factor ℝ RVar)) {f : Factor ℝ RVar} {fs : List (Factor ℝ RVar)} {cs : List ℝ}
    (h : List.Forall₂ (fun c f' => ∃ g id, SigmasDividedBy c f g ∧ f' = { g with id := id }) cs fs)
    (hs : (cs.map (· ^ 2)).sum = 1) : Repeats (l1 ++ [f] ++ l2) (l1 ++ fs ++ l2) := by
  refine .split l1 l2 (h.imp fun c f' hf => ?_) hs
  obtain ⟨g, id, hg, rfl⟩ := hf
  have := C104_factor hg
  exact ⟨this.variables, this.size, this.residual, this.jacobians⟩

/-- A bearing with standard deviation 3/25, or two with 1/5 and 3/20: `1/(3/25)² = 1/(1/5)² + 1/(3/20)²`. -/
example (rest : List (Factor ℝ RVar)) : Repeats ([Fac.bearing2D 10 0 1 2 (3 / 25)] ++ rest)
    ([Fac.bearing2D 10 0 1 2 (1 / 5), Fac.bearing2D 11 0 1 2 (3 / 20)] ++ rest) := by
  have := C106_library [] rest (f := Fac.bearing2D 10 0 1 2 (3 / 25)) (cs := [3 / 5, 4 / 5])
    (fs := [Fac.bearing2D 10 0 1 2 (3 / 25 / (3 / 5)), Fac.bearing2D 11 0 1 2 (3 / 25 / (4 / 5))])
    (.cons ⟨_, 10, .bearing2D 10 0 1 2 (3 / 25), rfl⟩ (.cons ⟨_, 11, .bearing2D 10 0 1 2 (3 / 25), rfl⟩ .nil)) (by norm_num)
  norm_num at this ⊢
  exact this

/-- `n` factors with standard deviation `σ √n` count as one with `σ`. -/
theorem C106_copies (l1 l2 : List (Factor ℝ RVar)) {f g : Factor ℝ RVar} {ids : List Int} (hn : ids ≠ [])
    (hg : SigmasDividedBy (1 / Real.sqrt ids.length) f g) :
    Repeats (l1 ++ [f] ++ l2) (l1 ++ (ids.map fun id => { g with id := id }) ++ l2) := by
  refine C106_library l1 l2 (cs := ids.map fun _ => 1 / Real.sqrt ids.length) ?_ ?_
  · refine List.forall₂_map_left_iff.2 (List.forall₂_map_right_iff.2 (List.forall₂_same.2 fun id _ => ⟨g, id, hg, rfl⟩))
  · have : (0 : ℝ) < ids.length := by
      have := List.length_pos_of_ne_nil hn
      exact_mod_cast this
    simp [Real.sq_sqrt this.le, this.ne']

/-- Four range and bearing measurements with standard deviations 1 and 1/5 in place of one with 1/2 and 1/10. -/
example (rest : List (Factor ℝ RVar)) : Repeats ([] ++ [Fac.rangeBearing2D 10 0 1 2 0 (1 / 2) (1 / 10)] ++ rest)
    ([] ++ ([10, 11, 12, 13].map fun id => Fac.rangeBearing2D id 0 1 2 0 1 (1 / 5)) ++ rest) := by
  have e : Real.sqrt (([10, 11, 12, 13] : List Int).length : ℝ) = 2 := by
    rw [show (([10, 11, 12, 13] : List Int).length : ℝ) = 2 ^ 2 by norm_num, Real.sqrt_sq (by norm_num)]
  have h : SigmasDividedBy (1 / Real.sqrt ([10, 11, 12, 13] : List Int).length) (Fac.rangeBearing2D 10 0 1 2 0 (1 / 2) (1 / 10))
      (Fac.rangeBearing2D 10 0 1 2 0 1 (1 / 5)) := by
    rw [e]
    have := SigmasDividedBy.rangeBearing2D (c := 1 / 2) 10 0 1 2 0 (1 / 2) (1 / 10)
    norm_num at this ⊢
    exact this
  exact C106_copies [] rest (by simp) h

section
variable {V Fact : Type} [VarLike ℝ V] [LawfulVar ℝ V] {L : LinAlg ℝ Fact}

/-- **C106**. Two graphs over the same variables, where the second has every measurement of the first possibly several times
with larger standard deviations `σ₁, σ₂, …` such that `1/σ² = 1/σ₁² + 1/σ₂² + …`, in any order. In exact arithmetic, with
either method and whatever the settings, both `optimize()` calls have the same outcome, status, statistics and final
variables; and unless a factor threw, the covariances are the same too. -/
theorem C106 (hL : ExactProducts L) {w w' : World ℝ V} (hw : Unused w) (hw' : Unused w') (hheap : w'.heap = w.heap)
    (hvars : w'.graph.getAllVariables = w.graph.getAllVariables)
    (hfacs : Repeats w.graph.getAllFactors w'.graph.getAllFactors)
    (hfree : ∃ f ∈ w.graph.getAllFactors, ∃ r, some r ∈ f.variables ∧ VarLike.isConst (w.heap r) = false)
    (o : Optimizer ℝ Fact) (env env' : Env ℝ V) {s s' : OptWorld ℝ V Fact} {x x' : Res Unit}
    (hs : optimize realArith L env ⟨w.heap, w.graph, o⟩ = (s, x))
    (hs' : optimize realArith L env' ⟨w'.heap, w'.graph, o⟩ = (s', x')) (hx : x ≠ .ub) (hx' : x' ≠ .ub) :
    x' = x ∧ s'.heap = s.heap ∧ s'.opt.stats = s.opt.stats ∧ s'.opt.initialStats = s.opt.initialStats ∧
    (x = .ok () → s.opt.stats.status ≠ .failed → ∀ t t' y y', prepare realArith L s = (t, y) →
      prepare realArith L s' = (t', y') → y ≠ .ub → y' ≠ .ub →
      y' = y ∧ ∀ v, estimateCovariance realArith L t' v = estimateCovariance realArith L t v) := by
  obtain ⟨h0, pre, post, hf, _⟩ := hw.history
  obtain ⟨h1, h2⟩ := hfacs.systems hL (List.Nodup.of_map _ (finalizedAfter_layout hf).ids)
  exact same_runs hw hw' hheap hvars h1 h2 hfree o env env' hs hs' hx hx'

end

/-! ### The hypotheses are met by the small graph -/

namespace C106

/-- The small graph with one prior of weight `5 u` and with two of weights `3 u` and `4 u`. -/
theorem repeats (p q u v w : ℝ) : Repeats (TinyGroups.once p q (5 * u) v w) (TinyGroups.twice p q (3 * u) (4 * u) v w) := by
  have h1 : Rescaled (3 / 5) (genericPrior 10 0 [p] (5 * u) : Factor ℝ (GenVar ℝ)) (genericPrior 10 0 [p] (3 * u)) := by
    have := C104.prior (3 / 5) 10 0 [p] (5 * u)
    rwa [show 3 / 5 * (5 * u) = 3 * u by ring, one_mul] at this
  have h2 : Rescaled (4 / 5) (genericPrior 10 0 [p] (5 * u) : Factor ℝ (GenVar ℝ)) (genericPrior 13 0 [p] (4 * u)) := by
    have := C104.prior (4 / 5) 10 0 [p] (5 * u)
    rw [show 4 / 5 * (5 * u) = 4 * u by ring, one_mul] at this
    exact ⟨this.variables, this.size, this.residual, this.jacobians⟩
  exact .split [] [genericBetween 11 0 1 2 1 v, genericPrior 12 1 [q] w] (cs := [3 / 5, 4 / 5]) (.cons h1 (.cons h2 .nil)) (by norm_num)

end C106

/-- Levenberg-Marquardt on the small graph, with one prior and with two. -/
example (o : Optimizer ℝ (Ldlt.Fact ℝ)) {s s' : OptWorld ℝ (GenVar ℝ) (Ldlt.Fact ℝ)} {x x' : Res Unit}
    (hs : optimize realArith Ldlt.linAlg (TinyWorld.env 0) ⟨(TinyGroups.world 0 0 1 (TinyGroups.once 4 7 (5 * 2) 3 1)).heap,
      (TinyGroups.world 0 0 1 (TinyGroups.once 4 7 (5 * 2) 3 1)).graph, o⟩ = (s, x))
    (hs' : optimize realArith Ldlt.linAlg (TinyWorld.env 0) ⟨(TinyGroups.world 0 0 1 (TinyGroups.twice 4 7 (3 * 2) (4 * 2) 3 1)).heap,
      (TinyGroups.world 0 0 1 (TinyGroups.twice 4 7 (3 * 2) (4 * 2) 3 1)).graph, o⟩ = (s', x')) (hx : x ≠ .ub) (hx' : x' ≠ .ub) :
    s'.heap = s.heap ∧ s'.opt.stats = s.opt.stats := by
  have b1 := TinyGroups.built_once (0 : ℝ) 0 1 4 7 (5 * 2) 3 1
  have b2 := TinyGroups.built_twice (0 : ℝ) 0 1 4 7 (3 * 2) (4 * 2) 3 1
  have h := C106 Ldlt.exact_products (TinyGroups.unused b1 (TinyGroups.good_once _ _ _ _ _)) (TinyGroups.unused b2 (TinyGroups.good_twice _ _ _ _ _ _))
    (b2.heap.trans b1.heap.symm) (b2.vars.trans b1.vars.symm) (by rw [b1.facs, b2.facs]; exact C106.repeats 4 7 2 3 1)
    (by rw [b1.facs, b1.heap]; exact ⟨_, List.mem_cons_self, 0, by simp [genericPrior], rfl⟩) o _ _ hs hs' hx hx'
  exact ⟨h.2.1, h.2.2.1⟩

/-- In rational arithmetic these runs return and succeed, with the same values, costs and covariances. -/
example :
    let run := fun fs => optimize ToyOpt.rat Ldlt.linAlg (TinyWorld.env 0) (ToyOpt.start (TinyGroups.world (0 : Rat) 0 1 fs) ToyOpt.lm)
    let one := run (TinyGroups.once 4 7 10 3 1)
    let two := run (TinyGroups.twice 4 7 6 8 3 1)
    one.2 = .ok () ∧ two.2 = .ok () ∧ one.1.opt.stats.status = .success ∧ two.1.opt.stats.status = .success ∧
    (one.1.heap 0).value = (two.1.heap 0).value ∧ one.1.opt.stats.chi2 = two.1.opt.stats.chi2 ∧
    C29.report (prepare ToyOpt.rat Ldlt.linAlg one.1).1 (some 0) = C29.report (prepare ToyOpt.rat Ldlt.linAlg two.1).1 (some 0) ∧
    C29.report (prepare ToyOpt.rat Ldlt.linAlg one.1).1 (some 0) = .ok (some [10 / 1009]) := by
  decide +kernel

end Factorama.Props
