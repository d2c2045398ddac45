import Verif.Lemmas.OptFresh
import Verif.Examples.ToyOpt

/-!
# C75: an optimizer that is set up again is as good as new
-/

namespace Factorama.Props
open Factorama.Spec Graph Opt
variable {F V Fact : Type} [Zero F] [VarLike F V] [LawfulVar F V]

/-- **C75.** Take a graph no `finalize_structure()` call on which has failed, and two optimizers in any states `o` and
`o'` whatsoever: new ones, ones that have optimized another graph or this one, ones that an exception has interrupted.
Set both up with the same arguments and make the same calls. Then every call has the same outcome, and both programs
end with the same variables, the same graph and the same covariance reports; once an `optimize()` has returned, the
statistics agree too. -/
theorem C75_setup_forgets {A : Arith F} {L : LinAlg F Fact} {h0 : Heap V} {pre : List (Op F V × Res Unit)} {w : World F V}
    (hw : World.Runs (World.init h0) pre w) (hpre : (.finalize, .threw) ∉ pre)
    (o o' : Optimizer F Fact) (g : Bool) (st : Settings F) {r : Res Unit} {calls : List (Call F V × Res Unit)}
    {t : OptWorld F V Fact} (hrun : Opt.Runs A L ⟨w.heap, w.graph, o⟩ ((.setup g st, r) :: calls) t)
    (hcalls : (.user .finalize, .threw) ∉ calls) :
    ∃ t', Opt.Runs A L ⟨w.heap, w.graph, o'⟩ ((.setup g st, r) :: calls) t' ∧
      t'.heap = t.heap ∧ t'.graph = t.graph ∧
      (∀ v, estimateCovariance A L t' v = estimateCovariance A L t v) ∧
      ((.optimize, .ok ()) ∈ calls → t'.opt.stats = t.opt.stats ∧ t'.opt.initialStats = t.opt.initialStats) := by
  cases hrun with
  | @cons _ s1 _ _ _ _ env hs hub hrest =>
    have hal := setup_forgets (s := ⟨w.heap, w.graph, o⟩) (s' := ⟨w.heap, w.graph, o'⟩) rfl rfl
      (covered_runs hw hpre) g st
    have hs' : setup g st ⟨w.heap, w.graph, o⟩ = (s1, r) := hs
    rw [hs'] at hal
    rcases e : setup g st (⟨w.heap, w.graph, o'⟩ : OptWorld F V Fact) with ⟨s1', r'⟩
    rw [e] at hal
    obtain ⟨h1, h2⟩ := hal
    dsimp only at h1 h2
    subst h1
    obtain ⟨t', ht, hwk, hsim⟩ := runs_alike hrest h2 hcalls
    exact ⟨t', .cons env e hub ht, hwk.heap, hwk.graph, estimateCovariance_alike hwk A L,
      fun hm => ⟨(hsim (.inr hm)).stats, (hsim (.inr hm)).initialStats⟩⟩

namespace C75
open ToyOpt
open Toy (exec outcomes exec_runs)

/-- An optimizer that has failed on another problem, one with a singular normal matrix. -/
def used : Optimizer Rat (Ldlt.Fact Rat) := (optimize rat Ldlt.linAlg env (start stiffWorld lm)).1.opt

def calls : List (Call Rat (GenVar Rat)) :=
  [.setup true gn, .optimize, .user (.setValue 0 [9, 9]), .optimize, .prepare]

def ops : List (Op Rat (GenVar Rat)) := build ++ .finalize :: []

def begin' : OptWorld Rat (GenVar Rat) (Ldlt.Fact Rat) :=
  ⟨(exec env ops (World.init heap)).heap, (exec env ops (World.init heap)).graph, Optimizer.init rat⟩

theorem used_differs : used.stats ≠ (Optimizer.init rat : Optimizer Rat (Ldlt.Fact Rat)).stats ∧
    used.residual1 = [50000000000, 0] := by decide +kernel

theorem outcomes_eq : callOutcomes calls begin' = [.ok (), .ok (), .ok (), .ok (), .ok ()] := by decide +kernel

theorem built : World.Runs (World.init heap) (ops.zip (outcomes env ops (World.init heap)))
    (exec env ops (World.init heap)) := exec_runs env ops (World.init heap) (by decide +kernel)

theorem neverFailed : (.finalize, .threw) ∉ ops.zip (outcomes env ops (World.init heap)) := by
  have ho : outcomes env ops (World.init heap) = [.ok (), .ok (), .ok (), .ok (), .ok (), .ok ()] := by decide +kernel
  rw [ho]
  simp [ops, build]

theorem run : Opt.Runs rat Ldlt.linAlg begin'
    ((.setup true gn, .ok ()) :: [(.optimize, .ok ()), (.user (.setValue 0 [9, 9]), .ok ()), (.optimize, .ok ()),
      (.prepare, .ok ())]) (execCalls calls begin') := by
  have := execCalls_runs calls begin' (by rw [outcomes_eq]; decide)
  rw [outcomes_eq] at this
  exact this

end C75

/-- A new optimizer and one that has failed on another problem (its statistics and buffers are different ones) optimize,
re-optimize and prepare the covariance alike. -/
example := C75_setup_forgets C75.built C75.neverFailed _ C75.used true ToyOpt.gn C75.run (by simp)

end Factorama.Props
