import Verif.Lemmas.Renaming

/-!
# Whole programs that differ in identifiers only
-/

set_option linter.unusedSectionVars false

namespace Factorama.Ids
open Spec Graph Opt
variable {F V Fact : Type} [Zero F] [VarLike F V] [LawfulVar F V]
variable {E : V → V → Prop} {τ : Int → Int} {n n' : VRef → Int}

/-- Code on the whole state with the same outcome and related results. -/
abbrev WKeeps {α : Type} (E : V → V → Prop) (τ : Int → Int) (n n' : VRef → Int) (m m' : SE (OptWorld F V Fact) α) : Prop :=
  Keeps (WRel E τ n n') m m'

theorem modOpt_keeps (f : Optimizer F Fact → Optimizer F Fact) :
    WKeeps E τ n n' (modOpt f : SE (OptWorld F V Fact) Unit) (modOpt f) :=
  .modify fun _ _ hs => ⟨hs.heap, hs.graph, by dsimp only; rw [hs.opt]⟩

theorem modStats_keeps (f : Stats F → Stats F) : WKeeps E τ n n' (modStats f : SE (OptWorld F V Fact) Unit) (modStats f) :=
  .modify fun _ _ hs => ⟨hs.heap, hs.graph, by dsimp only; rw [hs.opt]⟩

theorem onHeap_keeps {α : Type} {m : Graph F V → SE (Heap V) α}
    (hm : ∀ g g', GRel E τ n n' g g' → Keeps (HRel E n n') (m g) (m g')) :
    WKeeps E τ n n' (Opt.onHeap m : SE (OptWorld F V Fact) α) (Opt.onHeap m) := by
  intro s s' hs
  obtain ⟨e, h1⟩ := hm _ _ hs.graph _ _ hs.heap
  exact ⟨e, h1, hs.graph, hs.opt⟩

section
variable {env env' : Env F V} (he : EnvRel τ env env')
include he

theorem evalResidual1_keeps : WKeeps E τ n n' (evalResidual1 env : SE (OptWorld F V Fact) Unit) (evalResidual1 env') := by
  intro s s' hs
  unfold evalResidual1
  dsimp only
  rw [computeResidualInto_eq he hs.graph hs.heap, hs.opt]
  exact ⟨rfl, hs.heap, hs.graph, rfl⟩

theorem evalResidual2_keeps : WKeeps E τ n n' (evalResidual2 env : SE (OptWorld F V Fact) Unit) (evalResidual2 env') := by
  intro s s' hs
  unfold evalResidual2
  dsimp only
  rw [computeResidualInto_eq he hs.graph hs.heap, hs.opt]
  exact ⟨rfl, hs.heap, hs.graph, rfl⟩

theorem evalInitial_keeps : WKeeps E τ n n' (evalInitial env : SE (OptWorld F V Fact) (List F)) (evalInitial env') := by
  intro s s' hs
  obtain ⟨e, h1⟩ := computeResidual_keeps he hs.heap _ _ hs.graph
  exact ⟨e, hs.heap, h1, hs.opt⟩
end

theorem evalSparse_keeps : WKeeps E τ n n' (evalSparse : SE (OptWorld F V Fact) (SpMat F)) evalSparse := by
  intro s s' hs
  obtain ⟨e, h1⟩ := computeSparse_keeps hs.heap _ _ hs.graph
  exact ⟨e, hs.heap, h1, hs.opt⟩

theorem giveUp_keeps (st : Status) : WKeeps E τ n n' (giveUp st : SE (OptWorld F V Fact) Unit) (giveUp st) := modStats_keeps _

theorem recordStats_keeps (A : Arith F) (dx r : List F) :
    WKeeps E τ n n' (recordStats A dx r : SE (OptWorld F V Fact) Unit) (recordStats A dx r) := modStats_keeps _

theorem raiseLambda_keeps (A : Arith F) :
    WKeeps E τ n n' (raiseLambda A : SE (OptWorld F V Fact) Unit) (raiseLambda A) := by
  refine .get fun s s' hs => ?_
  rw [hs.opt]
  exact modStats_keeps _

section
variable (hE : DifferInId (F := F) E)
include hE

theorem stepVariables_keeps (dx : List F) :
    WKeeps E τ n n' (stepVariables dx : SE (OptWorld F V Fact) Unit) (stepVariables dx) := by
  refine onHeap_keeps fun g g' hg => ?_
  rw [hg.varsVec]
  exact .forEach fun r _ => stepVariable_keeps hE hg dx r

theorem saveValues_eq {s s' : OptWorld F V Fact} (hs : WRel E τ n n' s s') : saveValues s' = saveValues s := by
  unfold saveValues
  rw [hs.graph.varsVec]
  exact List.map_congr_left fun r _ => by rw [value_eq hE hs.heap]

theorem restoreValues_keeps (saved : List (VRef × List F)) :
    WKeeps E τ n n' (restoreValues saved : SE (OptWorld F V Fact) Unit) (restoreValues saved) :=
  onHeap_keeps fun _ _ _ => .forEach fun p _ => mutate_keeps (fine_setValue hE p.2) p.1

variable (A : Arith F) (L : LinAlg F Fact) {env env' : Env F V} (he : EnvRel τ env env')

theorem prepare_keeps : WKeeps E τ n n' (prepare A L : SE (OptWorld F V Fact) Unit) (prepare A L) := by
  refine .get fun s s' hs => ?_
  have e : s'.graph.sparseJacobian = s.graph.sparseJacobian := by rw [hs.graph.eq]; rfl
  rw [hs.opt, e]
  split
  · exact .ret ()
  split
  · exact .ret ()
  · refine (Keeps.lift _).bind fun J => ?_
    dsimp only
    split
    · exact modOpt_keeps _
    split
    · exact (modOpt_keeps _).bind fun _ => .undefined
    · exact modOpt_keeps _

include he

theorem gaussNewtonStep_keeps :
    WKeeps E τ n n' (gaussNewtonStep A L env : SE (OptWorld F V Fact) Unit) (gaussNewtonStep A L env') := by
  refine .get fun s0 s0' hs0 => ?_
  rw [hs0.opt]
  split
  · exact .throw
  · refine (evalResidual1_keeps he).bind fun _ => evalSparse_keeps.bind fun J => .get fun s s' hs => ?_
    dsimp only
    rw [hs.opt]
    split
    · exact (modOpt_keeps _).bind fun _ => giveUp_keeps _
    · refine (modOpt_keeps _).bind fun _ => ?_
      split
      · exact .undefined
      split
      · exact giveUp_keeps _
      split
      · exact giveUp_keeps _
      split
      · exact giveUp_keeps _
      · refine (stepVariables_keeps hE _).bind fun _ => (evalResidual2_keeps he).bind fun _ => .get fun s2 s2' hs2 => ?_
        rw [hs2.opt]
        exact recordStats_keeps _ _ _

theorem lmTrials_keeps (J : SpMat F) (cost : F) : ∀ k dx,
    WKeeps E τ n n' (lmTrials A L env J cost k dx : SE (OptWorld F V Fact) (Bool × List F)) (lmTrials A L env' J cost k dx) := by
  intro k
  induction k with
  | zero => intro _; exact .ret _
  | succ k ih =>
    intro dx
    refine .get fun s s' hs => ?_
    dsimp only
    rw [hs.opt, saveValues_eq hE hs]
    split
    · exact (modOpt_keeps _).bind fun _ => (raiseLambda_keeps A).bind fun _ => ih _
    · refine (modOpt_keeps _).bind fun _ => ?_
      split
      · exact .undefined
      split
      · exact (raiseLambda_keeps A).bind fun _ => ih _
      split
      · exact (raiseLambda_keeps A).bind fun _ => ih _
      · refine (stepVariables_keeps hE _).bind fun _ => (evalResidual2_keeps he).bind fun _ => .get fun s1 s1' hs1 => ?_
        rw [hs1.opt]
        split
        · exact (modStats_keeps _).bind fun _ => .ret _
        · refine (restoreValues_keeps hE _).bind fun _ => (modStats_keeps _).bind fun _ => .get fun s2 s2' hs2 => ?_
          rw [hs2.opt]
          split
          · exact .ret _
          · exact ih _

theorem levenbergMarquardtStep_keeps :
    WKeeps E τ n n' (levenbergMarquardtStep A L env : SE (OptWorld F V Fact) Unit) (levenbergMarquardtStep A L env') := by
  refine .get fun s0 s0' hs0 => ?_
  rw [hs0.opt]
  split
  · exact .throw
  · refine (evalResidual1_keeps he).bind fun _ => evalSparse_keeps.bind fun J => .get fun s s' hs => ?_
    rw [hs.opt]
    refine (modStats_keeps _).bind fun _ => (lmTrials_keeps hE A L he J _ 5 []).bind fun res => ?_
    split
    · refine .get fun s1 s1' hs1 => ?_
      rw [hs1.opt]
      exact recordStats_keeps _ _ _
    · refine Keeps.bind (.get fun s1 s1' hs1 => ?_) fun _ => (modOpt_keeps _).bind fun _ => .get fun s2 s2' hs2 => ?_
      · rw [hs1.opt]
        split
        · exact modStats_keeps _
        · exact modStats_keeps _
      · rw [hs2.opt]
        exact recordStats_keeps _ _ _

theorem oneStep_keeps : WKeeps E τ n n' (oneStep A L env : SE (OptWorld F V Fact) Unit) (oneStep A L env') := by
  refine .get fun s s' hs => ?_
  rw [hs.opt]
  split
  · exact gaussNewtonStep_keeps hE A L he
  · exact levenbergMarquardtStep_keeps hE A L he

theorem iterate_keeps : ∀ k, WKeeps E τ n n' (iterate A L env k : SE (OptWorld F V Fact) Unit) (iterate A L env' k) := by
  intro k
  induction k with
  | zero => exact .ret ()
  | succ k ih =>
    intro s s' hs
    obtain ⟨e, h1⟩ := oneStep_keeps hE A L he s s' hs
    unfold iterate
    generalize oneStep A L env s = p at e h1 ⊢
    generalize oneStep A L env' s' = p' at e h1 ⊢
    obtain ⟨t, r⟩ := p
    obtain ⟨t', r'⟩ := p'
    dsimp only at e h1
    subst e
    cases r' with
    | ub => exact ⟨rfl, h1⟩
    | threw => exact giveUp_keeps .failed t t' h1
    | ok _ =>
      dsimp only
      rw [h1.opt, hs.opt]
      generalize afterStep A t.opt.settings t.opt.initialStats s.opt.stats t.opt.stats = q
      split
      · exact ⟨rfl, h1.heap, h1.graph, rfl⟩
      · exact ih _ _ ⟨h1.heap, h1.graph, rfl⟩

theorem optimize_keeps : WKeeps E τ n n' (optimize A L env : SE (OptWorld F V Fact) Unit) (optimize A L env') := by
  refine .get fun s s' hs => ?_
  rw [hs.opt]
  split
  · exact .throw
  · exact (modStats_keeps _).bind fun _ => (evalInitial_keeps he).bind fun _ => (modStats_keeps _).bind fun _ =>
      (modOpt_keeps _).bind fun _ => (iterate_keeps hE A L he _).bind fun _ => (modStats_keeps _).bind fun _ => modOpt_keeps _

/-! ### Calls -/

theorem step_keeps (hn : Names n n') (hτ : Distinct τ) {c : Call F V}
    (hc : ∀ f, c = .user (.addFactor (some f)) → IgnoresIds E f) :
    WKeeps E τ n n' (Opt.step A L env c : SE (OptWorld F V Fact) Unit) (Opt.step A L env' (renamedCall τ c)) := by
  cases c with
  | setup b st => exact modOpt_keeps _
  | optimize => exact optimize_keeps hE A L he
  | prepare => exact prepare_keeps hE A L
  | user op =>
    intro s s' hs
    have hmut : ∀ r {f : V → Res V}, Fine E f →
        ((mutate r f s'.heap).2 = (mutate r f s.heap).2 ∧ HRel E n n' (mutate r f s.heap).1 (mutate r f s'.heap).1) :=
      fun r f hf => mutate_keeps hf r _ _ hs.heap
    cases op with
    | addVariable p =>
      cases p with
      | none => exact ⟨rfl, hs⟩
      | some r =>
        have e : (s'.graph.varsMap (VarLike.id (s'.heap r))).isSome = (s.graph.varsMap (VarLike.id (s.heap r))).isSome := by
          rw [(hs.heap r).2.1, (hs.heap r).2.2, hs.graph.varsMap]
        simp only [renamedCall, Opt.step, World.step, World.onGraph, addVariable, e]
        split
        · exact ⟨rfl, hs.heap, hs.graph, hs.opt⟩
        · refine ⟨rfl, hs.heap, ⟨?_, ?_, hs.graph.facsMap, hs.graph.varPl, hs.graph.facs, hs.graph.placed⟩, hs.opt⟩
          · dsimp only
            rw [hs.graph.varsVec]
            exact (by rw [hs.graph.eq]; rfl)
          · intro x
            dsimp only
            rw [(hs.heap r).2.1, (hs.heap r).2.2]
            unfold mapSet
            by_cases e : n x = n r
            · rw [if_pos e, if_pos ((hn.same x r).2 e)]
            · rw [if_neg e, if_neg fun c => e ((hn.same x r).1 c)]
              exact hs.graph.varsMap x
    | addFactor p =>
      cases p with
      | none => exact ⟨rfl, hs⟩
      | some f =>
        have e : (s'.graph.facsMap (τ f.id)).isSome = (s.graph.facsMap f.id).isSome := hs.graph.facsMap _
        have e' : (renamed τ f).id = τ f.id := rfl
        simp only [renamedCall, Opt.step, World.step, World.onGraph, addFactor, e, e']
        split
        · exact ⟨rfl, hs.heap, hs.graph, hs.opt⟩
        · refine ⟨rfl, hs.heap, ⟨?_, hs.graph.varsMap, ?_, hs.graph.varPl, ?_, hs.graph.placed⟩, hs.opt⟩
          · dsimp only
            rw [hs.graph.facs_eq]
            rw [hs.graph.eq]
            simp only [regraph, List.map_append, List.map_cons, List.map_nil]
          · intro i
            dsimp only
            unfold mapSet
            by_cases e : i = f.id
            · rw [if_pos e, if_pos (by rw [e])]; rfl
            · rw [if_neg e, if_neg fun c => e (hτ _ _ c)]
              exact hs.graph.facsMap i
          · intro f' hf'
            rcases List.mem_append.1 hf' with h | h
            · exact hs.graph.facs f' h
            · rw [List.mem_singleton.1 h]; exact hc f rfl
    | finalize =>
      obtain ⟨e, h1⟩ := finalizeStructure_keeps hE hn hs.heap _ _ hs.graph
      exact ⟨by simp only [renamedCall, Opt.step, World.step, World.onGraph, e], hs.heap, h1, hs.opt⟩
    | setConstant r b =>
      obtain ⟨e, h1⟩ := hmut r (fine_setConst hE b)
      exact ⟨by simp only [renamedCall, Opt.step, World.step, World.onHeap, e], h1, hs.graph, hs.opt⟩
    | setValue r x =>
      obtain ⟨e, h1⟩ := hmut r (fine_setValue hE x)
      exact ⟨by simp only [renamedCall, Opt.step, World.step, World.onHeap, e], h1, hs.graph, hs.opt⟩
    | incrOne r x =>
      obtain ⟨e, h1⟩ := hmut r (fine_applyIncr hE x)
      exact ⟨by simp only [renamedCall, Opt.step, World.step, World.onHeap, e], h1, hs.graph, hs.opt⟩
    | setVector x =>
      obtain ⟨e, h1⟩ := setVectorLoop_keeps hE x s.graph.varsVec 0 _ _ hs.heap
      rw [← hs.graph.varsVec] at e h1
      refine ⟨?_, ?_, hs.graph, hs.opt⟩
      · simp only [renamedCall, Opt.step, World.step, World.onHeap, setVariableValuesFromVector]
        rw [e, hs.graph.varsVec]
      · simp only [renamedCall, Opt.step, World.step, World.onHeap, setVariableValuesFromVector]
        rw [hs.graph.varsVec] at h1 ⊢
        exact h1
    | applyIncrement dx =>
      have h0 : Keeps (HRel E n n') (applyIncrement s.graph dx) (applyIncrement s'.graph dx) := by
        unfold applyIncrement
        rw [hs.graph.finalized, hs.graph.numValues, hs.graph.varsVec]
        split
        · exact .throw
        split
        · exact .throw
        · exact .forEach fun r _ => applyIncrementOne_keeps hE hs.graph dx r
      obtain ⟨e, h1⟩ := h0 _ _ hs.heap
      exact ⟨by simp only [renamedCall, Opt.step, World.step, World.onHeap, e], h1, hs.graph, hs.opt⟩
    | residual =>
      obtain ⟨e, h1⟩ := computeResidual_keeps he hs.heap _ _ hs.graph
      exact ⟨by simp only [renamedCall, Opt.step, World.step, World.onGraph, e], hs.heap, h1, hs.opt⟩
    | residualInto buf =>
      refine ⟨?_, hs⟩
      simp only [renamedCall, Opt.step, World.step]
      rw [computeResidualInto_eq he hs.graph hs.heap]
    | dense =>
      obtain ⟨e, h1⟩ := computeDense_keeps hE he hs.heap _ _ hs.graph
      exact ⟨by simp only [renamedCall, Opt.step, World.step, World.onGraph, e], hs.heap, h1, hs.opt⟩
    | denseAndResidual =>
      obtain ⟨e, h1⟩ := computeDenseAndResidual_keeps hE he hs.heap _ _ hs.graph
      exact ⟨by simp only [renamedCall, Opt.step, World.step, World.onGraph, e], hs.heap, h1, hs.opt⟩
    | sparse =>
      obtain ⟨e, h1⟩ := computeSparse_keeps hs.heap _ _ hs.graph
      exact ⟨by simp only [renamedCall, Opt.step, World.step, World.onGraph, e], hs.heap, h1, hs.opt⟩
    | copy =>
      have e1 : s'.graph.sparse = s.graph.sparse := by rw [hs.graph.eq]; rfl
      refine ⟨rfl, hs.heap, hs.graph.change rfl ?_, hs.opt⟩
      show { s'.graph with sparse := s'.graph.sparse.copied } = _
      rw [e1]
      rw [hs.graph.eq]
      rfl
end

/-! ### Undetermined choices -/

theorem ren_inj (hτ : Distinct τ) {a b : Nat × FacPlacement F V} (h : ren τ a = ren τ b) : a = b := by
  obtain ⟨i, ⟨⟨id, m, vs, cr, cj⟩, ri, rd, ci, d⟩⟩ := a
  obtain ⟨j, ⟨⟨id', m', vs', cr', cj'⟩, ri', rd', ci', d'⟩⟩ := b
  simp only [ren, renamedPlace, renamed, Prod.mk.injEq, FacPlacement.mk.injEq, Factor.mk.injEq] at h ⊢
  obtain ⟨h1, ⟨h2, h3⟩, h4⟩ := h
  exact ⟨h1, ⟨hτ _ _ h2, h3⟩, h4⟩

theorem map_inj {α β : Type} {f : α → β} (hf : ∀ a b, f a = f b → a = b) : ∀ l l' : List α, l.map f = l'.map f → l = l'
  | [], [], _ => rfl
  | [], _ :: _, h => by simp at h
  | _ :: _, [], h => by simp at h
  | a :: l, b :: l', h => by
    simp only [List.map_cons, List.cons.injEq] at h
    rw [hf _ _ h.1, map_inj hf l l' h.2]

/-- For every choice in the first program there is a corresponding one in the second. -/
theorem env_forward (hτ : Distinct τ) (env : Env F V) : ∃ env', EnvRel τ env env' := by
  classical
  refine ⟨⟨fun l => if h : ∃ l0 : List (Nat × FacPlacement F V), l = l0.map (ren τ) then (env.order h.choose).map (ren τ) else l, ?_, env.junk⟩, ?_, rfl⟩
  · intro l
    by_cases h : ∃ l0 : List (Nat × FacPlacement F V), l = l0.map (ren τ)
    · simp only [dif_pos h]
      exact ((env.order_perm _).map _).trans (by rw [← h.choose_spec])
    · simp only [dif_neg h]
      exact .refl _
  · intro l
    have h : ∃ l0 : List (Nat × FacPlacement F V), l.map (ren τ) = l0.map (ren τ) := ⟨l, rfl⟩
    dsimp only
    rw [dif_pos h]
    exact congrArg (fun x => (env.order x).map (ren τ)) (map_inj (fun _ _ => ren_inj hτ) _ _ h.choose_spec).symm

theorem unmap {α β : Type} (f : α → β) : ∀ l : List β, (∀ b ∈ l, ∃ a, f a = b) → ∃ l0 : List α, l0.map f = l
  | [], _ => ⟨[], rfl⟩
  | b :: l, h => by
    obtain ⟨a, ha⟩ := h b (List.mem_cons_self ..)
    obtain ⟨l0, hl⟩ := unmap f l fun c hc => h c (List.mem_cons_of_mem _ hc)
    exact ⟨a :: l0, by rw [List.map_cons, ha, hl]⟩

theorem perm_of_map {α β : Type} {f : α → β} (hf : ∀ a b, f a = f b → a = b) {l l' : List α} (h : (l.map f).Perm (l'.map f)) :
    l.Perm l' := by
  classical
  by_cases hl : l = [] 
  · subst hl
    have : l'.map f = [] := by simpa using h.symm
    rw [List.map_eq_nil_iff.1 this]
  · have : Nonempty α := by
      cases l with
      | nil => exact absurd rfl hl
      | cons a _ => exact ⟨a⟩
    let g : β → α := fun b => if h : ∃ a, f a = b then h.choose else Classical.choice this
    have hg : ∀ a, g (f a) = a := fun a => by
      have h : ∃ a', f a' = f a := ⟨a, rfl⟩
      simp only [g, dif_pos h]
      exact hf _ _ h.choose_spec
    have e : ∀ l : List α, (l.map f).map g = l := fun l => by
      rw [List.map_map]
      conv => rhs; rw [← List.map_id l]
      exact List.map_congr_left fun a _ => hg a
    have := h.map g
    rwa [e, e] at this

/-- For every choice in the second program there is a corresponding one in the first. -/
theorem env_backward (hτ : Distinct τ) (env' : Env F V) : ∃ env, EnvRel τ env env' := by
  have h : ∀ l : List (Nat × FacPlacement F V), ∃ l0 : List (Nat × FacPlacement F V), l0.map (ren τ) = env'.order (l.map (ren τ)) := by
    intro l
    refine unmap _ _ fun b hb => ?_
    obtain ⟨a, _, ha⟩ := List.mem_map.1 ((env'.order_perm _).mem_iff.1 hb)
    exact ⟨a, ha⟩
  refine ⟨⟨fun l => (h l).choose, fun l => ?_, env'.junk⟩, fun l => (h l).choose_spec.symm, rfl⟩
  refine perm_of_map (fun _ _ => ren_inj hτ) ?_
  rw [(h l).choose_spec]
  exact env'.order_perm _

/-! ### Programs -/

section
variable (hE : DifferInId (F := F) E) (A : Arith F) (L : LinAlg F Fact) (hn : Names n n') (hτ : Distinct τ)
include hE hn hτ

theorem runs_forward {s t : OptWorld F V Fact} {evs : List (Call F V × Res Unit)} (h : Opt.Runs A L s evs t) :
    ∀ s', WRel E τ n n' s s' → OffersIgnoring E evs → ∃ t', Opt.Runs A L s' (renamedCalls τ evs) t' ∧ WRel E τ n n' t t' := by
  induction h with
  | nil s => intro s' hs _; exact ⟨s', .nil _, hs⟩
  | @cons s s1 s2 c evs r env e hr _ ih =>
    intro s' hs ho
    obtain ⟨env', he⟩ := env_forward hτ env
    have hk := step_keeps hE A L he hn hτ (c := c) (fun f hf => ho f r (by rw [← hf]; exact List.mem_cons_self ..)) s s' hs
    rw [e] at hk
    obtain ⟨t', ht, hw⟩ := ih _ hk.2 fun f r' hf => ho f r' (List.mem_cons_of_mem _ hf)
    exact ⟨t', .cons env' (Prod.ext rfl hk.1) hr ht, hw⟩

theorem runs_backward : ∀ (evs : List (Call F V × Res Unit)) {s s' t' : OptWorld F V Fact},
    Opt.Runs A L s' (renamedCalls τ evs) t' → WRel E τ n n' s s' → OffersIgnoring E evs →
    ∃ t, Opt.Runs A L s evs t ∧ WRel E τ n n' t t' := by
  intro evs
  induction evs with
  | nil =>
    intro s s' t' h hs _
    cases h
    exact ⟨s, .nil _, hs⟩
  | cons ev evs ih =>
    intro s s' t' h hs ho
    obtain ⟨c, r⟩ := ev
    cases h with
    | cons env' e hr hrest =>
      obtain ⟨env, he⟩ := env_backward hτ env'
      have hk := step_keeps hE A L he hn hτ (c := c) (fun f hf => ho f r (by rw [← hf]; exact List.mem_cons_self ..)) s s' hs
      rw [e] at hk
      obtain ⟨t, ht, hw⟩ := ih hrest hk.2 fun f r' hf => ho f r' (List.mem_cons_of_mem _ hf)
      exact ⟨t, .cons env (Prod.ext rfl hk.1.symm) hr ht, hw⟩
end

theorem init_rel (A : Arith F) {h h' : Heap V} (hh : OtherIds (F := F) E h h') :
    WRel E τ (fun r => VarLike.id (h r)) (fun r => VarLike.id (h' r)) (Opt.init A h : OptWorld F V Fact) (Opt.init A h') :=
  ⟨fun r => ⟨hh.1 r, rfl, rfl⟩, ⟨rfl, fun _ => rfl, fun _ => rfl, fun _ => rfl, by intro f hf; exact absurd hf (by simp [Opt.init, Graph.init]),
    by intro f hf; exact absurd hf (by simp [Opt.init, Graph.init])⟩, rfl⟩

theorem names_of {h h' : Heap V} (hh : OtherIds (F := F) E h h') :
    Names (fun r => VarLike.id (h r)) (fun r => VarLike.id (h' r)) := ⟨hh.2⟩

/-! ### What can be seen -/

theorem getVectorLoop_eq (hE : DifferInId (F := F) E) {g g' : Graph F V} (hg : GRel E τ n n' g g') {h h' : Heap V}
    (hh : HRel E n n' h h') (rs : List VRef) : ∀ off x, getVectorLoop g' h' rs off x = getVectorLoop g h rs off x := by
  induction rs with
  | nil => intro off x; rfl
  | cons r rs ih =>
    intro off x
    simp only [getVectorLoop, ih, isConst_eq hE hh, size_eq hE hh, value_eq hE hh, placement_eq hg hh]

theorem same_of_rel (hE : DifferInId (F := F) E) (A : Arith F) (L : LinAlg F Fact) {s s' : OptWorld F V Fact}
    (hs : WRel E τ n n' s s') : SameExceptIds A L E τ s s' where
  objects r := (hs.heap r).1
  values r := value_eq hE hs.heap r
  opt := hs.opt
  variables := hs.graph.varsVec
  factors := hs.graph.facs_eq
  byId r := by rw [(hs.heap r).2.1, (hs.heap r).2.2]; exact hs.graph.varsMap r
  vector env env' e := by
    unfold getVariableVector
    rw [hs.graph.varsVec, hs.graph.numValues, e]
    exact getVectorLoop_eq hE hs.graph hs.heap _ _ _
  residual := by rw [hs.graph.eq]; rfl
  jacobian := by rw [hs.graph.eq]; rfl
  sparseJacobian := by rw [hs.graph.eq]; rfl
  placement := placement_eq hs.graph hs.heap
  factorPlacement i := by
    unfold Graph.factorPlacement
    rw [hs.graph.facPl]
    cases i with
    | ofNat k => exact lookup_ren _ _
    | negSucc k => rfl
  covariance v := by
    cases v with
    | none => rfl
    | some r => simp only [estimateCovariance, hs.opt, isConst_eq hE hs.heap, size_eq hE hs.heap, placement_eq hs.graph hs.heap]

end Factorama.Ids
