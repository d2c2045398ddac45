import Verif.Lemmas.Twin
import Verif.Spec.Determinism
import Verif.Lemmas.OptSystem
import Verif.Lemmas.Defects

/-!
# Undetermined choices: two evaluations side by side
-/

namespace Factorama.Graph
open Spec
variable {F V : Type} [Zero F] [VarLike F V]

/-- The same graph with other contents of the cached residual and dense Jacobian. -/
def dress (b : List F) (M : Mat F) (g : Graph F V) : Graph F V := { g with cachedRes := b, cachedJac := M }

/-- A computation that neither reads nor writes the part changed by `d`. -/
def Blind {S α : Type} (d : S → S) (m : SE S α) : Prop := ∀ s, m (d s) = (d (m s).1, (m s).2)

section
variable {S α β : Type} {d : S → S}

theorem Blind.ret (a : α) : Blind d (SE.ret a : SE S α) := fun _ => rfl
theorem Blind.throw : Blind d (SE.throw : SE S α) := fun _ => rfl
theorem Blind.undefined : Blind d (SE.undefined : SE S α) := fun _ => rfl

theorem Blind.bind {m : SE S α} {k : α → SE S β} (hm : Blind d m) (hk : ∀ a, Blind d (k a)) : Blind d (SE.bind m k) := by
  intro s
  have h := hm s
  rcases e : m s with ⟨t, r⟩
  rw [e] at h
  cases r with
  | ok a => rw [SE.bind_ok e, SE.bind_ok h]; exact hk a t
  | threw => rw [SE.bind_threw e, SE.bind_threw h]
  | ub => rw [SE.bind_ub e, SE.bind_ub h]

theorem Blind.get {k : S → SE S β} (hk : ∀ s, k (d s) = k s ∧ Blind d (k s)) : Blind d (SE.bind SE.get k) := by
  intro s
  rw [SE.bind_get, SE.bind_get, (hk s).1]
  exact (hk s).2 s

theorem Blind.modify {f : S → S} (hf : ∀ s, f (d s) = d (f s)) : Blind d (SE.modify f) := by
  intro s
  simp only [SE.modify, hf]

theorem Blind.forEach {l : List α} {f : α → SE S Unit} (hf : ∀ a, Blind d (f a)) : Blind d (SE.forEach l f) := by
  induction l with
  | nil => exact fun _ => rfl
  | cons a l ih => exact .bind (hf a) fun _ => ih

end

/-- The same for the working state of the sparse evaluation. -/
def dressWork (b : List F) (M : Mat F) (s : SparseWork F V) : SparseWork F V := ⟨dress b M s.g, s.cur⟩

omit [Zero F] in
theorem sparseVars_blind (b : List F) (M : Mat F) (h : Heap V) (vs : List (Option VRef)) : ∀ js : List (Mat F),
    Blind (dressWork b M) (sparseVars h vs js) := by
  induction vs with
  | nil => exact fun _ => .ret _
  | cons o vs ih =>
    intro js
    cases js with
    | nil => cases o <;> exact .undefined
    | cons Ji js =>
      cases o with
      | none => exact .undefined
      | some r =>
        refine .get fun s => ⟨rfl, ?_⟩
        cases s.g.variablePlacement (VarLike.id (h r)) with
        | none => exact ih js
        | some p => exact .bind (fun _ => rfl) fun _ => ih js

theorem sparseOne_blind (b : List F) (M : Mat F) (h : Heap V) (i : Nat) :
    Blind (dressWork b M) (sparseOne h i : SE (SparseWork F V) Unit) := by
  refine .get fun s => ⟨rfl, ?_⟩
  cases s.g.facPl.lookup i with
  | none => exact .undefined
  | some fp =>
    cases s.g.sparseComps[i]? with
    | none => exact .undefined
    | some buf =>
      dsimp only
      cases fp.factor.computeJacobians h buf with
      | threw => exact .throw
      | ub => exact .undefined
      | ok js => exact .bind (.modify fun _ => rfl) fun _ => sparseVars_blind b M h _ js

theorem computeSparse_dress (b : List F) (M : Mat F) (h : Heap V) :
    Blind (dress b M) (computeSparse h : SE (Graph F V) (SpMat F)) := by
  intro g
  have hl := Blind.forEach (l := List.range g.facs.length) (sparseOne_blind b M h) ⟨g, List.replicate g.numValues 0⟩
  have hl' : SE.forEach (List.range g.facs.length) (sparseOne h) ⟨dress b M g, List.replicate g.numValues 0⟩ =
    (dressWork b M (SE.forEach (List.range g.facs.length) (sparseOne h) ⟨g, List.replicate g.numValues 0⟩).1,
      (SE.forEach (List.range g.facs.length) (sparseOne h) ⟨g, List.replicate g.numValues 0⟩).2) := hl
  unfold computeSparse
  simp only [show (dress b M g).finalized = g.finalized from rfl, show (dress b M g).sparseInit = g.sparseInit from rfl,
    show (dress b M g).facs = g.facs from rfl, show (dress b M g).numValues = g.numValues from rfl]
  by_cases h1 : (!g.finalized) = true
  · simp only [if_pos h1]
  by_cases h2 : (!g.sparseInit) = true
  · simp only [if_neg h1, if_pos h2]
  simp only [if_neg h1, if_neg h2]
  rw [hl']
  generalize SE.forEach (List.range g.facs.length) (sparseOne h) ⟨g, List.replicate g.numValues 0⟩ = p
  rcases p with ⟨s, r⟩
  cases r with
  | threw => rfl
  | ub => rfl
  | ok a =>
    simp only [show (dressWork b M s).g.sparseValid = s.g.sparseValid from rfl,
      show (dressWork b M s).g.sparseRows = s.g.sparseRows from rfl,
      show (dressWork b M s).g.sparseData = s.g.sparseData from rfl,
      show (dressWork b M s).g.numValues = s.g.numValues from rfl,
      show (dressWork b M s).g.sparse = s.g.sparse from rfl]
    generalize (if s.g.sparseValid then copySparse s.g.sparseRows s.g.sparseData s.g.numValues
      else populate s.g.sparseRows s.g.sparseData s.g.numValues) s.g.sparse = q
    rcases q with ⟨m, r⟩
    cases r <;> rfl

/-! ### Loops whose order does not matter for the outcome -/

theorem forEach_outcome {S α : Type} {f : α → SE S Unit} (Inv : S → Prop) (l : List α)
    (hf : ∀ a ∈ l, ∀ s, Inv s → Inv (f a s).1) (hout : ∀ a ∈ l, ∀ s s', Inv s → Inv s' → (f a s).2 = (f a s').2) :
    ∀ s, Inv s → Inv (SE.forEach l f s).1 ∧
      ((SE.forEach l f s).2 = .ok () ↔ ∀ a ∈ l, ∀ s, Inv s → (f a s).2 = .ok ()) := by
  induction l with
  | nil => exact fun s hs => ⟨hs, by simp [SE.forEach_nil]⟩
  | cons a l ih =>
    intro s hs
    rw [SE.forEach_cons]
    have h1 := hf a (by simp) s hs
    have h2 := hout a (by simp) s
    rcases e : f a s with ⟨t, r⟩
    rw [e] at h1 h2
    cases r with
    | ok u =>
      rw [SE.bind_ok e]
      obtain ⟨i1, i2⟩ := ih (fun a ha => hf a (by simp [ha])) (fun a ha => hout a (by simp [ha])) t h1
      refine ⟨i1, i2.trans ⟨fun hx => ?_, fun hx b hb => hx b (by simp [hb])⟩⟩
      intro b hb s' hs'
      rcases List.mem_cons.mp hb with rfl | hb
      · exact (h2 s' hs hs').symm
      · exact hx b hb s' hs'
    | threw =>
      rw [SE.bind_threw e]
      refine ⟨h1, by simp, fun hx => ?_⟩
      have := hx a (by simp) s hs
      rw [e] at this
      simp at this
    | ub =>
      rw [SE.bind_ub e]
      refine ⟨h1, by simp, fun hx => ?_⟩
      have := hx a (by simp) s hs
      rw [e] at this
      simp at this

theorem denseVars_outcome (g : Graph F V) (h : Heap V) (fp : FacPlacement F V) (vs : List (Option VRef)) :
    ∀ (js : List (Mat F)) (J : Mat F), (denseVars g h fp vs js J).1.rows = J.rows ∧
      (denseVars g h fp vs js J).1.cols = J.cols ∧
      ∀ J' : Mat F, J'.rows = J.rows → J'.cols = J.cols →
        (denseVars g h fp vs js J').2 = (denseVars g h fp vs js J).2 := by
  induction vs with
  | nil => exact fun js J => ⟨rfl, rfl, fun _ _ _ => rfl⟩
  | cons o vs ih =>
    intro js J
    cases js with
    | nil => cases o <;> exact ⟨rfl, rfl, fun _ _ _ => rfl⟩
    | cons Ji js =>
      cases o with
      | none => exact ⟨rfl, rfl, fun _ _ _ => rfl⟩
      | some r =>
        unfold denseVars
        split
        · split
          · exact ih js J
          · exact ⟨rfl, rfl, fun _ _ _ => rfl⟩
        · cases g.variablePlacement (VarLike.id (h r)) with
          | none => exact ih js J
          | some p =>
            simp only [SE.bind_get]
            split
            · refine ⟨rfl, rfl, fun J' e1 e2 => ?_⟩
              rw [e1, e2, if_pos (by assumption)]
              rfl
            · split
              · refine ⟨rfl, rfl, fun J' e1 e2 => ?_⟩
                rw [e1, e2, if_neg (by assumption)]
                rfl
              · split
                · refine ⟨rfl, rfl, fun J' e1 e2 => ?_⟩
                  rw [e1, e2, if_neg (by assumption)]
                  rfl
                · have i := ih js (J.setBlock fp.residualIndex p.index Ji)
                  refine ⟨i.1, i.2.1, fun J' e1 e2 => ?_⟩
                  rw [e1, e2, if_neg (by assumption)]
                  exact i.2.2 (J'.setBlock fp.residualIndex p.index Ji) e1 e2

theorem denseOne_outcome (g : Graph F V) (h : Heap V) (it : Nat × FacPlacement F V) (J : Mat F) :
    (denseOne g h it J).1.rows = J.rows ∧ (denseOne g h it J).1.cols = J.cols ∧
      ∀ J' : Mat F, J'.rows = J.rows → J'.cols = J.cols → (denseOne g h it J').2 = (denseOne g h it J).2 := by
  unfold denseOne
  cases it.2.factor.computeJacobians h [] with
  | ok js => exact denseVars_outcome g h it.2 _ js J
  | threw => exact ⟨rfl, rfl, fun _ _ _ => rfl⟩
  | ub => exact ⟨rfl, rfl, fun _ _ _ => rfl⟩

/-- The graphs of two executions that differ in undetermined choices only. -/
def Determined (h : Heap V) (g g' : Graph F V) : Prop :=
  Layout h g ∧ ∃ b M, M.rows = g.cachedJac.rows ∧ M.cols = g.cachedJac.cols ∧ g' = dress b M g

variable [LawfulVar F V]

theorem Determined.shape {h h' : Heap V} {g g' : Graph F V} (hd : Determined h g g') (hs : SameShape h h') :
    Determined h' g g' := ⟨hd.1.kept (Kept.refl g) hs, hd.2⟩

theorem Layout.dress {h : Heap V} {g : Graph F V} (hl : Layout h g) (b : List F) (M : Mat F) : Layout h (dress b M g) :=
  ⟨hl.fin, hl.pl, hl.nv, hl.fpl, hl.nr, hl.ids, hl.wp⟩

/-- A residual evaluation that returns returns the same in all executions; if it throws in one it does not return in any. -/
theorem Determined.residual {env env' : Env F V} {h : Heap V} {g g' : Graph F V} (hd : Determined h g g') (b b' : List F) :
    (∃ r, computeResidualInto env g h b = (r, .ok ()) ∧ computeResidualInto env' g' h b' = (r, .ok ())) ∨
    ((computeResidualInto env g h b).2 = .threw ∧ (computeResidualInto env' g' h b').2 = .threw) ∨
    (computeResidualInto env g h b).2 = .ub ∨ (computeResidualInto env' g' h b').2 = .ub := by
  obtain ⟨hl, c, M, _, _, rfl⟩ := hd
  have hl' := hl.dress c M
  rcases e : computeResidualInto env g h b with ⟨r, o⟩
  rcases e' : computeResidualInto env' (dress c M g) h b' with ⟨r', o'⟩
  cases o with
  | ub => exact .inr (.inr (.inl rfl))
  | ok u =>
    have h1 := Opt.evaluated_isResidual hl ⟨b, e⟩
    have h2 := Opt.isResidual_evaluates (env := env') hl' h1 b'
    rw [e'] at h2
    exact .inl ⟨r, rfl, h2⟩
  | threw =>
    cases o' with
    | ub => exact .inr (.inr (.inr rfl))
    | threw => exact .inr (.inl ⟨rfl, rfl⟩)
    | ok u =>
      have h1 := Opt.evaluated_isResidual hl' ⟨b', e'⟩
      have h2 := Opt.isResidual_evaluates (env := env) hl h1 b
      rw [e] at h2
      simp at h2

/-- The same for the evaluation into the cache. -/
theorem Determined.initial {env env' : Env F V} {h : Heap V} {g g' : Graph F V} (hd : Determined h g g') :
    (∃ g1 g1' r, computeResidual env h g = (g1, .ok r) ∧ computeResidual env' h g' = (g1', .ok r) ∧
      Determined h g1 g1') ∨
    (∃ g1 g1', computeResidual env h g = (g1, .threw) ∧ computeResidual env' h g' = (g1', .threw) ∧
      Determined h g1 g1') ∨
    (computeResidual env h g).2 = .ub ∨ (computeResidual env' h g').2 = .ub := by
  have hr := hd.residual (env := env) (env' := env')
    (if g.resValid then g.cachedRes else List.replicate g.numResiduals 0)
    (if g'.resValid then g'.cachedRes else List.replicate g'.numResiduals 0)
  obtain ⟨hl, c, M, hM1, hM2, rfl⟩ := hd
  have hfin : ¬ (!g.finalized) = true := by simp [hl.fin]
  have hfin' : ¬ (!(dress c M g).finalized) = true := hfin
  unfold computeResidual
  simp only [if_neg hfin, if_neg hfin']
  have hlay : ∀ b v, Layout h { g with cachedRes := b, resValid := v } := fun b v =>
    ⟨hl.fin, hl.pl, hl.nv, hl.fpl, hl.nr, hl.ids, hl.wp⟩
  generalize computeResidualInto env g h _ = p at hr ⊢
  generalize computeResidualInto env' (dress c M g) h _ = p' at hr ⊢
  rcases p with ⟨r, o⟩
  rcases p' with ⟨r', o'⟩
  rcases hr with ⟨x, e, e'⟩ | ⟨e, e'⟩ | e | e
  · cases e; cases e'
    exact .inl ⟨_, _, _, rfl, rfl, hlay _ _, _, M, hM1, hM2, rfl⟩
  · cases e; cases e'
    exact .inr (.inl ⟨_, _, rfl, rfl, hlay _ _, r', M, hM1, hM2, rfl⟩)
  · cases e
    exact .inr (.inr (.inl rfl))
  · cases e
    exact .inr (.inr (.inr rfl))

theorem Determined.sparse {h : Heap V} {g g' : Graph F V} (hd : Determined h g g') :
    (computeSparse h g').2 = (computeSparse h g).2 ∧ Determined h (computeSparse h g).1 (computeSparse h g').1 := by
  obtain ⟨hl, c, M, hM1, hM2, rfl⟩ := hd
  have e := computeSparse_dress c M h g
  have hk := computeSparse_kept h g
  have hc : (computeSparse h g).1.cachedJac = g.cachedJac :=
    congrArg (fun p => p.1.cachedJac) (computeSparse_dress g.cachedRes g.cachedJac h g)
  rw [e]
  exact ⟨rfl, hl.kept hk (SameShape.refl h), c, M, by rw [hc]; exact hM1, by rw [hc]; exact hM2, rfl⟩

/-- A dense evaluation that returns in one execution returns or is undefined in all. -/
theorem Determined.dense {env env' : Env F V} {h : Heap V} {g g' : Graph F V} (hd : Determined h g g') :
    (∃ g1 g1' J J', computeDense env h g = (g1, .ok J) ∧ computeDense env' h g' = (g1', .ok J') ∧
      Determined h g1 g1') ∨
    (∃ g1 g1', computeDense env h g = (g1, .threw) ∧ computeDense env' h g' = (g1', .threw) ∧
      Determined h g1 g1') ∨
    (computeDense env h g).2 = .ub ∨ (computeDense env' h g').2 = .ub := by
  obtain ⟨hl, c, M, hM1, hM2, rfl⟩ := hd
  have hfin : ¬ (!g.finalized) = true := by simp [hl.fin]
  have hfin' : ¬ (!(dress c M g).finalized) = true := hfin
  unfold computeDense
  simp only [if_neg hfin, if_neg hfin']
  have hst : (if (dress c M g).jacValid then (dress c M g).cachedJac
        else ⟨(dress c M g).numResiduals, (dress c M g).numValues, fun _ _ => 0⟩ : Mat F).rows =
      (if g.jacValid then g.cachedJac else ⟨g.numResiduals, g.numValues, fun _ _ => 0⟩ : Mat F).rows ∧
      (if (dress c M g).jacValid then (dress c M g).cachedJac
        else ⟨(dress c M g).numResiduals, (dress c M g).numValues, fun _ _ => 0⟩ : Mat F).cols =
      (if g.jacValid then g.cachedJac else ⟨g.numResiduals, g.numValues, fun _ _ => 0⟩ : Mat F).cols := by
    show (if g.jacValid then M else ⟨g.numResiduals, g.numValues, fun _ _ => 0⟩ : Mat F).rows = _ ∧
      (if g.jacValid then M else ⟨g.numResiduals, g.numValues, fun _ _ => 0⟩ : Mat F).cols = _
    split
    · exact ⟨hM1, hM2⟩
    · exact ⟨rfl, rfl⟩
  have hloop : ∀ (l : List (Nat × FacPlacement F V)) (J0 J : Mat F), J.rows = J0.rows ∧ J.cols = J0.cols →
      ((SE.forEach l (denseOne g h) J).1.rows = J0.rows ∧ (SE.forEach l (denseOne g h) J).1.cols = J0.cols) ∧
      ((SE.forEach l (denseOne g h) J).2 = .ok () ↔
        ∀ a ∈ l, ∀ J : Mat F, J.rows = J0.rows ∧ J.cols = J0.cols → (denseOne g h a J).2 = .ok ()) := by
    intro l J0 J hJ
    refine forEach_outcome (fun J : Mat F => J.rows = J0.rows ∧ J.cols = J0.cols) l ?_ ?_ J hJ
    · intro a _ J hJ
      have := denseOne_outcome g h a J
      exact ⟨this.1.trans hJ.1, this.2.1.trans hJ.2⟩
    · intro a _ J J' hJ hJ'
      exact (denseOne_outcome g h a J').2.2 J (hJ.1.trans hJ'.1.symm) (hJ.2.trans hJ'.2.symm)
  have hden : denseOne (dress c M g) h = denseOne g h := by
    funext it
    unfold denseOne
    simp only [denseVars_congr (g := g) (g' := dress c M g) rfl]
  rw [hden]
  generalize (if g.jacValid then g.cachedJac else ⟨g.numResiduals, g.numValues, fun _ _ => 0⟩ : Mat F) = J0 at hst ⊢
  generalize (if (dress c M g).jacValid then (dress c M g).cachedJac
    else ⟨(dress c M g).numResiduals, (dress c M g).numValues, fun _ _ => 0⟩ : Mat F) = J0' at hst ⊢
  show (∃ g1 g1' J J', _ ∧ _) ∨ _
  obtain ⟨a1, a2⟩ := hloop (env.order g.facPl) J0 J0 ⟨rfl, rfl⟩
  obtain ⟨b1, b2⟩ := hloop (env'.order g.facPl) J0 J0' hst
  have hiff : (SE.forEach (env.order g.facPl) (denseOne g h) J0).2 = .ok () ↔
      (SE.forEach (env'.order g.facPl) (denseOne g h) J0').2 = .ok () := by
    rw [a2, b2]
    simp only [(env.order_perm g.facPl).mem_iff, (env'.order_perm g.facPl).mem_iff]
  have hlay : ∀ J v, Layout h { g with cachedJac := J, jacValid := v } := fun b v =>
    ⟨hl.fin, hl.pl, hl.nv, hl.fpl, hl.nr, hl.ids, hl.wp⟩
  rw [show (dress c M g).facPl = g.facPl from rfl]
  rcases e : SE.forEach (env.order g.facPl) (denseOne g h) J0 with ⟨J, o⟩
  rcases e' : SE.forEach (env'.order g.facPl) (denseOne g h) J0' with ⟨J', o'⟩
  rw [e] at a1 hiff
  rw [e'] at b1 hiff
  cases o with
  | ub => exact .inr (.inr (.inl rfl))
  | ok u =>
    have : o' = .ok () := hiff.mp rfl
    subst this
    exact .inl ⟨_, _, J, J', rfl, rfl, hlay _ _, c, J', b1.1.trans a1.1.symm, b1.2.trans a1.2.symm, rfl⟩
  | threw =>
    cases o' with
    | ub => exact .inr (.inr (.inr rfl))
    | ok u =>
      have := hiff.mpr rfl
      simp at this
    | threw => exact .inr (.inl ⟨_, _, rfl, rfl, hlay _ _, c, J', b1.1.trans a1.1.symm, b1.2.trans a1.2.symm, rfl⟩)

end Factorama.Graph

namespace Factorama.Graph
open Spec
variable {F V : Type} [Zero F] [VarLike F V]

theorem finalize_dress (b : List F) (M : Mat F) (h : Heap V) :
    Blind (dress b M) (finalizeStructure h : SE (Graph F V) Unit) := by
  intro g
  unfold finalizeStructure
  simp only [show (dress b M g).varsVec = g.varsVec from rfl, show (dress b M g).facs = g.facs from rfl,
    show (dress b M g).sparse = g.sparse from rfl]
  generalize placeVariables h g.varsVec 0 (fun _ => none) = p
  rcases p with ⟨pl, nv⟩
  dsimp only
  generalize placeFactors h pl g.facs 0 0 [] = q
  rcases q with ⟨fpl, r⟩
  cases r with
  | threw => rfl
  | ub => rfl
  | ok nr =>
    dsimp only
    by_cases hlt : nr < nv
    · simp only [if_pos hlt]; rfl
    simp only [if_neg hlt]
    generalize countRows h pl fpl (List.replicate nv 0) = c
    cases c with
    | threw => rfl
    | ub => rfl
    | ok counts =>
      dsimp only
      generalize SE.forEach (fpl.flatMap fun it => rowIndexWrites it.2) (scatterOne .ub)
        (counts.map fun n => List.replicate n 0, List.replicate nv 0) = d
      rcases d with ⟨s, r⟩
      cases r <;> rfl

end Factorama.Graph

namespace Factorama.Opt
open Spec Graph
variable {F V Fact : Type} [Zero F] [VarLike F V] [LawfulVar F V]

theorem determined_laws (A : Arith F) (L : LinAlg F Fact) (env env' : Env F V) :
    TwinLaws A L env env' (Determined (F := F) (V := V)) Determined where
  weaken := id
  vars := by rintro h g _ ⟨_, b, M, _, _, rfl⟩; rfl
  place := by rintro h g _ ⟨_, b, M, _, _, rfl⟩; rfl
  shape := Determined.shape
  shape1 := Determined.shape
  residual b b' hd := by
    rcases hd.residual (env := env) (env' := env') b b' with ⟨r, e, e'⟩ | h | h | h
    · exact .inl ⟨r, r, e, e', rfl⟩
    · exact .inr (.inl h)
    · exact .inr (.inr (.inl h))
    · exact .inr (.inr (.inr h))
  initial hd := by
    rcases hd.initial (env := env) (env' := env') with ⟨g1, g1', r, e, e', h⟩ | h | h | h
    · exact .inl ⟨g1, g1', r, r, e, e', rfl, h⟩
    · exact .inr (.inl h)
    · exact .inr (.inr (.inl h))
    · exact .inr (.inr (.inr h))
  sparse {h g g'} hd := by
    obtain ⟨h1, h2⟩ := hd.sparse
    rcases e : computeSparse h g with ⟨g1, o⟩
    rcases e' : computeSparse h g' with ⟨g1', o'⟩
    rw [e, e'] at h1 h2
    obtain rfl : o' = o := h1
    cases o' with
    | ub => exact .inr (.inr (.inl rfl))
    | threw => exact .inr (.inl ⟨g1, g1', rfl, rfl, h2⟩)
    | ok J =>
      refine .inl ⟨g1, g1', J, J, rfl, rfl, h2, rfl, fun r r' hr hr' => ?_⟩
      obtain ⟨hl, b, M, _, _, rfl⟩ := hd
      have a1 := evaluated_isResidual hl hr
      have a2 := evaluated_isResidual (hl.dress b M) hr'
      rw [isResidual_unique a1 a2]
  jac {h g g'} hd := by
    obtain ⟨_, b, M, _, _, rfl⟩ := hd
    have e : (dress b M g).sparseJacobian = g.sparseJacobian := rfl
    rw [e]
    rcases hj : g.sparseJacobian with J | _ | _
    · exact .inl ⟨J, J, rfl, rfl, rfl⟩
    · exact .inr ⟨rfl, rfl⟩
    · unfold sparseJacobian at hj
      split at hj <;> simp at hj

/-- Graphs of two executions, not necessarily laid out. -/
def Dressed (_ : Heap V) (g g' : Graph F V) : Prop :=
  ∃ b M, M.rows = g.cachedJac.rows ∧ M.cols = g.cachedJac.cols ∧ g' = dress b M g

/-- The states of two executions of a program after the same calls `evs`. -/
structure Parallel (evs : List (Call F V × Res Unit)) (s s' : OptWorld F V Fact) : Prop where
  twin : Twin Dressed anyPair s s'
  hist : Hist s.heap s.graph
  never : NeverFinalized evs → s.graph.finalized = false ∧ s' = s
  current : StructureCurrent evs → Layout s.heap s.graph

omit [LawfulVar F V] in
theorem structureCurrent_snoc {evs : List (Call F V × Res Unit)} {c : Call F V} {r : Res Unit}
    (h : StructureCurrent (evs ++ [(c, r)])) : (c = .user .finalize ∧ r = .ok ()) ∨
      (¬ changesStructure c ∧ StructureCurrent evs) := by
  obtain ⟨pre, post, e, hp⟩ := h
  rcases List.eq_nil_or_concat post with rfl | ⟨post', last, rfl⟩
  · have := List.append_inj' e rfl
    simp at this
    exact .inl this.2
  · rw [show pre ++ (.user .finalize, .ok ()) :: (post'.concat last) =
      (pre ++ (.user .finalize, .ok ()) :: post') ++ [last] by simp] at e
    obtain ⟨e1, e2⟩ := List.append_inj' e rfl
    simp at e2
    subst e2
    exact .inr ⟨hp (c, r) (by simp), pre, post', e1, fun ev hev => hp ev (by simp [hev])⟩

omit [Zero F] [VarLike F V] [LawfulVar F V] in
theorem neverFinalized_snoc {evs : List (Call F V × Res Unit)} {c : Call F V} {r : Res Unit}
    (h : NeverFinalized (evs ++ [(c, r)])) : NeverFinalized evs ∧ (c, r) ≠ (.user .finalize, .ok ()) := by
  unfold NeverFinalized at h ⊢
  simp only [List.mem_append, List.mem_singleton, not_or] at h
  exact ⟨h.1, fun e => h.2 e.symm⟩


theorem reach_call {A : Arith F} {L : LinAlg F Fact} {env : Env F V} {c : Call F V} {s t : OptWorld F V Fact} {r : Res Unit}
    (hc : ¬ changesStructure c) (he : step A L env c s = (t, r)) (hr : r ≠ .ub) : Reach (OptWorld.world s) (OptWorld.world t) := by
  cases c with
  | user op =>
    have hop : op.isValueOp := by
      cases op <;> first | trivial | exact absurd trivial hc
    simp only [step, Prod.mk.injEq] at he
    obtain ⟨rfl, rfl⟩ := he
    exact Reach.single hop hr
  | setup g st =>
    have : t = (step A L env (.setup g st) s).1 := by rw [he]
    subst this
    exact Reach.refl _
  | optimize =>
    have := Traced.optimize A L env s
    rw [show optimize A L env s = (t, r) from he] at this
    exact this hr
  | prepare =>
    have := Traced.prepare A L s
    rw [show prepare A L s = (t, r) from he] at this
    exact this hr

theorem kept_call {A : Arith F} {L : LinAlg F Fact} {env : Env F V} {c : Call F V} {s t : OptWorld F V Fact} {r : Res Unit}
    (hc : ¬ changesStructure c) (he : step A L env c s = (t, r)) (hr : r ≠ .ub) :
    Kept s.graph t.graph ∧ SameShape s.heap t.heap := by
  obtain ⟨evs, hv, hrun⟩ := reach_call hc he hr
  exact kept_runs hrun hv

theorem hist_call {A : Arith F} {L : LinAlg F Fact} {env : Env F V} {c : Call F V} {s t : OptWorld F V Fact} {r : Res Unit}
    (he : step A L env c s = (t, r)) (hr : r ≠ .ub) (hh : Hist s.heap s.graph) : Hist t.heap t.graph := by
  by_cases hc : changesStructure c
  · cases c with
    | user op =>
      simp only [step, Prod.mk.injEq] at he
      obtain ⟨rfl, rfl⟩ := he
      exact hist_step (w := ⟨s.heap, s.graph⟩) hh
    | setup _ _ => exact hc.elim
    | optimize => exact hc.elim
    | prepare => exact hc.elim
  · obtain ⟨evs, _, hrun⟩ := reach_call hc he hr
    exact hist_runs (w := OptWorld.world s) (w' := OptWorld.world t) hrun hh

omit [LawfulVar F V] in
theorem Twin.dressed_refl (s : OptWorld F V Fact) : Twin Dressed anyPair s s :=
  ⟨s.graph, s.opt.residual1, s.opt.residual2, rfl, ⟨s.graph.cachedRes, s.graph.cachedJac, rfl, rfl, rfl⟩, trivial⟩

omit [LawfulVar F V] in
/-- Before the first finalization nothing undetermined is looked at. -/
theorem unfinalized_call (A : Arith F) (L : LinAlg F Fact) (env env' : Env F V) (c : Call F V) {s : OptWorld F V Fact}
    (hf : s.graph.finalized = false) : step A L env' c s = step A L env c s := by
  have e1 : ∀ (h : Heap V) (env : Env F V), computeResidual env h s.graph = (s.graph, .threw) := fun h env => by
    simp [computeResidual, hf]
  have e2 : ∀ (h : Heap V) (env : Env F V), computeDense env h s.graph = (s.graph, .threw) := fun h env => by
    simp [computeDense, hf]
  have e3 : ∀ (h : Heap V) (env : Env F V), computeDenseAndResidual env h s.graph = (s.graph, .threw) := fun h env => by
    simp [computeDenseAndResidual, hf]
  have e4 : ∀ (h : Heap V) (env : Env F V) b, computeResidualInto env s.graph h b = (b, .threw) := fun h env b => by
    simp [computeResidualInto, hf, SE.throw]
  cases c with
  | user op =>
    cases op with
    | residual => simp only [step, World.step, World.onGraph, e1]
    | residualInto b => simp only [step, World.step, e4]
    | dense => simp only [step, World.step, World.onGraph, e2]
    | denseAndResidual => simp only [step, World.step, World.onGraph, e3]
    | _ => rfl
  | setup g st => rfl
  | prepare => rfl
  | optimize =>
    show optimize A L env' s = optimize A L env s
    unfold optimize
    rw [SE.bind_get, SE.bind_get]
    split
    · rfl
    · have : ∀ (env : Env F V) (s' : OptWorld F V Fact), s'.graph = s.graph → evalInitial env s' = (s', .threw) := by
        intro env s' hs
        simp only [evalInitial, hs, e1]
        rw [← hs]
      have hm := fun env => this env { s with opt := { s.opt with stats := { Stats.default A with valid := true } } } rfl
      have ho : (modStats (fun _ => { Stats.default A with valid := true }) : SE (OptWorld F V Fact) Unit) s =
          ({ s with opt := { s.opt with stats := { Stats.default A with valid := true } } }, .ok ()) := rfl
      rw [SE.bind_ok ho, SE.bind_ok ho, SE.bind_threw (hm env'), SE.bind_threw (hm env)]

omit [LawfulVar F V] in
/-- A call on the graph that does not look at the caches. -/
theorem blind_user {α : Type} {m : Heap V → SE (Graph F V) α} (hm : ∀ h b M, Blind (dress b M) (m h))
    {s s' : OptWorld F V Fact} (ht : Twin Dressed anyPair s s') :
    let p := World.onGraph m ⟨s.heap, s.graph⟩
    let p' := World.onGraph m ⟨s'.heap, s'.graph⟩
    p'.2 = p.2 ∧ (Twin Dressed anyPair { s with heap := p.1.heap, graph := p.1.graph }
      { s' with heap := p'.1.heap, graph := p'.1.graph }) := by
  obtain ⟨g', a, b, rfl, ⟨c, M, h1, h2, rfl⟩, _⟩ := ht
  have e := hm s.heap c M s.graph
  have hc : (m s.heap s.graph).1.cachedJac = s.graph.cachedJac :=
    congrArg (fun p => p.1.cachedJac) (hm s.heap s.graph.cachedRes s.graph.cachedJac s.graph)
  dsimp only [World.onGraph]
  rw [e]
  exact ⟨rfl, _, a, b, rfl, ⟨c, M, by rw [hc]; exact h1, by rw [hc]; exact h2, rfl⟩, trivial⟩

omit [LawfulVar F V] in
/-- A call on variables. -/
theorem heap_user {α : Type} {m : Graph F V → SE (Heap V) α} (hm : ∀ g b M, m (dress b M g) = m g)
    {s s' : OptWorld F V Fact} (ht : Twin Dressed anyPair s s') :
    let p := World.onHeap m ⟨s.heap, s.graph⟩
    let p' := World.onHeap m ⟨s'.heap, s'.graph⟩
    p'.2 = p.2 ∧ (Twin Dressed anyPair { s with heap := p.1.heap, graph := p.1.graph }
      { s' with heap := p'.1.heap, graph := p'.1.graph }) := by
  obtain ⟨g', a, b, rfl, ⟨c, M, h1, h2, rfl⟩, _⟩ := ht
  dsimp only [World.onHeap]
  rw [hm]
  exact ⟨rfl, _, a, b, rfl, ⟨c, M, h1, h2, rfl⟩, trivial⟩

omit [LawfulVar F V] in
/-- Calls that do not evaluate factors. -/
theorem quiet_call {A : Arith F} {L : LinAlg F Fact} {env env' : Env F V} {c : Call F V} {s s' : OptWorld F V Fact}
    (hc : ¬ evaluates c) (ht : Twin Dressed anyPair s s') (h1 : (step A L env c s).2 ≠ .ub)
    (h2 : (step A L env' c s').2 ≠ .ub) :
    (step A L env' c s').2 = (step A L env c s).2 ∧ Twin Dressed anyPair (step A L env c s).1 (step A L env' c s').1 := by
  cases c with
  | optimize => exact absurd trivial hc
  | setup g st =>
    obtain ⟨g', a, b, rfl, hd, _⟩ := ht
    exact ⟨rfl, g', a, b, rfl, hd, trivial⟩
  | prepare =>
    have hjac : ∀ {h : Heap V} {g g' : Graph F V}, Dressed h g g' →
        (∃ J J', g.sparseJacobian = .ok J ∧ g'.sparseJacobian = .ok J' ∧ L.gram J = L.gram J') ∨
        (g.sparseJacobian = .threw ∧ g'.sparseJacobian = .threw) := by
      rintro h g _ ⟨b, M, _, _, rfl⟩
      have e : (dress b M g).sparseJacobian = g.sparseJacobian := rfl
      rw [e]
      rcases hj : g.sparseJacobian with J | _ | _
      · exact .inl ⟨J, J, rfl, rfl, rfl⟩
      · exact .inr ⟨rfl, rfl⟩
      · unfold sparseJacobian at hj
        split at hj <;> simp at hj
    have := Rel.prepare (A := A) hjac s s' ht
    simp only [step] at h1 h2 ⊢
    generalize Opt.prepare A L s = p, Opt.prepare A L s' = p' at this h1 h2 ⊢
    cases this with
    | ok h => exact ⟨rfl, h⟩
    | threw h => exact ⟨rfl, h⟩
    | left => simp at h1
    | right => simp at h2
  | user op =>
    cases op with
    | residual => exact absurd trivial hc
    | residualInto b => exact absurd trivial hc
    | dense => exact absurd trivial hc
    | denseAndResidual => exact absurd trivial hc
    | sparse => exact absurd trivial hc
    | addVariable p =>
      refine blind_user (m := fun h => addVariable h p) (fun h b M g => ?_) ht
      cases p with
      | none => rfl
      | some r =>
        unfold addVariable
        simp only [show (dress b M g).varsMap = g.varsMap from rfl]
        split <;> rfl
    | addFactor p =>
      refine blind_user (m := fun _ => addFactor p) (fun h b M g => ?_) ht
      cases p with
      | none => rfl
      | some f =>
        unfold addFactor
        simp only [show (dress b M g).facsMap = g.facsMap from rfl]
        split <;> rfl
    | copy => exact blind_user (m := fun _ => SE.modify Graph.copy) (fun h b M g => rfl) ht
    | finalize => exact blind_user (m := fun h => finalizeStructure h) (fun h b M => finalize_dress b M h) ht
    | setConstant r b => exact heap_user (m := fun _ => mutate r fun v => .ok (VarLike.setConst v b)) (fun _ _ _ => rfl) ht
    | setValue r x => exact heap_user (m := fun _ => mutate r fun v => VarLike.setValue v x) (fun _ _ _ => rfl) ht
    | incrOne r x => exact heap_user (m := fun _ => mutate r fun v => VarLike.applyIncr v x) (fun _ _ _ => rfl) ht
    | setVector x => exact heap_user (m := fun g => setVariableValuesFromVector g x) (fun _ _ _ => rfl) ht
    | applyIncrement x => exact heap_user (m := fun g => Graph.applyIncrement g x) (fun _ _ _ => rfl) ht

/-- Calls that evaluate factors, with a current structure. -/
theorem evaluating_call {A : Arith F} {L : LinAlg F Fact} {env env' : Env F V} {c : Call F V} {s s' : OptWorld F V Fact}
    (hc : evaluates c) (ht : Twin Determined anyPair s s') (h1 : (step A L env c s).2 ≠ .ub)
    (h2 : (step A L env' c s').2 ≠ .ub) :
    (step A L env' c s').2 = (step A L env c s).2 ∧ Twin Determined anyPair (step A L env c s).1 (step A L env' c s').1 := by
  cases c with
  | setup g st => exact hc.elim
  | prepare => exact hc.elim
  | optimize =>
    have := Rel.optimize (determined_laws A L env env') s s' ht
    simp only [step] at h1 h2 ⊢
    generalize Opt.optimize A L env s = p, Opt.optimize A L env' s' = p' at this h1 h2 ⊢
    cases this with
    | ok h => exact ⟨rfl, h.1⟩
    | threw h => exact ⟨rfl, h⟩
    | left => simp at h1
    | right => simp at h2
  | user op =>
    obtain ⟨g', a, b, rfl, hd, _⟩ := ht
    cases op with
    | addVariable p => exact hc.elim
    | addFactor p => exact hc.elim
    | finalize => exact hc.elim
    | copy => exact hc.elim
    | setConstant r b => exact hc.elim
    | setValue r x => exact hc.elim
    | incrOne r x => exact hc.elim
    | setVector x => exact hc.elim
    | applyIncrement x => exact hc.elim
    | residualInto buf =>
      simp only [step, World.step] at h1 h2 ⊢
      refine ⟨?_, g', a, b, rfl, hd, trivial⟩
      rcases hd.residual (env := env) (env' := env') buf buf with ⟨r, e, e'⟩ | ⟨e, e'⟩ | e | e
      · rw [e, e']
      · rw [e, e']
      · exact absurd e h1
      · exact absurd e h2
    | residual =>
      simp only [step, World.step, World.onGraph] at h1 h2 ⊢
      rcases hd.initial (env := env) (env' := env') with ⟨g1, g1', r, e, e', hd'⟩ | ⟨g1, g1', e, e', hd'⟩ | e | e
      · rw [e, e']; exact ⟨rfl, g1', a, b, rfl, hd', trivial⟩
      · rw [e, e']; exact ⟨rfl, g1', a, b, rfl, hd', trivial⟩
      · rw [e] at h1; exact absurd rfl h1
      · rw [e] at h2; exact absurd rfl h2
    | dense =>
      simp only [step, World.step, World.onGraph] at h1 h2 ⊢
      rcases hd.dense (env := env) (env' := env') with ⟨g1, g1', J, J', e, e', hd'⟩ | ⟨g1, g1', e, e', hd'⟩ | e | e
      · rw [e, e']; exact ⟨rfl, g1', a, b, rfl, hd', trivial⟩
      · rw [e, e']; exact ⟨rfl, g1', a, b, rfl, hd', trivial⟩
      · rw [e] at h1; exact absurd rfl h1
      · rw [e] at h2; exact absurd rfl h2
    | denseAndResidual =>
      simp only [step, World.step, World.onGraph] at h1 h2 ⊢
      have hf : ¬ (!s.graph.finalized) = true := by simp [hd.1.fin]
      have hf' : ¬ (!g'.finalized) = true := by
        obtain ⟨_, c, M, _, _, rfl⟩ := hd
        exact hf
      unfold computeDenseAndResidual at h1 h2 ⊢
      simp only [if_neg hf, if_neg hf'] at h1 h2 ⊢
      rcases hd.dense (env := env) (env' := env') with ⟨g1, g1', J, J', e, e', hd'⟩ | ⟨g1, g1', e, e', hd'⟩ | e | e
      · rw [SE.bind_ok e] at h1 ⊢
        rw [SE.bind_ok e'] at h2 ⊢
        rcases hd'.initial (env := env) (env' := env') with ⟨g2, g2', r, f, f', hd''⟩ | ⟨g2, g2', f, f', hd''⟩ | f | f
        · rw [SE.bind_ok f, SE.bind_ok f']; exact ⟨rfl, g2', a, b, rfl, hd'', trivial⟩
        · rw [SE.bind_threw f, SE.bind_threw f']; exact ⟨rfl, g2', a, b, rfl, hd'', trivial⟩
        · rcases hx : computeResidual env s.heap g1 with ⟨y, o⟩
          rw [hx] at f
          obtain rfl : o = .ub := f
          rw [SE.bind_ub hx] at h1
          exact absurd rfl h1
        · rcases hx : computeResidual env' s.heap g1' with ⟨y, o⟩
          rw [hx] at f
          obtain rfl : o = .ub := f
          rw [SE.bind_ub hx] at h2
          exact absurd rfl h2
      · rw [SE.bind_threw e, SE.bind_threw e']; exact ⟨rfl, g1', a, b, rfl, hd', trivial⟩
      · rcases hx : computeDense env s.heap s.graph with ⟨y, o⟩
        rw [hx] at e
        obtain rfl : o = .ub := e
        rw [SE.bind_ub hx] at h1
        exact absurd rfl h1
      · rcases hx : computeDense env' s.heap g' with ⟨y, o⟩
        rw [hx] at e
        obtain rfl : o = .ub := e
        rw [SE.bind_ub hx] at h2
        exact absurd rfl h2
    | sparse =>
      simp only [step, World.step, World.onGraph]
      obtain ⟨e1, e2⟩ := hd.sparse
      refine ⟨by rw [e1], _, a, b, rfl, e2, trivial⟩

omit [LawfulVar F V] in
theorem Twin.dressed {s s' : OptWorld F V Fact} (h : Twin Determined anyPair s s') : Twin Dressed anyPair s s' :=
  h.mono (fun hd => hd.2) fun _ _ _ _ h => h

omit [LawfulVar F V] in
theorem Twin.determined {s s' : OptWorld F V Fact} (h : Twin Dressed anyPair s s') (hl : Layout s.heap s.graph) :
    Twin Determined anyPair s s' := by
  obtain ⟨g', a, b, rfl, hd, _⟩ := h
  exact ⟨g', a, b, rfl, ⟨hl, hd⟩, trivial⟩

omit [LawfulVar F V] in
theorem Twin.layout {s s' : OptWorld F V Fact} (h : Twin Determined anyPair s s') : Layout s.heap s.graph := by
  obtain ⟨g', a, b, rfl, hd, _⟩ := h
  exact hd.1

omit [Zero F] [VarLike F V] [LawfulVar F V] in
theorem StructureCurrent.finalized {evs : List (Call F V × Res Unit)} (h : StructureCurrent evs) : ¬ NeverFinalized evs := by
  obtain ⟨pre, post, rfl, _⟩ := h
  simp [NeverFinalized]

/-- One call in both executions. -/
theorem Parallel.call {A : Arith F} {L : LinAlg F Fact} {env env' : Env F V} {c : Call F V}
    {evs : List (Call F V × Res Unit)} {s s' t t' : OptWorld F V Fact} {r r' : Res Unit} (hp : Parallel evs s s')
    (hc : evaluates c → NeverFinalized evs ∨ StructureCurrent evs) (e : step A L env c s = (t, r))
    (e' : step A L env' c s' = (t', r')) (hr : r ≠ .ub) (hr' : r' ≠ .ub) :
    r' = r ∧ Parallel (evs ++ [(c, r)]) t t' := by
  have hh := hist_call e hr hp.hist
  have hfin : s.graph.finalized = false → (c, r) ≠ (.user .finalize, .ok ()) → t.graph.finalized = false := by
    intro hf hne
    by_cases hcs : changesStructure c
    · cases c with
      | user op =>
        simp only [step, Prod.mk.injEq] at e
        obtain ⟨rfl, rfl⟩ := e
        cases op with
        | addVariable p =>
          cases p with
          | none => exact hf
          | some q =>
            simp only [World.step, World.onGraph, addVariable]
            split <;> exact hf
        | addFactor p =>
          cases p with
          | none => exact hf
          | some q =>
            simp only [World.step, World.onGraph, addFactor]
            split <;> exact hf
        | setConstant x b => exact hf
        | finalize =>
          have := (finalize_flags s.heap s.graph).2.2.2.1
          have hne' : (finalizeStructure s.heap s.graph).2 ≠ .ok () := by
            intro hx
            apply hne
            simp only [World.step, World.onGraph, hx, Res.void]
          exact (this hne').trans hf
        | _ => exact hcs.elim
      | setup _ _ => exact hcs.elim
      | optimize => exact hcs.elim
      | prepare => exact hcs.elim
    · exact (kept_call hcs e hr).1.finalized.trans hf
  have hnever : NeverFinalized evs → r' = r ∧ t' = t ∧ ((c, r) ≠ (.user .finalize, .ok ()) → t.graph.finalized = false) := by
    intro hn
    obtain ⟨hf, rfl⟩ := hp.never hn
    rw [unfinalized_call A L env env' c hf, e] at e'
    simp only [Prod.mk.injEq] at e'
    exact ⟨e'.2.symm, e'.1.symm, hfin hf⟩
  have hcur : StructureCurrent (evs ++ [(c, r)]) → Layout t.heap t.graph := by
    intro hs
    rcases structureCurrent_snoc hs with ⟨rfl, rfl⟩ | ⟨hcs, hs'⟩
    · simp only [step, Prod.mk.injEq] at e
      have hw := step_finalize_ok (env := env) (w := ⟨s.heap, s.graph⟩)
        (w1 := (World.step env .finalize ⟨s.heap, s.graph⟩).1) (Prod.ext rfl e.2)
      obtain ⟨rfl, _⟩ := e
      have hl := layout_of_finalize hp.hist hw.2
      dsimp only
      rw [hw.1]
      exact hl
    · obtain ⟨k1, k2⟩ := kept_call hcs e hr
      exact (hp.current hs').kept k1 k2
  by_cases hn : NeverFinalized evs
  · obtain ⟨h1, h2, h3⟩ := hnever hn
    subst h2
    exact ⟨h1, Twin.dressed_refl _, hh, fun hx => ⟨h3 (neverFinalized_snoc hx).2, rfl⟩, hcur⟩
  · have key : r' = r ∧ Twin Dressed anyPair t t' := by
      by_cases hev : evaluates c
      · have hs := (hc hev).resolve_left hn
        have := evaluating_call (A := A) (L := L) (env := env) (env' := env') hev (hp.twin.determined (hp.current hs))
          (by rw [e]; exact hr) (by rw [e']; exact hr')
        rw [e, e'] at this
        exact ⟨this.1, this.2.dressed⟩
      · have := quiet_call (A := A) (L := L) (env := env) (env' := env') hev hp.twin
          (by rw [e]; exact hr) (by rw [e']; exact hr')
        rw [e, e'] at this
        exact this
    exact ⟨key.1, key.2, hh, fun hx => absurd (neverFinalized_snoc hx).1 hn, hcur⟩

/-- Whole programs. -/
theorem Parallel.runs {A : Arith F} {L : LinAlg F Fact} {s t : OptWorld F V Fact}
    {evs : List (Call F V × Res Unit)} (hrun : Runs A L s evs t) :
    ∀ {before evs' : List (Call F V × Res Unit)} {s' t' : OptWorld F V Fact}, Runs A L s' evs' t' →
    evs'.map (·.1) = evs.map (·.1) → Parallel before s s' → EvaluatesCurrent (before ++ evs) →
    evs' = evs ∧ Parallel (before ++ evs) t t' := by
  induction hrun with
  | nil s =>
    intro before evs' s' t' hrun' hm hp _
    cases hrun' with
    | nil => exact ⟨rfl, by simpa using hp⟩
    | cons => simp at hm
  | @cons s s1 s2 c evs r env e hne hrest ih =>
    intro before evs' s' t' hrun' hm hp hec
    cases hrun' with
    | nil => simp at hm
    | @cons _ s1' _ c' evs' r' env' e' hne' hrest' =>
      simp only [List.map_cons, List.cons.injEq] at hm
      obtain ⟨rfl, hm⟩ := hm
      obtain ⟨rfl, hp'⟩ := hp.call (hec before _ _ evs rfl) e e' hne hne'
      have := ih hrest' hm hp' (by simpa using hec)
      refine ⟨by rw [this.1], by simpa using this.2⟩

omit [LawfulVar F V] in
theorem Parallel.init (A : Arith F) (h0 : Heap V) : Parallel [] (init A h0 : OptWorld F V Fact) (init A h0) where
  twin := Twin.dressed_refl _
  hist := Hist.init h0
  never := fun _ => ⟨rfl, rfl⟩
  current := by rintro ⟨pre, post, e, _⟩; simp at e

end Factorama.Opt

namespace Factorama.Opt
open Spec
variable {F V : Type}

theorem evaluatesCurrent_of {pre post : List (Call F V × Res Unit)} (h1 : ∀ ev ∈ pre, ¬ evaluates ev.1)
    (h2 : ∀ ev ∈ post, ¬ changesStructure ev.1) : EvaluatesCurrent (pre ++ (.user .finalize, .ok ()) :: post) := by
  intro a c r b e hc
  rcases List.append_eq_append_iff.mp e with ⟨x, rfl, hx⟩ | ⟨x, rfl, hx⟩
  · cases x with
    | nil =>
      simp only [List.nil_append, List.cons.injEq, Prod.mk.injEq] at hx
      obtain ⟨⟨rfl, rfl⟩, rfl⟩ := hx
      exact hc.elim
    | cons y ys =>
      simp only [List.cons_append, List.cons.injEq] at hx
      obtain ⟨rfl, rfl⟩ := hx
      exact .inr ⟨pre, ys, rfl, fun ev hev => h2 ev (by simp [hev])⟩
  · cases x with
    | nil =>
      simp only [List.nil_append, List.cons.injEq, Prod.mk.injEq] at hx
      obtain ⟨⟨rfl, rfl⟩, rfl⟩ := hx
      exact hc.elim
    | cons y ys =>
      simp only [List.cons_append, List.cons.injEq] at hx
      obtain ⟨rfl, _⟩ := hx
      exact absurd hc (h1 (c, r) (by simp))

end Factorama.Opt
