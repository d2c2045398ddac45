import Verif.Lemmas.OptLoop
import Verif.Lemmas.Stacked

/-!
# No undefined behaviour during a run
-/

set_option linter.unusedSectionVars false

namespace Factorama
open Spec
namespace Graph
variable {F V : Type} [Zero F] [VarLike F V]

/-! ### Evaluations -/

theorem residualLoop_defined {h : Heap V} {pl : Int → Option VarPlacement} {fs : List (Factor F V)}
    (hdef : ∀ f ∈ fs, f.computeResidual h = .threw ∨ ∃ s, f.computeResidual h = .ok s ∧ s.length = f.residualSize)
    (l : List (Nat × FacPlacement F V)) (hl : ∀ it ∈ l, it ∈ placedList h pl fs 0 0) (buf : List F)
    (hbuf : buf.length = rowTotal fs) : (SE.forEach l (residualOne h) buf).2 ≠ .ub := by
  induction l generalizing buf with
  | nil => simp [SE.forEach, SE.ret]
  | cons it l ih =>
    rw [SE.forEach_cons]
    obtain ⟨f, hf, hfac, hri, hrd⟩ := mem_placedList (hl it (by simp))
    have hend := row_end_le hf
    have hlen := residualOne_length (h := h) (it := it) buf
    have h1 : (residualOne h it buf).2 ≠ .ub := by
      unfold residualOne
      dsimp only
      rw [if_neg (by rw [hri, hrd, hbuf]; omega), hfac]
      rcases hdef f (List.mem_of_getElem? hf) with e | ⟨s, e, hs⟩
      · rw [e]; simp
      · rw [e]; simp [hs, hrd]
    unfold SE.bind
    split
    · rename_i s' a hs
      rw [hs] at hlen
      exact ih (fun it h => hl it (by simp [h])) s' (hlen.trans hbuf)
    · simp
    · rename_i s' hs; rw [hs] at h1; exact absurd rfl h1

theorem residualInto_defined {env : Env F V} {h : Heap V} {g : Graph F V} (hl : Layout h g)
    (hdef : ∀ f ∈ g.facs, f.computeResidual h = .threw ∨ ∃ s, f.computeResidual h = .ok s ∧ s.length = f.residualSize)
    (buf : List F) : (computeResidualInto env g h buf).2 ≠ .ub := by
  unfold computeResidualInto
  simp only [hl.fin, Bool.not_true, Bool.false_eq_true, if_false, SE.bind_modify]
  apply residualLoop_defined (pl := plOf h g.varsVec) hdef
  · intro it hit
    rw [← hl.fpl]
    exact (env.order_perm g.facPl).mem_iff.1 hit
  · rw [resizeTo_length, hl.nr]

theorem residual_defined {env : Env F V} {h : Heap V} {g : Graph F V} (hl : Layout h g)
    (hdef : ∀ f ∈ g.facs, f.computeResidual h = .threw ∨ ∃ s, f.computeResidual h = .ok s ∧ s.length = f.residualSize) :
    (computeResidual env h g).2 ≠ .ub := by
  have h1 := residualInto_defined (env := env) hl hdef (if g.resValid then g.cachedRes else List.replicate g.numResiduals 0)
  unfold computeResidual
  rw [if_neg (by simp [hl.fin])]
  dsimp only
  split
  · simp
  · simp
  · rename_i heq; rw [heq] at h1; exact absurd rfl h1

theorem scatter_defined {α : Type} (l : List (Nat × α)) (s : List (List α) × List Nat)
    (hl : ∀ w ∈ l, w.1 < s.2.length) :
    (SE.forEach l (scatterOne .threw) s).2 ≠ .ub ∧ (SE.forEach l (scatterOne .threw) s).1.2.length = s.2.length := by
  induction l generalizing s with
  | nil => simp [SE.forEach, SE.ret]
  | cons w l ih =>
    rw [SE.forEach_cons]
    have hlen := (scatterOne_lengths .threw w s).2
    have h1 : (scatterOne .threw w s).2 ≠ .ub := by
      have hw := hl w (by simp)
      unfold scatterOne
      rw [List.getElem?_eq_getElem hw]
      dsimp only
      split
      · simp
      · split <;> simp
    unfold SE.bind
    split
    · rename_i s' a hs
      rw [hs] at hlen
      dsimp only at hlen
      have := ih s' (fun w' h => by rw [hlen]; exact hl w' (by simp [h]))
      rw [hlen] at this
      exact this
    · rename_i s' hs; rw [hs] at hlen; exact ⟨by simp, hlen⟩
    · rename_i s' hs; rw [hs] at h1; exact absurd rfl h1

theorem sparseVars_defined {h : Heap V} (n : Nat) (pl : Int → Option VarPlacement) (vs : List (Option VRef))
    (js : List (Mat F))
    (hvs : ∀ (p : Nat) o, vs[p]? = some o → ∃ r J, o = some r ∧ js[p]? = some J ∧
      ∀ q, pl (VarLike.id (h r)) = some q → J.rows = 0 ∨ q.index + J.cols ≤ n)
    (s : SparseWork F V) (hpl : s.g.varPl = pl) (hn : s.cur.length = n) :
    (sparseVars h vs js s).2 ≠ .ub ∧ (sparseVars h vs js s).1.cur.length = n := by
  induction vs generalizing js s with
  | nil => simp [sparseVars, SE.ret, hn]
  | cons o vs ih =>
    obtain ⟨r, J, rfl, hJ, hq⟩ := hvs 0 o rfl
    cases js with
    | nil => simp at hJ
    | cons J' js =>
      obtain rfl : J' = J := by simpa using hJ
      have ih' := fun s => ih js (fun p o hp => by simpa using hvs (p + 1) o (by simpa using hp)) s
      simp only [sparseVars, SE.bind_get]
      cases hp : s.g.variablePlacement (VarLike.id (h r)) with
      | none => exact ih' s hpl hn
      | some q =>
        dsimp only
        simp only [variablePlacement, hpl] at hp
        have hsc := scatter_defined (blockWrites q.index J'.rows J'.cols J'.entry) (s.g.sparseData, s.cur) (by
          intro w hw
          simp only [blockWrites, List.mem_flatMap, List.mem_range, List.mem_map] at hw
          obtain ⟨a, ha, b, hb, rfl⟩ := hw
          dsimp only
          rw [hn]
          rcases hq q hp with h0 | h0 <;> omega)
        rcases hd : SE.forEach (blockWrites q.index J'.rows J'.cols J'.entry) (scatterOne .threw) (s.g.sparseData, s.cur)
          with ⟨d, res⟩
        rw [hd] at hsc
        have e : scatterData (blockWrites q.index J'.rows J'.cols J'.entry) s =
            (⟨{ s.g with sparseData := d.1 }, d.2⟩, res) := by simp [scatterData, hd]
        cases res with
        | ub => exact absurd rfl hsc.1
        | threw => rw [SE.bind_threw e]; exact ⟨by simp, hsc.2.trans hn⟩
        | ok u => rw [SE.bind_ok e]; exact ih' _ hpl (hsc.2.trans hn)

/-- A sparse evaluation of a ready graph whose factors behave is defined; if it returns, the matrix has one column per
free value. -/
theorem computeSparse_defined {good : Nat → List (Mat F) → Prop} {h : Heap V} {g : Graph F V} (hr : Ready good h g)
    (hdef : ∀ (k : Nat) f, g.facs[k]? = some f → ∀ buf, good k buf → f.computeJacobians h buf = .threw ∨
      ∃ js, f.computeJacobians h buf = .ok js ∧ ProperBlocks h f js) :
    (computeSparse h g).2 ≠ .ub ∧ ∀ m, (computeSparse h g).2 = .ok m → m.columns.length = g.numValues := by
  have hsafe : ∀ i fp, g.facPl.lookup i = some fp → BufferSafe fp.factor (good i) := by
    intro i fp hfp
    rw [lookup_facPl hr.laid, Option.map_eq_some_iff] at hfp
    obtain ⟨f, hf, rfl⟩ := hfp
    exact hr.safe i f hf
  have hfr := sparseLoop_frame good h (List.range g.facs.length) ⟨g, List.replicate g.numValues 0⟩ hsafe hr.comps
  have hloop : ∀ (is : List Nat) (s : SparseWork F V), (∀ i ∈ is, i < g.facs.length) → ScratchOnly good g s.g →
      s.cur.length = g.numValues → (SE.forEach is (sparseOne h) s).2 ≠ .ub := by
    intro is
    induction is with
    | nil => intro s _ _ _; simp [SE.forEach, SE.ret]
    | cons i is ih =>
      intro s his hso hcur
      rw [SE.forEach_cons]
      have hi := his i (by simp)
      obtain ⟨f, hf⟩ : ∃ f, g.facs[i]? = some f := ⟨g.facs[i], by simp [hi]⟩
      have hgs := hso.good hr.comps
      have hfpl : s.g.facPl.lookup i = some ⟨f, rowStart g.facs i, f.residualSize,
          (colsOf h g.varPl f.variables).map (·.1), (colsOf h g.varPl f.variables).map (·.2)⟩ := by
        rw [hso.eq]
        dsimp only
        rw [lookup_facPl hr.laid, hf]
        rfl
      have hvpl : s.g.varPl = g.varPl := by rw [hso.eq]
      obtain ⟨buf, hbuf⟩ : ∃ buf, s.g.sparseComps[i]? = some buf := by
        have : i < s.g.sparseComps.length := by rw [hso.comps, hr.laid.comps]; exact hi
        exact ⟨s.g.sparseComps[i], by simp⟩
      have hframe := sparseOne_frame good h i s (fun fp hfp => hsafe i fp (by rw [hso.eq] at hfp; exact hfp)) hgs
      have hone : (sparseOne h i s).2 ≠ .ub ∧ ((sparseOne h i s).2 = .ok () → (sparseOne h i s).1.cur.length = g.numValues) := by
        simp only [sparseOne, SE.bind_get, hfpl, hbuf]
        rcases hdef i f hf buf (hgs i buf hbuf) with e | ⟨js, e, hpb⟩
        · rw [e]; simp [SE.throw]
        · rw [e]
          dsimp only
          simp only [SE.bind_modify]
          have := sparseVars_defined (h := h) g.numValues g.varPl f.variables js (by
            intro p o ho
            obtain ⟨r, rfl, _⟩ := hr.laid.placed f (List.mem_of_getElem? hf) o (List.mem_of_getElem? ho)
            obtain ⟨J, hJ, hconst, hnon⟩ := hpb p r ho
            refine ⟨r, J, rfl, hJ, fun q hq => ?_⟩
            by_cases hc : VarLike.isConst (h r) = true
            · have he := hconst hc
              simp only [Mat.isEmpty, Bool.or_eq_true, beq_iff_eq] at he
              rcases he with he | he
              · exact .inl he
              · right
                rw [he, Nat.add_zero]
                have hq' : plOf h g.varsVec (VarLike.id (h r)) = some q := by rw [← hr.laid.pl]; exact hq
                have := plOf_bound hq'
                rw [hr.laid.nv]
                omega
            · have hc' : VarLike.isConst (h r) = false := by simpa using hc
              right
              obtain ⟨m, hp⟩ := placed_of_nonconst hr.laid hr.ids hr.ident (List.mem_of_getElem? hf)
                (List.mem_of_getElem? ho) hc'
              rw [hq] at hp
              obtain rfl := Option.some.inj hp
              have := col_end_le (h := h) m
              rw [freeSize_of_nonconst hc'] at this
              rw [(hnon hc').2.2, hr.laid.nv]
              exact this) { s with g := { s.g with sparseComps := s.g.sparseComps.set i js } } hvpl hcur
          exact ⟨this.1, fun _ => this.2⟩
      unfold SE.bind
      split
      · rename_i s' a hs
        rw [hs] at hone hframe
        exact ih s' (fun i h => his i (by simp [h])) (hso.trans hframe) (hone.2 rfl)
      · simp
      · rename_i s' hs; rw [hs] at hone; exact absurd rfl hone.1
  have hl := hloop (List.range g.facs.length) ⟨g, List.replicate g.numValues 0⟩ (by simp) (ScratchOnly.refl good g) (by simp)
  unfold computeSparse
  rw [if_neg (by simp [hr.laid.fin]), if_neg (by simp [hr.laid.sinit])]
  split
  · simp
  · rename_i s heq; rw [heq] at hl; exact absurd rfl hl
  · rename_i s heq
    rw [heq] at hfr
    obtain ⟨hr', hst⟩ := hr.scratch hfr
    simp only at hr' hst ⊢
    rcases fill_ok hr' with ⟨⟨hv, _⟩, hthrow⟩ | ⟨_, m', e1, e2, e3, e4, e5⟩
    · rw [if_pos hv, hthrow]
      simp
    · simp only [e1]
      refine ⟨by simp, fun m hm => ?_⟩
      obtain rfl := Res.ok.inj hm
      rw [e4, hst.numValues]

end Graph

namespace Opt
open Graph
variable {F V Fact : Type} [Zero F] [VarLike F V]

/-! ### The optimizer -/

/-- Buffers the graph re-uses contain what the factor itself put there. -/
def ownBuffers (facs : List (Factor F V)) (k : Nat) (b : List (Mat F)) : Prop := ∀ f, facs[k]? = some f → OwnBuffer f b

/-- State of a run in which everything still behaves. -/
structure Healthy (I : Heap V → Prop) (vars : List VRef) (facs : List (Factor F V)) (n : Nat)
    (s : OptWorld F V Fact) : Prop where
  inv : I s.heap
  layout : Layout s.heap s.graph
  ready : Ready (ownBuffers facs) s.heap s.graph
  vars : s.graph.varsVec = vars
  facs : s.graph.facs = facs
  size : s.graph.numValues = n

/-- `m` is defined on all states satisfying `P`; when it returns or throws, `P` holds again, and a result satisfies `Q`. -/
def Safe {α : Type} (P : OptWorld F V Fact → Prop) (m : SE (OptWorld F V Fact) α) (Q : α → Prop) : Prop :=
  ∀ s, P s → (m s).2 ≠ .ub ∧ P (m s).1 ∧ ∀ a, (m s).2 = .ok a → Q a

section
variable {P : OptWorld F V Fact → Prop} {α β : Type}

theorem Safe.bind {m : SE (OptWorld F V Fact) α} {k : α → SE (OptWorld F V Fact) β} {Q : α → Prop} {R : β → Prop}
    (hm : Safe P m Q) (hk : ∀ a, Q a → Safe P (k a) R) : Safe P (SE.bind m k) R := by
  intro s hs
  obtain ⟨h1, h3, h2⟩ := hm s hs
  rcases hms : m s with ⟨s1, r⟩
  rw [hms] at h1 h2 h3
  cases r with
  | ok a =>
    rw [SE.bind_ok hms]
    exact hk a (h2 a rfl) s1 h3
  | threw => rw [SE.bind_threw hms]; exact ⟨by simp, h3, by simp⟩
  | ub => exact absurd rfl h1

theorem Safe.ret {Q : α → Prop} {a : α} (h : Q a) : Safe P (SE.ret a) Q := by
  intro s hs
  refine ⟨by simp [SE.ret], hs, fun b hb => ?_⟩
  obtain rfl : a = b := by simpa [SE.ret] using hb
  exact h

theorem Safe.throw {Q : α → Prop} : Safe P (SE.throw : SE (OptWorld F V Fact) α) Q := by
  intro s hs
  exact ⟨by simp [SE.throw], hs, by simp [SE.throw]⟩

theorem Safe.get : Safe P SE.get P := by
  intro s hs
  refine ⟨by simp [SE.get], hs, fun a ha => ?_⟩
  obtain rfl : s = a := by simpa [SE.get] using ha
  exact hs

end

variable {I : Heap V → Prop} {vars : List VRef} {facs : List (Factor F V)} {n : Nat}

theorem Healthy.opt {s : OptWorld F V Fact} (h : Healthy I vars facs n s) (o : Optimizer F Fact) :
    Healthy I vars facs n { s with opt := o } := ⟨h.1, h.2, h.3, h.4, h.5, h.6⟩

theorem Safe.modStats (f : Stats F → Stats F) :
    Safe (Healthy I vars facs n) (Opt.modStats f : SE (OptWorld F V Fact) Unit) fun _ => True := by
  intro s hs
  exact ⟨by simp [Opt.modStats, SE.modify], hs.opt _, fun _ _ => trivial⟩

theorem Safe.modOpt (f : Optimizer F Fact → Optimizer F Fact) :
    Safe (Healthy I vars facs n) (Opt.modOpt f : SE (OptWorld F V Fact) Unit) fun _ => True := by
  intro s hs
  exact ⟨by simp [Opt.modOpt, SE.modify], hs.opt _, fun _ _ => trivial⟩

section
variable [LawfulVar F V]

theorem Healthy.reach {s s' : OptWorld F V Fact} (h : Healthy I vars facs n s)
    (hr : Reach (OptWorld.world s) (OptWorld.world s')) (hi : I s'.heap) : Healthy I vars facs n s' := by
  obtain ⟨evs, hv, hrun⟩ := hr
  obtain ⟨hk, hs⟩ := kept_runs hrun hv
  exact ⟨hi, h.layout.kept hk hs, (ready_runs hrun hv h.ready).1, hk.varsVec.trans h.vars, hk.facs.trans h.facs,
    hk.numValues.trans h.size⟩

variable (hd : MethodsDefined I vars facs)
include hd

theorem Safe.evalResidual1 (env : Env F V) :
    Safe (Healthy I vars facs n) (Opt.evalResidual1 env : SE (OptWorld F V Fact) Unit) fun _ => True := by
  intro s hs
  refine ⟨residualInto_defined hs.layout (fun f hf => hd.residual _ hs.inv f (hs.facs ▸ hf)) _,
    hs.opt _, fun _ _ => trivial⟩

theorem Safe.evalResidual2 (env : Env F V) :
    Safe (Healthy I vars facs n) (Opt.evalResidual2 env : SE (OptWorld F V Fact) Unit) fun _ => True := by
  intro s hs
  refine ⟨residualInto_defined hs.layout (fun f hf => hd.residual _ hs.inv f (hs.facs ▸ hf)) _,
    hs.opt _, fun _ _ => trivial⟩

theorem Safe.evalInitial (env : Env F V) :
    Safe (Healthy I vars facs n) (Opt.evalInitial env : SE (OptWorld F V Fact) _) fun _ => True := by
  intro s hs
  have hne : (Opt.evalInitial env s).2 ≠ .ub :=
    residual_defined (env := env) hs.layout (fun f hf => hd.residual _ hs.inv f (hs.facs ▸ hf))
  exact ⟨hne, hs.reach (Traced.evalInitial env s hne) hs.inv, fun _ _ => trivial⟩

theorem Safe.evalSparse (env : Env F V) :
    Safe (Healthy I vars facs n) (Opt.evalSparse : SE (OptWorld F V Fact) _) fun J => J.columns.length = n := by
  intro s hs
  have h1 := computeSparse_defined hs.ready (fun k f hf buf hb =>
    hd.jacobians _ hs.inv f (hs.facs ▸ List.mem_of_getElem? hf) buf (hb f (hs.facs ▸ hf)))
  exact ⟨h1.1, hs.reach (Traced.evalSparse env s h1.1) hs.inv, fun J hJ => (h1.2 J hJ).trans hs.size⟩

theorem stepLoop_defined (g : Graph F V) (hgv : g.varsVec = vars) (dx : List F) (hlen : dx.length = g.numValues)
    (rs : List VRef) (hsub : ∀ r ∈ rs, r ∈ vars) (h : Heap V) (hl : Layout h g) (hi : I h) :
    (SE.forEach rs (stepVariable g dx) h).2 ≠ .ub ∧
    I (SE.forEach rs (stepVariable g dx) h).1 := by
  induction rs generalizing h with
  | nil => exact ⟨by simp [SE.forEach, SE.ret], hi⟩
  | cons r rs ih =>
    rw [SE.forEach_cons]
    have hrm := hsub r (by simp)
    have hsub' : ∀ r ∈ rs, r ∈ vars := fun r' h' => hsub r' (by simp [h'])
    by_cases hc : VarLike.isConst (h r) = true
    · have e : stepVariable g dx r h = (h, .ok ()) := by simp [stepVariable, SE.bind_get, hc, SE.ret]
      rw [SE.bind_ok e]
      exact ih hsub' h hl hi
    · have hc' : VarLike.isConst (h r) = false := by simpa using hc
      have hrv : r ∈ g.varsVec := hgv ▸ hrm
      have hend := col_end_le (h := h) hrv
      rw [freeSize_of_nonconst hc', ← hl.nv, ← hlen] at hend
      have hx : (partOf h g.varsVec dx r).length = VarLike.size (h r) := by
        simp only [partOf, List.length_take, List.length_drop]
        omega
      have e0 : stepVariable g dx r h = mutate r (fun v => VarLike.applyIncr v (partOf h g.varsVec dx r)) h := by
        simp only [stepVariable, SE.bind_get, hc', hl.placement hrv, freeSize_of_nonconst hc']
        simp only [segment, if_pos hend, SE.bind, SE.lift, partOf]
        rfl
      rcases hd.incr h hi r hrm hc' _ hx with e | ⟨v, e, hv⟩
      · have e1 : stepVariable g dx r h = (h, .threw) := by rw [e0]; simp [mutate, e]
        rw [SE.bind_threw e1]
        exact ⟨by simp, hi⟩
      · have e1 : stepVariable g dx r h = (h.set r v, .ok ()) := by rw [e0]; simp [mutate, e]
        rw [SE.bind_ok e1]
        refine ih hsub' _ (hl.kept (Kept.refl g) ?_) hv
        intro r'
        by_cases hrr : r' = r
        · subst hrr
          simp only [Heap.set, if_true]
          exact ⟨LawfulVar.id_applyIncr _ _ _ e, LawfulVar.isConst_applyIncr _ _ _ e, LawfulVar.size_applyIncr _ _ _ e⟩
        · simp [Heap.set, hrr]

theorem Safe.stepVariables (env : Env F V) (dx : List F) (hlen : dx.length = n) :
    Safe (Healthy I vars facs n) (Opt.stepVariables dx : SE (OptWorld F V Fact) Unit) fun _ => True := by
  intro s hs
  have h1 := stepLoop_defined hd s.graph hs.vars dx (hlen.trans hs.size.symm) s.graph.varsVec
    (fun r hr => hs.vars ▸ hr) s.heap hs.layout hs.inv
  exact ⟨h1.1, hs.reach (Traced.stepVariables env dx s h1.1) h1.2, fun _ _ => trivial⟩

theorem restoreLoop_defined (h0 : Heap V) (hi0 : I h0) (rs : List VRef) (hsub : ∀ r ∈ rs, r ∈ vars) (h : Heap V)
    (hi : I h) :
    (SE.forEach (rs.map fun r => (r, VarLike.value (h0 r))) (fun p => mutate p.1 fun v => VarLike.setValue v p.2) h).2 ≠ .ub ∧
    I (SE.forEach (rs.map fun r => (r, VarLike.value (h0 r))) (fun p => mutate p.1 fun v => VarLike.setValue v p.2) h).1 := by
  induction rs generalizing h with
  | nil => exact ⟨by simp [SE.forEach, SE.ret], hi⟩
  | cons r rs ih =>
    rw [List.map_cons, SE.forEach_cons]
    rcases hd.restore h h0 hi hi0 r (hsub r (by simp)) with e | ⟨v, e, hv⟩
    · have e1 : (mutate r fun v => VarLike.setValue v (VarLike.value (h0 r))) h = (h, .threw) := by simp [mutate, e]
      rw [SE.bind_threw e1]
      exact ⟨by simp, hi⟩
    · have e1 : (mutate r fun v => VarLike.setValue v (VarLike.value (h0 r))) h = (h.set r v, .ok ()) := by
        simp [mutate, e]
      rw [SE.bind_ok e1]
      exact ih (fun r' h' => hsub r' (by simp [h'])) _ hv

theorem Safe.restoreValues (env : Env F V) (s0 : OptWorld F V Fact) (h0 : Healthy I vars facs n s0) :
    Safe (Healthy I vars facs n) (Opt.restoreValues (saveValues s0) : SE (OptWorld F V Fact) Unit) fun _ => True := by
  intro s hs
  have h1 := restoreLoop_defined hd s0.heap h0.inv s0.graph.varsVec (fun r hr => h0.vars ▸ hr) s.heap hs.inv
  exact ⟨h1.1, hs.reach (Traced.restoreValues env (saveValues s0) s h1.1) h1.2, fun _ _ => trivial⟩

variable {L : LinAlg F Fact} (hL : SizesRight L) (hn : 0 < n)
include hL hn

theorem Safe.gaussNewtonStep (A : Arith F) (env : Env F V) :
    Safe (Healthy I vars facs n) (Opt.gaussNewtonStep A L env) fun _ => True := by
  unfold Opt.gaussNewtonStep
  refine .bind .get fun s0 hs0 => ?_
  split
  · exact .throw
  refine .bind (.evalResidual1 hd env) fun _ _ => ?_
  refine .bind (.evalSparse hd env) fun J hJ => ?_
  refine .bind .get fun s hs => ?_
  dsimp only
  split
  · exact .bind (.modOpt _) fun _ _ => .modStats _
  rename_i f hf
  refine .bind (.modOpt _) fun _ _ => ?_
  have hD := hL.diagonal _ _ hf
  rw [hL.gram, hJ] at hD
  split
  · rename_i he
    simp only [List.isEmpty_iff, List.map_eq_nil_iff] at he
    rw [he] at hD
    simp at hD
    omega
  split
  · exact .modStats _
  split
  · exact .modStats _
  split
  · exact .modStats _
  rename_i d hsol
  have hlen := hL.solution _ _ _ _ hf hsol (by rw [hL.rhs, hL.gram])
  rw [hL.gram, hJ] at hlen
  refine .bind (.stepVariables hd env _ (by simp [Arith.scale, hlen])) fun _ _ => ?_
  refine .bind (.evalResidual2 hd env) fun _ _ => ?_
  exact .bind .get fun _ _ => .modStats _

theorem Safe.lmTrials (A : Arith F) (env : Env F V) (J : SpMat F) (hJ : J.columns.length = n) (cost : F) (k : Nat)
    (dx : List F) : Safe (Healthy I vars facs n) (Opt.lmTrials A L env J cost k dx) fun _ => True := by
  induction k generalizing dx with
  | zero => exact .ret trivial
  | succ k ih =>
    unfold Opt.lmTrials
    refine .bind .get fun s hs => ?_
    have hraise : Safe (Healthy I vars facs n) (raiseLambda A : SE (OptWorld F V Fact) Unit) fun _ => True :=
      .bind .get fun _ _ => .modStats _
    dsimp only
    split
    · exact .bind (.modOpt _) fun _ _ => .bind hraise fun _ _ => ih _
    rename_i f hf
    refine .bind (.modOpt _) fun _ _ => ?_
    have hrows : (addDiagonal A (L.gram J) s.opt.stats.damping).rows = n := by
      rw [← hJ, ← hL.gram]; rfl
    have hD := hL.diagonal _ _ hf
    rw [hrows] at hD
    split
    · rename_i he
      simp only [List.isEmpty_iff, List.map_eq_nil_iff] at he
      rw [he] at hD
      simp at hD
      omega
    split
    · exact .bind hraise fun _ _ => ih _
    split
    · exact .bind hraise fun _ _ => ih _
    rename_i d hsol
    have hlen := hL.solution _ _ _ _ hf hsol (by rw [hL.rhs, hrows, hJ])
    rw [hrows] at hlen
    refine .bind (.stepVariables hd env _ (by simp [Arith.scale, hlen])) fun _ _ => ?_
    refine .bind (.evalResidual2 hd env) fun _ _ => ?_
    refine .bind .get fun _ _ => ?_
    split
    · exact .bind (.modStats _) fun _ _ => .ret trivial
    refine .bind (.restoreValues hd env s hs) fun _ _ => ?_
    refine .bind (.modStats _) fun _ _ => ?_
    refine .bind .get fun _ _ => ?_
    split
    · exact .ret trivial
    · exact ih _

theorem Safe.levenbergMarquardtStep (A : Arith F) (env : Env F V) :
    Safe (Healthy I vars facs n) (Opt.levenbergMarquardtStep A L env) fun _ => True := by
  unfold Opt.levenbergMarquardtStep
  refine .bind .get fun s0 hs0 => ?_
  split
  · exact .throw
  refine .bind (.evalResidual1 hd env) fun _ _ => ?_
  refine .bind (.evalSparse hd env) fun J hJ => ?_
  refine .bind .get fun s hs => ?_
  dsimp only
  refine .bind (.modStats _) fun _ _ => ?_
  refine .bind (.lmTrials hd hL hn A env J hJ _ _ _) fun res _ => ?_
  split
  · exact .bind .get fun _ _ => .modStats _
  · refine .bind (Q := fun _ => True) ?_ fun _ _ => .bind (.modOpt _) fun _ _ => .bind .get fun _ _ => .modStats _
    unfold lmRejected
    refine .bind .get fun _ _ => ?_
    split
    · exact .modStats _
    · exact .modStats _

theorem iterate_defined (A : Arith F) (env : Env F V) (k : Nat) (s : OptWorld F V Fact)
    (hs : Healthy I vars facs n s) : (Opt.iterate A L env k s).2 ≠ .ub ∧ Healthy I vars facs n (Opt.iterate A L env k s).1 := by
  have hstep : Safe (Healthy I vars facs n) (Opt.oneStep A L env) fun _ => True := by
    unfold Opt.oneStep
    refine .bind .get fun s _ => ?_
    split
    · exact .gaussNewtonStep hd hL hn A env
    · exact .levenbergMarquardtStep hd hL hn A env
  induction k generalizing s with
  | zero => exact ⟨by simp [Opt.iterate, SE.ret], hs⟩
  | succ k ih =>
    have h1 := hstep s hs
    rcases ho : Opt.oneStep A L env s with ⟨s', r⟩
    rw [ho] at h1
    dsimp only [Opt.iterate]
    simp only [ho]
    cases r with
    | ub => exact absurd rfl h1.1
    | threw => exact ⟨by simp [giveUp, Opt.modStats, SE.modify], h1.2.1.opt _⟩
    | ok u =>
      dsimp only
      split
      · exact ⟨by simp, h1.2.1.opt _⟩
      · exact ih _ (h1.2.1.opt _)

theorem optimize_defined (A : Arith F) (env : Env F V) (s : OptWorld F V Fact)
    (hs : Healthy I vars facs n s) : (Opt.optimize A L env s).2 ≠ .ub ∧ Healthy I vars facs n (Opt.optimize A L env s).1 := by
  unfold Opt.optimize
  simp only [SE.bind_get]
  split
  · exact ⟨by simp [SE.throw], hs⟩
  simp only [Opt.modStats, Opt.modOpt, SE.bind_modify]
  have h1 := Safe.evalInitial hd env _ (hs.opt { s.opt with stats := { Stats.default A with valid := true } })
  rcases hr : Opt.evalInitial env { s with opt := { s.opt with stats := { Stats.default A with valid := true } } } with ⟨s1, r⟩
  rw [hr] at h1
  cases r with
  | ub => exact absurd rfl h1.1
  | threw => rw [SE.bind_threw hr]; exact ⟨by simp, h1.2.1⟩
  | ok r0 =>
    rw [SE.bind_ok hr]
    simp only [SE.bind_modify]
    generalize hs2 : ({ heap := s1.heap, graph := s1.graph, opt := _ } : OptWorld F V Fact) = s2
    have h2 : Healthy I vars facs n s2 := by rw [← hs2]; exact h1.2.1.opt _
    have h3 := iterate_defined hd hL hn A env s.opt.settings.maxIterations s2 h2
    rcases hi : Opt.iterate A L env s.opt.settings.maxIterations s2 with ⟨s3, r⟩
    rw [hi] at h3
    cases r with
    | ub => exact absurd rfl h3.1
    | threw => rw [SE.bind_threw hi]; exact ⟨by simp, h3.2⟩
    | ok u => rw [SE.bind_ok hi]; exact ⟨by simp [SE.modify], h3.2.opt _⟩

end
end Opt
end Factorama
