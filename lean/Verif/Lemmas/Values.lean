import Verif.Lemmas.History

/-! Helper lemmas: reading, writing and incrementing all variables. -/

set_option linter.unusedSectionVars false

namespace Factorama
open Spec
namespace Graph
variable {F V : Type} [Zero F] [VarLike F V]

theorem Layout.placement {h : Heap V} {g : Graph F V} (hl : Layout h g) {r : VRef} (hr : r ∈ g.varsVec) :
    g.variablePlacement (VarLike.id (h r)) = some ⟨r, colStart h g.varsVec r, freeSize (h r)⟩ := by
  simp only [variablePlacement, hl.pl]
  exact plOf_mem hl.ids hr

theorem Layout.nodup {h : Heap V} {g : Graph F V} (hl : Layout h g) : g.varsVec.Nodup :=
  nodup_of_ids_nodup hl.ids

theorem applyLoop_ok {h0 : Heap V} {g : Graph F V} (hl : Layout h0 g) (dx : List F) (hlen : dx.length = g.numValues)
    (new : VRef → V) (hnew : ∀ r ∈ g.varsVec, VarLike.isConst (h0 r) = false →
      VarLike.applyIncr (h0 r) (partOf h0 g.varsVec dx r) = .ok (new r))
    (rs : List VRef) (hnd : rs.Nodup) (hsub : ∀ r ∈ rs, r ∈ g.varsVec) (h : Heap V) (hagree : ∀ r ∈ rs, h r = h0 r) :
    SE.forEach rs (applyIncrementOne g dx) h =
      ((fun r => if r ∈ rs ∧ VarLike.isConst (h0 r) = false then new r else h r), .ok ()) := by
  induction rs generalizing h with
  | nil => simp [SE.forEach, SE.ret]
  | cons r rs ih =>
    rw [SE.forEach_cons]
    simp only [List.nodup_cons] at hnd
    have hrh : h r = h0 r := hagree r (by simp)
    have hrm : r ∈ g.varsVec := hsub r (by simp)
    by_cases hc : VarLike.isConst (h0 r)
    · have h1 : applyIncrementOne g dx r h = (h, .ok ()) := by
        simp [applyIncrementOne, SE.bind_get, hrh, hc, SE.ret]
      rw [SE.bind_ok h1, ih hnd.2 (fun r' hr' => hsub r' (by simp [hr'])) h (fun r' hr' => hagree r' (by simp [hr']))]
      congr 1
      funext r'
      by_cases e : r' = r
      · subst e; simp [hc]
      · simp [e]
    · have hc' : VarLike.isConst (h0 r) = false := by simpa using hc
      have hend := col_end_le (h := h0) hrm
      rw [freeSize_of_nonconst hc', ← hl.nv, ← hlen] at hend
      have h1 : applyIncrementOne g dx r h = (h.set r (new r), .ok ()) := by
        have hn := hnew r hrm hc'
        simp only [partOf] at hn
        simp only [applyIncrementOne, SE.bind_get, hrh, hc', hl.placement hrm, freeSize_of_nonconst hc']
        rw [if_neg (by simp), if_neg (by omega)]
        simp only [segment, if_pos hend, SE.bind, SE.lift, mutate, hrh, hn]
      rw [SE.bind_ok h1, ih hnd.2 (fun r' hr' => hsub r' (by simp [hr'])) (h.set r (new r)) (by
        intro r' hr'
        have : r' ≠ r := fun e => hnd.1 (e ▸ hr')
        simp [Heap.set, this, hagree r' (by simp [hr'])])]
      congr 1
      funext r'
      by_cases e : r' = r
      · subst e; simp [hc', hnd.1, Heap.set]
      · simp [e, Heap.set]

theorem applyIncrement_ok {h : Heap V} {g : Graph F V} (hl : Layout h g) (dx : List F) (hlen : dx.length = g.numValues)
    (new : VRef → V) (hnew : ∀ r ∈ g.varsVec, VarLike.isConst (h r) = false →
      VarLike.applyIncr (h r) (partOf h g.varsVec dx r) = .ok (new r)) :
    applyIncrement g dx h =
      ((fun r => if r ∈ g.varsVec ∧ VarLike.isConst (h r) = false then new r else h r), .ok ()) := by
  unfold applyIncrement
  rw [if_neg (by simp [hl.fin]), if_neg (by simpa using hlen)]
  exact applyLoop_ok hl dx hlen new hnew g.varsVec hl.nodup (fun _ h => h) h (fun _ _ => rfl)

/-- Values of the free variables, concatenated. -/
theorem getVectorLoop_ok {h : Heap V} {g : Graph F V} (hl : Layout h g)
    (hval : ∀ r ∈ g.varsVec, VarLike.isConst (h r) = false → (VarLike.value (h r)).length = VarLike.size (h r))
    (rs : List VRef) (hsub : ∀ r ∈ rs, r ∈ g.varsVec) (off : Nat) (x : List F) (hx : off + freeTotal h rs ≤ x.length) :
    getVectorLoop g h rs off x =
      .ok (x.take off ++ ((rs.filter fun r => !VarLike.isConst (h r)).flatMap fun r => VarLike.value (h r)) ++
        x.drop (off + freeTotal h rs)) := by
  induction rs generalizing off x with
  | nil => simp [getVectorLoop, freeTotal]
  | cons r rs ih =>
    have hrm := hsub r (by simp)
    have hsub' : ∀ r ∈ rs, r ∈ g.varsVec := fun r' hr' => hsub r' (by simp [hr'])
    have hft : freeTotal h (r :: rs) = freeSize (h r) + freeTotal h rs := by simp [freeTotal]
    rw [hft] at hx ⊢
    by_cases hc : VarLike.isConst (h r)
    · have hfs : freeSize (h r) = 0 := by simp [freeSize, hc]
      rw [hfs] at hx ⊢
      simp only [getVectorLoop, hc, if_true]
      rw [ih hsub' off x (by omega)]
      simp [hc]
    · have hc' : VarLike.isConst (h r) = false := by simpa using hc
      rw [freeSize_of_nonconst hc'] at hx ⊢
      have hv := hval r hrm hc'
      simp only [getVectorLoop, hc', hl.placement hrm, freeSize_of_nonconst hc']
      rw [if_neg (by simp), if_neg (by simp), if_pos ⟨by omega, hv⟩, ih hsub' _ _ (by simp; omega)]
      congr 1
      have h1 : (List.take off x ++ VarLike.value (h r) ++ List.drop (off + VarLike.size (h r)) x).take
          (off + VarLike.size (h r)) = x.take off ++ VarLike.value (h r) := by
        rw [List.take_append_of_le_length (by simp; omega), List.take_of_length_le (by simp; omega)]
      have h2 : (List.take off x ++ VarLike.value (h r) ++ List.drop (off + VarLike.size (h r)) x).drop
          (off + VarLike.size (h r) + freeTotal h rs) = x.drop (off + (VarLike.size (h r) + freeTotal h rs)) := by
        rw [List.drop_append]
        rw [List.drop_of_length_le (by simp; omega)]
        simp only [List.nil_append, List.drop_drop, List.length_append, List.length_take]
        congr 1
        omega
      rw [h1, h2]
      simp [hc']

theorem getVariableVector_ok {env : Env F V} {h : Heap V} {g : Graph F V} (hl : Layout h g)
    (hval : ∀ r ∈ g.varsVec, VarLike.isConst (h r) = false → (VarLike.value (h r)).length = VarLike.size (h r)) :
    getVariableVector env g h =
      .ok ((g.varsVec.filter fun r => !VarLike.isConst (h r)).flatMap fun r => VarLike.value (h r)) := by
  unfold getVariableVector
  rw [getVectorLoop_ok hl hval g.varsVec (fun _ h => h) 0 _ (by simp [hl.nv])]
  simp [hl.nv]

theorem freeTotal_eq_of {h h' : Heap V} {rs : List VRef} (he : ∀ r ∈ rs, freeSize (h' r) = freeSize (h r)) :
    freeTotal h' rs = freeTotal h rs := by
  unfold freeTotal
  congr 1
  exact List.map_congr_left he

variable [LawfulVar F V]

theorem setVectorLoop_ok {h0 : Heap V} (vars : List VRef) (x : List F) (hlen : freeTotal h0 vars ≤ x.length)
    (new : VRef → V) (hnew : ∀ r ∈ vars, VarLike.isConst (h0 r) = false →
      VarLike.setValue (h0 r) (partOf h0 vars x r) = .ok (new r))
    (pre rs : List VRef) (hsplit : vars = pre ++ rs) (hnd : vars.Nodup) (h : Heap V)
    (hagree : ∀ r ∈ rs, h r = h0 r) :
    setVectorLoop x rs (freeTotal h0 pre) h =
      ((fun r => if r ∈ rs ∧ VarLike.isConst (h0 r) = false then new r else h r), .ok ()) := by
  induction rs generalizing h pre with
  | nil => simp [setVectorLoop, SE.ret]
  | cons r rs ih =>
    have hrh : h r = h0 r := hagree r (by simp)
    have hrm : r ∈ vars := by rw [hsplit]; simp
    have hnd' := hnd
    rw [hsplit, List.nodup_append] at hnd'
    obtain ⟨_, hnd2, hdis⟩ := hnd'
    simp only [List.nodup_cons] at hnd2
    have hnotpre : r ∉ pre := fun hp => hdis r hp r (by simp) rfl
    have hcs : colStart h0 vars r = freeTotal h0 pre := by
      unfold colStart
      congr 1
      rw [hsplit, List.takeWhile_append_of_pos]
      · simp
      · intro a ha; simp; rintro rfl; exact hnotpre ha
    have hft : freeTotal h0 (pre ++ [r]) = freeTotal h0 pre + freeSize (h0 r) := by simp [freeTotal]
    by_cases hc : VarLike.isConst (h0 r)
    · have hfs : freeSize (h0 r) = 0 := by simp [freeSize, hc]
      have := ih (pre ++ [r]) (by simp [hsplit]) h (fun r' hr' => hagree r' (by simp [hr']))
      rw [hft, hfs, Nat.add_zero] at this
      simp only [setVectorLoop, SE.bind_get, hrh, hc, if_true]
      rw [this]
      congr 1
      funext r'
      by_cases e : r' = r
      · subst e; simp [hc]
      · simp [e]
    · have hc' : VarLike.isConst (h0 r) = false := by simpa using hc
      have hend := col_end_le (h := h0) hrm
      rw [freeSize_of_nonconst hc', hcs] at hend
      have hn := hnew r hrm hc'
      simp only [partOf, hcs] at hn
      simp only [setVectorLoop, SE.bind_get, hrh, hc']
      rw [if_neg (by simp)]
      have h2 := ih (pre ++ [r]) (by simp [hsplit]) (h.set r (new r)) (by
        intro r' hr'
        have : r' ≠ r := fun e => hnd2.1 (e ▸ hr')
        simp [Heap.set, this, hagree r' (by simp [hr'])])
      rw [hft, freeSize_of_nonconst hc'] at h2
      have hsz : VarLike.size (new r) = VarLike.size (h0 r) := LawfulVar.size_setValue _ _ _ hn
      have hstep : (mutate r (fun v => VarLike.setValue v (List.take (VarLike.size (h0 r)) (List.drop (freeTotal h0 pre) x)))) h
          = (h.set r (new r), .ok ()) := by
        simp only [mutate, hrh, hn]
      have hseg : (SE.lift (segment x (freeTotal h0 pre) (VarLike.size (h0 r))) : SE (Heap V) (List F)) h
          = (h, .ok (List.take (VarLike.size (h0 r)) (List.drop (freeTotal h0 pre) x))) := by
        simp only [SE.lift, segment]
        rw [if_pos (by omega)]
      rw [SE.bind_ok hseg, SE.bind_ok hstep]
      simp only [SE.bind_get]
      have hself : (h.set r (new r)) r = new r := by simp [Heap.set]
      rw [hself, hsz, h2]
      congr 1
      funext r'
      by_cases e : r' = r
      · subst e; simp [hc', hnd2.1, Heap.set]
      · simp [e, Heap.set]

theorem setVector_ok {h : Heap V} {g : Graph F V} (hl : Layout h g) (x : List F) (hlen : x.length = g.numValues)
    (new : VRef → V) (hnew : ∀ r ∈ g.varsVec, VarLike.isConst (h r) = false →
      VarLike.setValue (h r) (partOf h g.varsVec x r) = .ok (new r)) :
    setVariableValuesFromVector g x h =
      ((fun r => if r ∈ g.varsVec ∧ VarLike.isConst (h r) = false then new r else h r), .ok ()) := by
  have := setVectorLoop_ok (h0 := h) g.varsVec x (by rw [hlen, hl.nv]; exact Nat.le_refl _) new hnew [] g.varsVec rfl
    hl.nodup h (fun _ _ => rfl)
  simpa [setVariableValuesFromVector, freeTotal] using this

/-- Cutting a vector at the columns of the variables and concatenating gives the vector back. -/
theorem concat_parts (h : Heap V) (vars : List VRef) (hnd : vars.Nodup) (x : List F) (hlen : x.length = freeTotal h vars)
    (pre rs : List VRef) (hsplit : vars = pre ++ rs) :
    ((rs.filter fun r => !VarLike.isConst (h r)).flatMap fun r => partOf h vars x r) = x.drop (freeTotal h pre) := by
  induction rs generalizing pre with
  | nil =>
    simp at hsplit
    rw [List.drop_of_length_le (by rw [hlen, hsplit]; exact Nat.le_refl _)]
    rfl
  | cons r rs ih =>
    have hrm : r ∈ vars := by rw [hsplit]; simp
    have hnd' := hnd
    rw [hsplit, List.nodup_append] at hnd'
    obtain ⟨_, hnd2, hdis⟩ := hnd'
    have hnotpre : r ∉ pre := fun hp => hdis r hp r (by simp) rfl
    have hcs : colStart h vars r = freeTotal h pre := by
      unfold colStart
      congr 1
      rw [hsplit, List.takeWhile_append_of_pos]
      · simp
      · intro a ha; simp; rintro rfl; exact hnotpre ha
    have hft : freeTotal h (pre ++ [r]) = freeTotal h pre + freeSize (h r) := by simp [freeTotal]
    have h2 := ih (pre ++ [r]) (by simp [hsplit])
    rw [hft] at h2
    by_cases hc : VarLike.isConst (h r)
    · have hfs : freeSize (h r) = 0 := by simp [freeSize, hc]
      rw [hfs, Nat.add_zero] at h2
      simp [hc, h2]
    · have hc' : VarLike.isConst (h r) = false := by simpa using hc
      rw [freeSize_of_nonconst hc'] at h2
      rw [List.filter_cons_of_pos (by simp [hc']), List.flatMap_cons, h2]
      simp only [partOf, hcs]
      rw [← List.drop_drop, List.take_append_drop]

theorem concat_length (h : Heap V) (l : List VRef)
    (hval : ∀ r ∈ l, VarLike.isConst (h r) = false → (VarLike.value (h r)).length = VarLike.size (h r)) :
    ((l.filter fun r => !VarLike.isConst (h r)).flatMap fun r => VarLike.value (h r)).length = freeTotal h l := by
  induction l with
  | nil => rfl
  | cons a l ih =>
    have := ih (fun r hr => hval r (by simp [hr]))
    by_cases ha : VarLike.isConst (h a)
    · simp only [freeTotal, List.map_cons, List.sum_cons, freeSize, ha, if_true]
      simp only [freeTotal] at this
      simp [ha, this, freeSize]
    · have ha' : VarLike.isConst (h a) = false := by simpa using ha
      have hv := hval a (by simp) ha'
      simp only [freeTotal] at this
      simp [freeTotal, freeSize, ha', hv, this]

theorem parts_of_concat (h : Heap V) (vars : List VRef) (hnd : vars.Nodup)
    (hval : ∀ r ∈ vars, VarLike.isConst (h r) = false → (VarLike.value (h r)).length = VarLike.size (h r))
    (r : VRef) (hr : r ∈ vars) (hc : VarLike.isConst (h r) = false) :
    partOf h vars ((vars.filter fun r => !VarLike.isConst (h r)).flatMap fun r => VarLike.value (h r)) r =
      VarLike.value (h r) := by
  obtain ⟨pre, post, hsplit⟩ := List.append_of_mem hr
  have hnd' := hnd
  rw [hsplit, List.nodup_append] at hnd'
  obtain ⟨_, hnd2, hdis⟩ := hnd'
  have hnotpre : r ∉ pre := fun hp => hdis r hp r (by simp) rfl
  have hcs : colStart h vars r = freeTotal h pre := by
    unfold colStart
    congr 1
    rw [hsplit, List.takeWhile_append_of_pos]
    · simp
    · intro a ha; simp; rintro rfl; exact hnotpre ha
  have hl := concat_length h pre (fun r hr => hval r (by rw [hsplit]; simp [hr]))
  unfold partOf
  rw [hcs]
  conv => lhs; rw [hsplit]
  rw [List.filter_append, List.flatMap_append, ← hl, List.drop_left]
  simp only [hc, Bool.not_false, List.filter_cons_of_pos, List.flatMap_cons]
  rw [← hval r hr hc, List.take_left]

theorem residualInto_layout {env : Env F V} {h : Heap V} {g : Graph F V} (hl : Layout h g)
    (segs : List (List F)) (hlen : segs.length = g.facs.length)
    (hseg : ∀ (k : Nat) f, g.facs[k]? = some f → ∃ s, segs[k]? = some s ∧ f.computeResidual h = .ok s ∧
      s.length = f.residualSize) (buf : List F) :
    computeResidualInto env g h buf = (segs.flatten, .ok ()) := by
  unfold computeResidualInto
  rw [if_neg (by simp [hl.fin]), SE.bind_modify]
  apply residualLoop_flatten (pl := plOf h g.varsVec) _ _ segs hlen hseg
  · rw [resizeTo_length, hl.nr]
  · rw [← hl.fpl]; exact env.order_perm g.facPl

theorem residual_layout {env : Env F V} {h : Heap V} {g : Graph F V} (hl : Layout h g)
    (segs : List (List F)) (hlen : segs.length = g.facs.length)
    (hseg : ∀ (k : Nat) f, g.facs[k]? = some f → ∃ s, segs[k]? = some s ∧ f.computeResidual h = .ok s ∧
      s.length = f.residualSize) :
    computeResidual env h g = ({ g with cachedRes := segs.flatten, resValid := true }, .ok segs.flatten) := by
  unfold computeResidual
  rw [if_neg (by simp [hl.fin])]
  simp only
  rw [residualInto_layout hl segs hlen hseg]

/-! ### Accepted objects -/

omit [Zero F] in
theorem accepted_snoc {α : Type} (key : α → Int) (xs : List α) (x : α) :
    accepted key (xs ++ [x]) =
      if (accepted key xs).any (fun a => key a == key x) then accepted key xs else accepted key xs ++ [x] := by
  simp [accepted, List.foldl_append]

end Graph
end Factorama
