import Verif.Model.Graph

/-! Helper lemmas about the loop combinator and the scatter loops. -/

namespace Factorama

namespace SE
variable {σ α β : Type}

@[simp] theorem ret_apply (a : α) (s : σ) : (ret a : SE σ α) s = (s, .ok a) := rfl
@[simp] theorem throw_apply (s : σ) : (throw : SE σ α) s = (s, .threw) := rfl
@[simp] theorem undefined_apply (s : σ) : (undefined : SE σ α) s = (s, .ub) := rfl
@[simp] theorem lift_apply (r : Res α) (s : σ) : (lift r : SE σ α) s = (s, r) := rfl
@[simp] theorem get_apply (s : σ) : (get : SE σ σ) s = (s, .ok s) := rfl
@[simp] theorem put_apply (s s' : σ) : (put s : SE σ Unit) s' = (s, .ok ()) := rfl
@[simp] theorem modify_apply (f : σ → σ) (s : σ) : (modify f : SE σ Unit) s = (f s, .ok ()) := rfl

theorem bind_ok {m : SE σ α} {f : α → SE σ β} {s s' : σ} {a : α} (hm : m s = (s', .ok a)) :
    bind m f s = f a s' := by simp [bind, hm]
theorem bind_threw {m : SE σ α} {f : α → SE σ β} {s s' : σ} (hm : m s = (s', .threw)) :
    bind m f s = (s', .threw) := by simp [bind, hm]
theorem bind_ub {m : SE σ α} {f : α → SE σ β} {s s' : σ} (hm : m s = (s', .ub)) :
    bind m f s = (s', .ub) := by simp [bind, hm]

@[simp] theorem bind_ret (a : α) (f : α → SE σ β) (s : σ) : bind (ret a) f s = f a s := rfl
@[simp] theorem bind_get (f : σ → SE σ β) (s : σ) : bind get f s = f s s := rfl
@[simp] theorem bind_put (s' : σ) (f : Unit → SE σ β) (s : σ) : bind (put s') f s = f () s' := rfl
@[simp] theorem bind_modify (u : σ → σ) (f : Unit → SE σ β) (s : σ) :
    bind (modify u) f s = f () (u s) := rfl
@[simp] theorem bind_lift_ok (a : α) (f : α → SE σ β) (s : σ) :
    bind (lift (.ok a)) f s = f a s := rfl
@[simp] theorem bind_lift_threw (f : α → SE σ β) (s : σ) :
    bind (lift .threw) f s = (s, .threw) := rfl
@[simp] theorem bind_lift_ub (f : α → SE σ β) (s : σ) :
    bind (lift .ub) f s = (s, .ub) := rfl
@[simp] theorem bind_throw (f : α → SE σ β) (s : σ) : bind throw f s = (s, .threw) := rfl
@[simp] theorem bind_undefined (f : α → SE σ β) (s : σ) : bind undefined f s = (s, .ub) := rfl

@[simp] theorem forEach_nil (body : β → SE σ Unit) (s : σ) : forEach [] body s = (s, .ok ()) := rfl
theorem forEach_cons (b : β) (bs : List β) (body : β → SE σ Unit) (s : σ) :
    forEach (b :: bs) body s = bind (body b) (fun _ => forEach bs body) s := rfl

theorem forEach_append (as bs : List β) (body : β → SE σ Unit) (s : σ) :
    forEach (as ++ bs) body s = bind (forEach as body) (fun _ => forEach bs body) s := by
  induction as generalizing s with
  | nil => simp [bind]
  | cons a as ih =>
    simp only [List.cons_append, forEach_cons, bind]
    rcases body a s with ⟨s', r⟩
    cases r <;> simp [ih, bind]

/-- Loop rule: an invariant indexed by the processed prefix. -/
theorem forEach_inv {body : β → SE σ Unit} (P : List β → σ → Prop) (bs : List β) (s : σ)
    (h0 : P [] s)
    (hstep : ∀ pre b post s, bs = pre ++ b :: post → P pre s →
      ∃ s', body b s = (s', .ok ()) ∧ P (pre ++ [b]) s') :
    ∃ s', forEach bs body s = (s', .ok ()) ∧ P bs s' := by
  suffices H : ∀ post pre s, bs = pre ++ post → P pre s →
      ∃ s', forEach post body s = (s', .ok ()) ∧ P bs s' from H bs [] s rfl h0
  intro post
  induction post with
  | nil => intro pre s hb hp; exact ⟨s, rfl, by simpa [hb] using hp⟩
  | cons b post ih =>
    intro pre s hb hp
    obtain ⟨s1, h1, hp1⟩ := hstep pre b post s hb hp
    obtain ⟨s2, h2, hp2⟩ := ih (pre ++ [b]) s1 (by simp [hb]) hp1
    exact ⟨s2, by rw [forEach_cons, bind_ok h1, h2], hp2⟩

end SE

namespace Graph

/-- The values written to column `c` by a write log, in order. -/
def colVals {α : Type} (c : Nat) (log : List (Nat × α)) : List α :=
  log.filterMap fun w => if w.1 = c then some w.2 else none

section
variable {α β : Type}

@[simp] theorem colVals_nil (c : Nat) : colVals c ([] : List (Nat × α)) = [] := rfl
theorem colVals_cons_eq (c : Nat) (x : α) (log : List (Nat × α)) :
    colVals c ((c, x) :: log) = x :: colVals c log := by simp [colVals]
theorem colVals_cons_ne {c c' : Nat} (h : c' ≠ c) (x : α) (log : List (Nat × α)) :
    colVals c ((c', x) :: log) = colVals c log := by simp [colVals, h]
@[simp] theorem colVals_append (c : Nat) (l1 l2 : List (Nat × α)) :
    colVals c (l1 ++ l2) = colVals c l1 ++ colVals c l2 := by simp [colVals]
theorem colVals_flatMap (c : Nat) (l : List β) (f : β → List (Nat × α)) :
    colVals c (l.flatMap f) = l.flatMap fun b => colVals c (f b) := by
  induction l with
  | nil => rfl
  | cons b l ih => simp [ih]
theorem colVals_map (c : Nat) (l : List (Nat × α)) (f : α → β) :
    colVals c (l.map fun w => (w.1, f w.2)) = (colVals c l).map f := by
  induction l with
  | nil => rfl
  | cons b l ih =>
    obtain ⟨c', x⟩ := b
    by_cases h : c' = c
    · subst h; simp [colVals_cons_eq, ih]
    · simp [colVals_cons_ne h, ih]

theorem colVals_rowWrites (c base C : Nat) (x : Nat → α) :
    colVals c ((List.range C).map fun j => (base + j, x j)) =
      if base ≤ c ∧ c < base + C then [x (c - base)] else [] := by
  induction C with
  | zero => simp
  | succ C ih =>
    rw [List.range_succ, List.map_append, colVals_append, ih]
    by_cases h1 : base ≤ c ∧ c < base + C
    · have : base + C ≠ c := by omega
      simp [h1, colVals, this]; omega
    · by_cases h2 : base + C = c
      · subst h2; simp [colVals]
      · have : ¬ (base ≤ c ∧ c < base + (C + 1)) := by omega
        simp [h1, this, colVals, h2]

theorem colVals_blockWrites (c base R C : Nat) (x : Nat → Nat → α) :
    colVals c (blockWrites base R C x) =
      if base ≤ c ∧ c < base + C then (List.range R).map fun r => x r (c - base) else [] := by
  unfold blockWrites
  rw [colVals_flatMap]
  simp only [colVals_rowWrites]
  split
  · exact List.map_eq_flatMap.symm
  · simp

theorem blockWrites_map (base R C : Nat) (x : Nat → Nat → α) (f : α → β) :
    (blockWrites base R C x).map (fun w => (w.1, f w.2)) = blockWrites base R C fun r c => f (x r c) := by
  simp [blockWrites, List.map_flatMap, Function.comp_def]

theorem mem_blockWrites {base R C : Nat} {x : Nat → Nat → α} {w : Nat × α}
    (h : w ∈ blockWrites base R C x) : base ≤ w.1 ∧ w.1 < base + C := by
  simp only [blockWrites, List.mem_flatMap, List.mem_map, List.mem_range] at h
  obtain ⟨r, _, c, hc, rfl⟩ := h
  simp; omega

theorem blockWrites_empty {base R C : Nat} {x : Nat → Nat → α} (h : R = 0 ∨ C = 0) :
    blockWrites base R C x = [] := by
  rcases h with rfl | rfl <;> simp [blockWrites]

theorem take_succ_set (a : List α) (k : Nat) (x : α) (h : k < a.length) :
    (a.set k x).take (k + 1) = a.take k ++ [x] := by
  induction a generalizing k with
  | nil => simp at h
  | cons y a ih =>
    cases k with
    | zero => simp
    | succ k => simp at h; simp [ih k h]

/-- Result of a scatter loop whose columns all have enough room. -/
theorem scatter_spec (bad : Res Unit) (log : List (Nat × α)) (n : Nat) :
    ∀ (arr : List (List α)) (cur : List Nat), arr.length = n → cur.length = n →
    (∀ w ∈ log, w.1 < n) →
    (∀ c (_ : c < n) a k, arr[c]? = some a → cur[c]? = some k → k + (colVals c log).length ≤ a.length) →
    ∃ arr' cur', SE.forEach log (scatterOne bad) (arr, cur) = ((arr', cur'), .ok ()) ∧
      arr'.length = n ∧ cur'.length = n ∧
      ∀ c a k, arr[c]? = some a → cur[c]? = some k →
        arr'[c]? = some (a.take k ++ colVals c log ++ a.drop (k + (colVals c log).length)) ∧
        cur'[c]? = some (k + (colVals c log).length) := by
  induction log with
  | nil =>
    intro arr cur ha hc _ _
    exact ⟨arr, cur, rfl, ha, hc, fun c a k h1 h2 => by simp [h1, h2]⟩
  | cons w log ih =>
    obtain ⟨c0, x⟩ := w
    intro arr cur ha hc hlt hroom
    have hc0 : c0 < n := hlt (c0, x) (by simp)
    obtain ⟨a0, ha0⟩ : ∃ a0, arr[c0]? = some a0 := ⟨arr[c0], by simp [ha, hc0]⟩
    obtain ⟨k0, hk0⟩ : ∃ k0, cur[c0]? = some k0 := ⟨cur[c0], by simp [hc, hc0]⟩
    have hr0 := hroom c0 hc0 a0 k0 ha0 hk0
    rw [colVals_cons_eq] at hr0
    simp only [List.length_cons] at hr0
    have hstep : scatterOne bad (c0, x) (arr, cur) =
        ((arr.set c0 (a0.set k0 x), cur.set c0 (k0 + 1)), .ok ()) := by
      have : k0 < a0.length := by omega
      simp [scatterOne, ha0, hk0, this]
    obtain ⟨arr', cur', h1, h2, h3, h4⟩ := ih (arr.set c0 (a0.set k0 x)) (cur.set c0 (k0 + 1))
      (by simp [ha]) (by simp [hc]) (fun w hw => hlt w (by simp [hw])) (by
        intro c hcn a k hA hK
        by_cases hcc : c = c0
        · subst hcc
          simp [ha, hcn] at hA
          simp [hc, hcn] at hK
          subst hA hK
          simp; omega
        · rw [List.getElem?_set_ne (by omega)] at hA hK
          have := hroom c hcn a k hA hK
          rwa [colVals_cons_ne (by omega)] at this)
    refine ⟨arr', cur', by rw [SE.forEach_cons, SE.bind_ok hstep, h1], h2, h3, ?_⟩
    intro c a k hA hK
    by_cases hcc : c = c0
    · subst hcc
      have hcn : c < n := hc0
      obtain rfl : a0 = a := by simpa [ha0] using hA
      obtain rfl : k0 = k := by simpa [hk0] using hK
      have := h4 c (a0.set k0 x) (k0 + 1) (by simp [ha, hcn]) (by simp [hc, hcn])
      rw [colVals_cons_eq]
      refine ⟨?_, ?_⟩
      · rw [this.1]
        have hk : k0 < a0.length := by omega
        congr 1
        have e1 : (a0.set k0 x).take (k0 + 1) = a0.take k0 ++ [x] := by
          exact take_succ_set _ _ _ hk
        rw [e1, List.drop_set_of_lt (by omega)]
        simp
        congr 1
        omega
      · rw [this.2]; simp; omega
    · have := h4 c a k (by rw [List.getElem?_set_ne (by omega)]; exact hA)
        (by rw [List.getElem?_set_ne (by omega)]; exact hK)
      rw [colVals_cons_ne (by omega)]
      exact this

end
end Graph
end Factorama
