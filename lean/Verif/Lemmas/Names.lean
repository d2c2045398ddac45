import Verif.Model.Names
import Verif.Lemmas.Variables
import Verif.Lemmas.History
import Std.Data.String.ToInt

/-! Helper lemmas: names can be read back, and objects keep their class. -/

namespace Factorama
open Spec

/-- Two texts cut at the first character that fails a test agree piece by piece. -/
theorem cut_unique {α : Type} (p : α → Prop) {a b s t : List α} {x y : α} (ha : ∀ c ∈ a, p c) (hb : ∀ c ∈ b, p c)
    (hx : ¬ p x) (hy : ¬ p y) (h : a ++ x :: s = b ++ y :: t) : a = b ∧ x :: s = y :: t := by
  induction a generalizing b with
  | nil =>
    cases b with
    | nil => exact ⟨rfl, h⟩
    | cons d b => simp at h; exact absurd (hb d (by simp)) (h.1 ▸ hx)
  | cons c a ih =>
    cases b with
    | nil => simp at h; exact absurd (ha c (by simp)) (h.1 ▸ hy)
    | cons d b =>
      simp only [List.cons_append, List.cons.injEq] at h
      obtain ⟨e1, e2⟩ := ih (fun c hc => ha c (List.mem_cons_of_mem _ hc))
        (fun c hc => hb c (List.mem_cons_of_mem _ hc)) h.2
      exact ⟨by rw [h.1, e1], e2⟩

/-- Characters of a decimal number. -/
def Numeric (c : Char) : Prop := c.isDigit = true ∨ c = '-'

instance : DecidablePred Numeric := fun _ => inferInstanceAs (Decidable (_ ∨ _))

theorem numeric_toString (i : Int) : ∀ c ∈ (toString i).toList, Numeric c := by
  intro c hc
  rw [Int.toString_eq_repr, Int.repr_eq_if] at hc
  split at hc
  · left; rw [Nat.toList_repr] at hc; exact Nat.isDigit_of_mem_toDigits (by decide) (by decide) hc
  · simp only [String.toList_append, List.mem_append] at hc
    rcases hc with hc | hc
    · right; simpa using hc
    · left; rw [Nat.toList_repr] at hc; exact Nat.isDigit_of_mem_toDigits (by decide) (by decide) hc

theorem toString_inj {i j : Int} (h : (toString i).toList = (toString j).toList) : i = j :=
  Int.repr_injective (String.toList_inj.mp h)

/-- The type names end in a character that no number contains. -/
theorem type_name_end (t : VariableType) : ∃ x s, t.name.toList.reverse = x :: s ∧ ¬ Numeric x := by
  cases t <;> exact ⟨_, _, rfl, by decide⟩

theorem variableType_name_inj {s t : VariableType} (h : s.name.toList = t.name.toList) : s = t := by
  cases s <;> cases t <;> first | rfl | (revert h; decide +kernel)

theorem name_parts {s t : VariableType} {i j : Int} (h : (s.name ++ toString i).toList = (t.name ++ toString j).toList) :
    s = t ∧ i = j := by
  obtain ⟨x, u, hx, hnx⟩ := type_name_end s
  obtain ⟨y, v, hy, hny⟩ := type_name_end t
  have h' := congrArg List.reverse h
  simp only [String.toList_append, List.reverse_append, hx, hy] at h'
  obtain ⟨e1, e2⟩ := cut_unique Numeric (fun c hc => numeric_toString i c (by simpa using hc))
    (fun c hc => numeric_toString j c (by simpa using hc)) hnx hny h'
  rw [← hx, ← hy] at e2
  exact ⟨variableType_name_inj (List.reverse_inj.mp e2), toString_inj (List.reverse_inj.mp e1)⟩

theorem name_inj {v w : RVar} (h : v.name = w.name) : v.type = w.type ∧ VarLike.id v = VarLike.id w :=
  name_parts (congrArg String.toList h)

/-- Characters of the name of a variable. -/
def Plain (c : Char) : Prop := c ≠ ',' ∧ c ≠ '(' ∧ c ≠ ')'

instance : DecidablePred Plain := fun _ => inferInstanceAs (Decidable (_ ∧ _))

theorem Numeric.plain {c : Char} (h : Numeric c) : Plain c := by
  refine ⟨?_, ?_, ?_⟩ <;> rintro rfl <;> exact absurd h (by decide)

theorem plain_name (v : RVar) : ∀ c ∈ v.name.toList, Plain c := by
  intro c hc
  simp only [RVar.name, String.toList_append, List.mem_append] at hc
  rcases hc with hc | hc
  · have : ∀ t : VariableType, ∀ c ∈ t.name.toList, Plain c := by intro t; cases t <;> decide +kernel
    exact this _ c hc
  · exact (numeric_toString _ c hc).plain

theorem joined_cons (sep a : String) (l : List String) :
    (joined sep (a :: l)).toList = a.toList ++ (if l = [] then [] else sep.toList ++ (joined sep l).toList) := by
  cases l with
  | nil => simp [joined]
  | cons b l => simp [joined]

/-- A list of names in parentheses can be read back. -/
theorem joined_inj {sep : String} {s : List Char} (hs : sep.toList = ',' :: s) {l m : List String}
    (hl : ∀ a ∈ l, ∀ c ∈ a.toList, Plain c) (hm : ∀ a ∈ m, ∀ c ∈ a.toList, Plain c) (hl0 : l ≠ []) (hm0 : m ≠ [])
    (h : (joined sep l).toList ++ [')'] = (joined sep m).toList ++ [')']) : l = m := by
  have hcomma : ¬ Plain ',' := by decide
  have hpar : ¬ Plain ')' := by decide
  induction l generalizing m with
  | nil => exact absurd rfl hl0
  | cons a l ih =>
    cases m with
    | nil => exact absurd rfl hm0
    | cons b m =>
      rw [joined_cons, joined_cons] at h
      by_cases hl1 : l = []
      · by_cases hm1 : m = []
        · subst hl1; subst hm1
          simp at h
          rw [String.toList_inj.mp h]
        · rw [if_pos hl1, if_neg hm1, hs] at h
          simp only [List.append_nil, List.append_assoc, List.cons_append] at h
          obtain ⟨_, e⟩ := cut_unique Plain (hl a (by simp)) (hm b (by simp)) hpar hcomma h
          simp at e
      · by_cases hm1 : m = []
        · rw [if_neg hl1, if_pos hm1, hs] at h
          simp only [List.append_nil, List.append_assoc, List.cons_append] at h
          obtain ⟨_, e⟩ := cut_unique Plain (hl a (by simp)) (hm b (by simp)) hcomma hpar h
          simp at e
        · rw [if_neg hl1, if_neg hm1, hs] at h
          simp only [List.append_assoc, List.cons_append] at h
          obtain ⟨e1, e2⟩ := cut_unique Plain (hl a (by simp)) (hm b (by simp)) hcomma hcomma h
          simp only [List.cons.injEq, true_and, List.append_cancel_left_eq] at e2
          rw [String.toList_inj.mp e1, ih (fun a ha => hl a (List.mem_cons_of_mem _ ha))
            (fun a ha => hm a (List.mem_cons_of_mem _ ha)) hl1 hm1 e2]

/-! ### Names of factors -/

/-- The fixed text with which the names of a class begin. -/
def nameHead : FactorClass → String
  | .genericPrior => "GenericPriorFactor("
  | .genericBetween => "GenericBetweenFactor("
  | .posePositionPrior => "PosePositionPriorFactor("
  | .poseOrientationPrior => "PoseOrientationPriorFactor("
  | .rotationPrior => "RotationPriorFactor"
  | .posePositionBetween => "PosePositionBetweenFactor("
  | .poseOrientationBetween => "pose_orientation_between"
  | .bearingObservation => "bearing_observation"
  | .inverseRangeBearing => "inverse_range_bearing"
  | .bearingProjection => "BearingProjection2D_"
  | .bearing2D => "BearingObservationFactor2D("
  | .rangeBearing2D => "RangeBearingFactor2D("
  | .pose2DPrior => "Pose2DPriorFactor("
  | .pose2DBetween => "Pose2DBetweenFactor("
  | .plane => "PlaneFactor("
  | .planePrior => "PlanePriorFactor("
  | .linearVelocity => "generic_between"
  | .coordinateTransform => "CoordinateTransformFactor"

theorem nameHead_prefix {c d : FactorClass} (h : (nameHead c).toList <+: (nameHead d).toList) : c = d := by
  cases c <;> cases d <;> first | rfl | (revert h; decide +kernel)

theorem factorName_listing {c : FactorClass} (hc : ¬ NamesItsId c) (h : Heap RVar) (f : Factor ℝ RVar) :
    factorName c h f = nameHead c ++ joined ", " (variableNames h f) ++ ")" := by
  cases c <;> first | rfl | exact absurd trivial hc

theorem factorName_numbered {c : FactorClass} (hc : NamesItsId c) (h : Heap RVar) (f : Factor ℝ RVar) :
    factorName c h f = nameHead c ++ toString f.id ∨
      ∃ s, factorName c h f = nameHead c ++ toString f.id ++ "(" ++ s ++ ")" := by
  cases c <;> first | exact hc.elim | exact .inl rfl | exact .inr ⟨_, rfl⟩

theorem factorName_head (c : FactorClass) (h : Heap RVar) (f : Factor ℝ RVar) :
    (nameHead c).toList <+: (factorName c h f).toList := by
  by_cases hc : NamesItsId c
  · rcases factorName_numbered hc h f with e | ⟨s, e⟩ <;>
      (rw [e]; simp only [String.toList_append, List.append_assoc]; apply List.prefix_append)
  · rw [factorName_listing hc]
    simp only [String.toList_append, List.append_assoc]
    apply List.prefix_append

theorem factorName_class {c d : FactorClass} {h : Heap RVar} {f g : Factor ℝ RVar}
    (e : factorName c h f = factorName d h g) : c = d := by
  have h1 := factorName_head c h f
  have h2 := factorName_head d h g
  rw [← e] at h2
  rcases List.prefix_or_prefix_of_prefix h1 h2 with h3 | h3
  · exact nameHead_prefix h3
  · exact (nameHead_prefix h3).symm

theorem not_numeric_paren (i j : Int) (s : List Char) : (toString i).toList ≠ (toString j).toList ++ '(' :: s := by
  intro e
  exact absurd (numeric_toString i '(' (by rw [e]; simp)) (by decide)

theorem factorName_id {c : FactorClass} {h : Heap RVar} {f g : Factor ℝ RVar} (hc : NamesItsId c)
    (e : factorName c h f = factorName c h g) : f.id = g.id := by
  have hn : ¬ Numeric '(' := by decide
  have hp : ("(" : String).toList = ['('] := by decide +kernel
  rcases factorName_numbered hc h f with e1 | ⟨s, e1⟩ <;> rcases factorName_numbered hc h g with e2 | ⟨t, e2⟩ <;>
    (rw [e1, e2] at e
     have e' := congrArg String.toList e
     simp only [String.toList_append, List.append_assoc, List.append_cancel_left_eq, hp, List.cons_append,
       List.nil_append] at e')
  · exact toString_inj e'
  · exact absurd e' (not_numeric_paren _ _ _)
  · exact absurd e'.symm (not_numeric_paren _ _ _)
  · exact toString_inj (cut_unique Numeric (numeric_toString _) (numeric_toString _) hn hn e').1

theorem plain_variableNames (h : Heap RVar) (f : Factor ℝ RVar) :
    ∀ a ∈ variableNames h f, ∀ c ∈ a.toList, Plain c := by
  intro a ha
  simp only [variableNames, List.mem_filterMap, Option.map_eq_some_iff] at ha
  obtain ⟨p, _, r, _, rfl⟩ := ha
  exact plain_name (h r)

theorem comma_space : (", " : String).toList = ',' :: [' '] := by decide +kernel

theorem factorName_variables {c : FactorClass} {h : Heap RVar} {f g : Factor ℝ RVar} (hc : ¬ NamesItsId c)
    (hf : variableNames h f ≠ []) (hg : variableNames h g ≠ []) (e : factorName c h f = factorName c h g) :
    variableNames h f = variableNames h g := by
  rw [factorName_listing hc, factorName_listing hc] at e
  have e' := congrArg String.toList e
  have hp : (")" : String).toList = [')'] := by decide +kernel
  simp only [String.toList_append, List.append_assoc, List.append_cancel_left_eq, hp] at e'
  exact joined_inj (s := [' ']) comma_space (plain_variableNames h f) (plain_variableNames h g) hf hg e'

theorem built_variables {h : Heap RVar} {c : FactorClass} {f : Factor ℝ RVar} (hb : Built h c f) :
    variableNames h f ≠ [] ∧ ∀ p ∈ f.variables, ∃ r, p = some r := by
  cases hb <;>
    simp [variableNames, genericPrior, genericBetween, Fac.posePositionPrior, Fac.poseOrientationPrior,
      Fac.rotationPrior, Fac.posePositionBetween, Fac.poseOrientationBetween, Fac.bearingObservation,
      Fac.inverseRangeBearing, Fac.bearingProjection, Fac.bearing2D, Fac.rangeBearing2D, Fac.pose2DPrior,
      Fac.pose2DBetween, Fac.planeFactor, Fac.planePrior, Fac.linearVelocity, Fac.coordinateTransform]

/-! ### Objects keep their class -/

/-- Every object of the second heap has the class of the same object in the first. -/
def SameClass (h h' : Heap RVar) : Prop := ∀ r, (h' r).cls = (h r).cls

theorem SameClass.refl (h : Heap RVar) : SameClass h h := fun _ => rfl

theorem SameClass.trans {h h' h'' : Heap RVar} (h1 : SameClass h h') (h2 : SameClass h' h'') : SameClass h h'' :=
  fun r => (h2 r).trans (h1 r)

theorem cls_setConst (v : RVar) (b : Bool) : (VarLike.setConst v b).cls = v.cls := by cases v <;> rfl

theorem res_map_ok {α β : Type} {f : α → β} {x : Res α} {y : β} (h : x.map f = .ok y) : ∃ a, y = f a := by
  cases x <;> simp [Res.map] at h
  exact ⟨_, h.symm⟩

theorem cls_setValue {v v' : RVar} {x : List ℝ} (h : VarLike.setValue v x = .ok v') : v'.cls = v.cls := by
  cases v <;> (obtain ⟨a, rfl⟩ := res_map_ok h; rfl)

theorem cls_applyIncr {v v' : RVar} {x : List ℝ} (h : VarLike.applyIncr v x = .ok v') : v'.cls = v.cls := by
  cases v <;> (obtain ⟨a, rfl⟩ := res_map_ok h; rfl)

theorem mutate_class (r : VRef) {f : RVar → Res RVar} (hf : ∀ v v', f v = .ok v' → v'.cls = v.cls) (h : Heap RVar) :
    SameClass h (Graph.mutate r f h).1 := by
  unfold Graph.mutate
  split
  · next v hv =>
    intro r'
    by_cases hr : r' = r
    · subst hr; simpa [Heap.set] using hf _ _ hv
    · simp [Heap.set, hr]
  · exact SameClass.refl h
  · exact SameClass.refl h

theorem bind_class {α β : Type} {m : SE (Heap RVar) α} {k : α → SE (Heap RVar) β} {h : Heap RVar}
    (hm : SameClass h (m h).1) (hk : ∀ a h', SameClass h' (k a h').1) : SameClass h (SE.bind m k h).1 := by
  unfold SE.bind
  split
  · next h' a e => rw [e] at hm; exact hm.trans (hk a h')
  · next h' e => rw [e] at hm; exact hm
  · next h' e => rw [e] at hm; exact hm

theorem setVectorLoop_class (x : List ℝ) (rs : List VRef) (k : Nat) (h : Heap RVar) :
    SameClass h (Graph.setVectorLoop x rs k h).1 := by
  induction rs generalizing k h with
  | nil => exact SameClass.refl h
  | cons r rs ih =>
    refine bind_class (SameClass.refl h) fun h0 h1 => ?_
    split
    · exact ih _ _
    · refine bind_class (SameClass.refl h1) fun seg h2 => ?_
      refine bind_class (mutate_class r (fun _ _ => cls_setValue) h2) fun _ h3 => ?_
      exact bind_class (SameClass.refl h3) fun _ h4 => ih _ _

theorem forEach_class {α : Type} (l : List α) {m : α → SE (Heap RVar) Unit}
    (hm : ∀ a h, SameClass h (m a h).1) (h : Heap RVar) : SameClass h (SE.forEach l m h).1 := by
  induction l generalizing h with
  | nil => exact SameClass.refl h
  | cons a l ih => exact bind_class (hm a h) fun _ h' => ih h'

theorem applyIncrementOne_class (g : Graph ℝ RVar) (dx : List ℝ) (r : VRef) (h : Heap RVar) :
    SameClass h (Graph.applyIncrementOne g dx r h).1 := by
  refine bind_class (SameClass.refl h) fun h0 h1 => ?_
  split
  · exact SameClass.refl h1
  · cases g.variablePlacement (VarLike.id (h0 r)) with
    | none => exact SameClass.refl h1
    | some p =>
      dsimp only
      split
      · exact SameClass.refl h1
      · exact bind_class (SameClass.refl h1) fun seg h2 => mutate_class r (fun _ _ => cls_applyIncr) h2

/-- No call changes the class of an object. -/
theorem step_class (env : Env ℝ RVar) (op : Op ℝ RVar) (w : World ℝ RVar) :
    SameClass w.heap (World.step env op w).1.heap := by
  cases op with
  | setConstant r b => exact mutate_class r (fun v v' e => by cases e; exact cls_setConst v b) w.heap
  | setValue r x => exact mutate_class r (fun _ _ => cls_setValue) w.heap
  | incrOne r x => exact mutate_class r (fun _ _ => cls_applyIncr) w.heap
  | setVector x => exact setVectorLoop_class x _ _ w.heap
  | applyIncrement dx =>
    show SameClass w.heap (Graph.applyIncrement w.graph dx w.heap).1
    unfold Graph.applyIncrement
    split
    · exact SameClass.refl _
    · split
      · exact SameClass.refl _
      · exact forEach_class _ (applyIncrementOne_class w.graph dx) w.heap
  | _ => exact SameClass.refl _

theorem runs_class {w w' : World ℝ RVar} {evs : List (Op ℝ RVar × Res Unit)} (hr : World.Runs w evs w') :
    SameClass w.heap w'.heap := by
  induction hr with
  | nil => exact SameClass.refl _
  | @cons w w1 w2 op evs r env hs _ _ ih =>
    have := step_class env op w
    rw [hs] at this
    exact this.trans ih

theorem foldl_filter {α : Type} (p : α → Prop) [DecidablePred p] (l acc : List α) :
    l.foldl (fun result r => if p r then result ++ [r] else result) acc = acc ++ l.filter (fun r => decide (p r)) := by
  induction l generalizing acc with
  | nil => simp
  | cons a l ih =>
    simp only [List.foldl_cons, ih, List.filter_cons]
    by_cases h : p a <;> simp [h]

end Factorama
