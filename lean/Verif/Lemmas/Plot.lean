import Verif.Spec.Plot
import Verif.Lemmas.Rotation

/-!
# Lemmas about drawings
-/

namespace Factorama.Plot
open Matrix Geo Spec

theorem gather_ok {h : Heap RVar} (hl : LandmarksSized h) (vars : List VRef) : ∃ g, gather h vars = .ok g := by
  induction vars with
  | nil => exact ⟨_, rfl⟩
  | cons r rs ih =>
    obtain ⟨g, hg⟩ := ih
    unfold gather
    cases e : h r with
    | landmark x => simp [LandmarkVar.posW, hl r x e, hg, Res.andThen, Res.map]
    | generic v => simp only [hg, Res.map]; split <;> simp
    | pose v => simp [hg, Res.map]
    | pose2d v => simp [hg, Res.map]
    | rotation v => exact ⟨g, hg⟩
    | invRange v => exact ⟨g, hg⟩
    | plane v => exact ⟨g, hg⟩

theorem head2_ok {x : List ℝ} (h : x.length = 2) : ∃ p, Fac.head2 x = .ok p := by
  unfold Fac.head2
  rw [if_pos (by omega)]
  exact ⟨_, rfl⟩

theorem measurementLine_ok {h : Heap RVar} (hl : LandmarksSized h) {f : PyFactor} (hs : Seen h f)
    (hp : f.cls ≠ .bearingProjection) : ∃ ms, measurementLine h f = .ok ms := by
  cases hs with
  | @bearingObservation v x id p l bearing sigma h1 h2 =>
    simp [measurementLine, PyFactor.bearingObservation, factorType, Fac.bearingObservation, h1, h2, pyPosW, pyDcm,
      accessor, Res.andThen, LandmarkVar.posW, hl l x h2, Res.map]
  | @bearing2D v id p l obs sigma h1 h2 =>
    obtain ⟨q, hq⟩ := head2_ok (x := VarLike.value (h l)) (by
      revert h2
      cases h l <;> intro h2 <;>
        first
        | exact h2
        | exact absurd (show (3 : Nat) = 2 from h2) (by decide)
        | exact absurd (show (6 : Nat) = 2 from h2) (by decide)
        | exact absurd (show (1 : Nat) = 2 from h2) (by decide))
    simp [measurementLine, PyFactor.bearing2D, factorType, Fac.bearing2D, h1, pyPose2d, accessor, Res.andThen, hq, Res.map]
  | @rangeBearing2D v id p l range obs rs bs h1 h2 =>
    simp [measurementLine, PyFactor.rangeBearing2D, factorType, Fac.rangeBearing2D, h1, pyPose2d, accessor, Res.andThen, Res.map]
  | other f hb h1 h2 h3 h4 h5 h6 =>
    obtain ⟨c, fac, b, a, r⟩ := f
    refine ⟨[], ?_⟩
    dsimp only at *
    cases c <;> first
      | exact absurd rfl hp
      | exact absurd rfl h1
      | exact absurd rfl h2
      | exact absurd rfl h3
      | rfl

theorem measurementLines_ok {h : Heap RVar} (hl : LandmarksSized h) {fs : List PyFactor} (hs : ∀ f ∈ fs, Seen h f)
    (hp : ∀ f ∈ fs, f.cls ≠ .bearingProjection) : ∃ ms, measurementLines h fs = .ok ms := by
  induction fs with
  | nil => exact ⟨_, rfl⟩
  | cons f fs ih =>
    obtain ⟨a, ha⟩ := measurementLine_ok hl (hs f (by simp)) (hp f (by simp))
    obtain ⟨b, hb⟩ := ih (fun f hf => hs f (by simp [hf])) (fun f hf => hp f (by simp [hf]))
    exact ⟨a ++ b, by simp [measurementLines, ha, hb, Res.andThen, Res.map]⟩

/-- The markers for gathered variables. -/
def Gathered.marks (g : Gathered) : List (Mark × V3) :=
  g.pose.map (fun p => (Mark.pose, p.2.pos)) ++ (g.landmark.map (fun p => (Mark.landmark, p.2)) ++
    (g.pose2d.map (fun p => (Mark.pose2d, lift p.2.pos)) ++ g.landmark2d.map (fun p => (Mark.landmark2d, lift p.2))))

theorem gather_marks {h : Heap RVar} {vars : List VRef} {g : Gathered} (hg : gather h vars = .ok g) :
    g.marks.Perm (vars.filterMap fun r => shownAs (h r)) := by
  induction vars generalizing g with
  | nil => cases hg; exact .refl _
  | cons r rs ih =>
    unfold gather at hg
    rw [List.filterMap_cons]
    cases hrs : gather h rs with
    | threw => rw [hrs] at hg; cases e : h r <;> rw [e] at hg <;> simp [Res.map, Res.andThen, LandmarkVar.posW] at hg <;> (try split at hg) <;> simp at hg
    | ub => rw [hrs] at hg; cases e : h r <;> rw [e] at hg <;> simp [Res.map, Res.andThen, LandmarkVar.posW] at hg <;> (try split at hg) <;> simp at hg
    | ok g0 =>
      have ih := ih hrs
      rw [hrs] at hg
      cases e : h r with
      | pose v =>
        rw [e] at hg
        cases hg
        exact ih.cons _
      | landmark x =>
        rw [e] at hg
        simp only [Res.map, Res.andThen, LandmarkVar.posW] at hg
        by_cases hx : x.value.length = 3
        · rw [if_pos hx] at hg
          cases hg
          exact List.perm_middle.trans (ih.cons _)
        · rw [if_neg hx] at hg
          cases hg
      | pose2d v =>
        rw [e] at hg
        cases hg
        unfold Gathered.marks at *
        rw [← List.append_assoc] at ih ⊢
        exact List.perm_middle.trans (ih.cons _)
      | generic v =>
        rw [e] at hg
        dsimp only at hg
        by_cases hv : v.value.length = 2
        · rw [if_pos hv] at hg
          cases hg
          simp only [shownAs, if_pos hv]
          unfold Gathered.marks at *
          rw [← List.append_assoc, ← List.append_assoc] at ih ⊢
          exact List.perm_middle.trans (ih.cons _)
        · rw [if_neg hv] at hg
          cases hg
          simp only [shownAs, if_neg hv]
          exact ih
      | rotation v => rw [e] at hg; cases hg; exact ih
      | invRange v => rw [e] at hg; cases hg; exact ih
      | plane v => rw [e] at hg; cases hg; exact ih

theorem markers_append (a b : List Item) : markers (a ++ b) = markers a ++ markers b := by simp [markers]

theorem lines_append (a b : List Item) : lines (a ++ b) = lines a ++ lines b := by simp [lines]

theorem markers_map {α : Type} (l : List α) (f : α → Mark × V3) :
    markers (l.map fun a => .marker (f a).1 (f a).2) = l.map f := by simp [markers, List.filterMap_map]

theorem markers_nil {l : List Item} (h : ∀ i ∈ l, ∀ k p, i ≠ .marker k p) : markers l = [] := by
  unfold markers
  rw [List.filterMap_eq_nil_iff]
  intro i hi
  cases i with
  | marker k p => exact absurd rfl (h _ hi k p)
  | _ => rfl

theorem lines_nil {l : List Item} (h : ∀ i ∈ l, ∀ k a b, i ≠ .line k a b) : lines l = [] := by
  unfold lines
  rw [List.filterMap_eq_nil_iff]
  intro i hi
  cases i with
  | line k a b => exact absurd rfl (h _ hi k a b)
  | _ => rfl

theorem mem_region {d : Mat ℝ → Item} {covs : Covs} {id : Int} {n : Nat} {i : Item} (h : i ∈ region d covs id n) :
    ∃ P, covs id = some P ∧ n ≤ P.rows ∧ i = d P := by
  unfold region at h
  cases e : covs id with
  | none => rw [e] at h; simp at h
  | some P =>
    rw [e] at h
    dsimp only at h
    split at h
    · rename_i hn; exact ⟨P, rfl, hn, by simpa using h⟩
    · simp at h

/-- Items that are neither markers nor lines. -/
def Plain (i : Item) : Prop := (∀ k p, i ≠ .marker k p) ∧ ∀ k a b, i ≠ .line k a b

theorem plain_arrows {len : ℝ} {v : PoseVar} {i : Item} (h : i ∈ poseArrows len v) : Plain i := by
  simp only [poseArrows, List.mem_cons, List.not_mem_nil, or_false] at h
  rcases h with rfl | rfl | rfl <;> exact ⟨by simp, by simp⟩

theorem plain_region3 {E : Eigh} {h : Heap RVar} {covs : Covs} {r : VRef} {c : V3} {i : Item}
    (hi : i ∈ region3 E h covs r c) : Plain i := by
  obtain ⟨P, _, _, rfl⟩ := mem_region hi
  exact ⟨by simp, by simp⟩

theorem plain_region2 {E : Eigh} {h : Heap RVar} {covs : Covs} {r : VRef} {c : V2} {i : Item}
    (hi : i ∈ region2 E h covs r c) : Plain i := by
  obtain ⟨P, _, _, rfl⟩ := mem_region hi
  exact ⟨by simp [ellipse], by simp [ellipse]⟩

theorem plain_limits {ps : List V3} {i : Item} (hi : i ∈ axisLimits ps) : Plain i := by
  unfold axisLimits at hi
  split at hi
  · simp at hi
  · simp only [List.mem_singleton] at hi
    subst hi
    exact ⟨by simp, by simp⟩

theorem optional_plain {c : Bool} {α : Type} {l : List α} {f : α → List Item} (hf : ∀ a, ∀ i ∈ f a, Plain i) :
    ∀ i ∈ (if c then l.flatMap f else []), Plain i := by
  intro i hi
  split at hi
  · obtain ⟨a, _, ha⟩ := List.mem_flatMap.mp hi
    exact hf a i ha
  · simp at hi

theorem markers_plain {l : List Item} (h : ∀ i ∈ l, Plain i) : markers l = [] := markers_nil fun i hi => (h i hi).1

theorem lines_plain {l : List Item} (h : ∀ i ∈ l, Plain i) : lines l = [] := lines_nil fun i hi => (h i hi).2

theorem markers_map_marker {α : Type} (l : List α) (k : Mark) (f : α → V3) :
    markers (l.map fun a => .marker k (f a)) = l.map fun a => (k, f a) := markers_map l fun a => (k, f a)

theorem lines_map_marker {α : Type} (l : List α) (k : Mark) (f : α → V3) : lines (l.map fun a => .marker k (f a)) = [] :=
  lines_nil fun i hi => by
    obtain ⟨a, _, rfl⟩ := List.mem_map.mp hi
    simp

theorem markers_variables3 (E : Eigh) (o : Options) (h : Heap RVar) (covs : Covs) (g : Gathered) :
    markers (drawVariables3 E o h covs g) = g.marks := by
  unfold drawVariables3 Gathered.marks
  simp only [markers_append, markers_map_marker]
  rw [markers_plain (l := g.pose.flatMap _) fun i hi => by
      obtain ⟨a, _, ha⟩ := List.mem_flatMap.mp hi; exact plain_arrows ha,
    markers_plain (optional_plain fun _ _ hi => plain_region3 hi), markers_plain (optional_plain fun _ _ hi => plain_region3 hi)]
  simp

theorem markers_variables2 (E : Eigh) (o : Options) (h : Heap RVar) (covs : Covs) (g : Gathered) :
    markers (drawVariables2 E o h covs g) = g.marks := by
  unfold drawVariables2 Gathered.marks
  simp only [markers_append, markers_map_marker]
  rw [markers_plain (optional_plain fun _ _ hi => plain_region2 hi), markers_plain (optional_plain fun _ _ hi => plain_region2 hi),
    markers_plain (optional_plain fun _ _ hi => plain_region2 hi), markers_plain (optional_plain fun _ _ hi => plain_region2 hi),
    markers_nil (l := g.pose2d.map fun p => Item.arrow _ _) fun i hi => by
      obtain ⟨a, _, rfl⟩ := List.mem_map.mp hi; simp]
  simp

theorem lines_variables3 (E : Eigh) (o : Options) (h : Heap RVar) (covs : Covs) (g : Gathered) :
    lines (drawVariables3 E o h covs g) = [] := by
  unfold drawVariables3
  simp only [lines_append, lines_map_marker]
  rw [lines_plain (l := g.pose.flatMap _) fun i hi => by
      obtain ⟨a, _, ha⟩ := List.mem_flatMap.mp hi; exact plain_arrows ha,
    lines_plain (optional_plain fun _ _ hi => plain_region3 hi), lines_plain (optional_plain fun _ _ hi => plain_region3 hi)]
  simp

theorem lines_variables2 (E : Eigh) (o : Options) (h : Heap RVar) (covs : Covs) (g : Gathered) :
    lines (drawVariables2 E o h covs g) = [] := by
  unfold drawVariables2
  simp only [lines_append, lines_map_marker]
  rw [lines_plain (optional_plain fun _ _ hi => plain_region2 hi), lines_plain (optional_plain fun _ _ hi => plain_region2 hi),
    lines_plain (optional_plain fun _ _ hi => plain_region2 hi), lines_plain (optional_plain fun _ _ hi => plain_region2 hi),
    lines_nil (l := g.pose2d.map fun p => Item.arrow _ _) fun i hi => by
      obtain ⟨a, _, rfl⟩ := List.mem_map.mp hi; simp]
  simp

/-- The lines of a factor are lines only. -/
def AllLines (l : List Item) : Prop := ∀ i ∈ l, ∃ k a b, i = .line k a b

theorem markers_allLines {l : List Item} (h : AllLines l) : markers l = [] := markers_nil fun i hi k p => by
  obtain ⟨k, a, b, rfl⟩ := h i hi; simp

theorem map_ok {α β : Type} {r : Res α} {f : α → β} {b : β} (h : r.map f = .ok b) : ∃ a, r = .ok a ∧ b = f a := by
  cases r with
  | ok a => cases h; exact ⟨a, rfl, rfl⟩
  | threw => cases h
  | ub => cases h

theorem andThen_ok {α β : Type} {r : Res α} {f : α → Res β} {b : β} (h : r.andThen f = .ok b) : ∃ a, r = .ok a ∧ f a = .ok b := by
  cases r with
  | ok a => exact ⟨a, rfl, h⟩
  | threw => cases h
  | ub => cases h

theorem allLines_measurement {h : Heap RVar} {f : PyFactor} {ms : List Item} (hm : measurementLine h f = .ok ms) : AllLines ms := by
  unfold measurementLine at hm
  split at hm
  · obtain ⟨_, _, hm⟩ := andThen_ok hm
    obtain ⟨_, _, hm⟩ := andThen_ok hm
    obtain ⟨_, _, hm⟩ := andThen_ok hm
    obtain ⟨_, _, rfl⟩ := map_ok hm
    intro i hi
    exact ⟨_, _, _, by simpa using hi⟩
  · obtain ⟨_, _, hm⟩ := andThen_ok hm
    obtain ⟨_, _, hm⟩ := andThen_ok hm
    obtain ⟨_, _, rfl⟩ := map_ok hm
    intro i hi
    exact ⟨_, _, _, by simpa using hi⟩
  · obtain ⟨_, _, hm⟩ := andThen_ok hm
    obtain ⟨_, _, hm⟩ := andThen_ok hm
    obtain ⟨_, _, rfl⟩ := map_ok hm
    intro i hi
    exact ⟨_, _, _, by simpa using hi⟩
  · cases hm
    intro i hi
    simp at hi

theorem allLines_measurements {h : Heap RVar} {fs : List PyFactor} {ms : List Item} (hm : measurementLines h fs = .ok ms) :
    AllLines ms := by
  induction fs generalizing ms with
  | nil => cases hm; intro i hi; simp at hi
  | cons f fs ih =>
    obtain ⟨a, ha, hm⟩ := andThen_ok hm
    obtain ⟨b, hb, rfl⟩ := map_ok hm
    intro i hi
    rcases List.mem_append.mp hi with hi | hi
    · exact allLines_measurement ha i hi
    · exact ih hb i hi

theorem allLines_between (h : Heap RVar) (f : PyFactor) : AllLines (betweenLine h f) := by
  intro i hi
  unfold betweenLine at hi
  split at hi
  · split at hi
    · exact ⟨_, _, _, by simpa using hi⟩
    · simp at hi
  · simp at hi

/-- What a drawing consists of. -/
theorem draw_parts {E : Eigh} {o : Options} {h : Heap RVar} {vars : List VRef} {facs : List PyFactor} {covs : Covs}
    {items : List Item} (hd : draw E o h vars facs covs = .ok items) : ∃ g ms, gather h vars = .ok g ∧
    (if o.measurements then measurementLines h facs else .ok []) = .ok ms ∧
    items = (if o.threeD then drawVariables3 E o h covs g else drawVariables2 E o h covs g) ++ ms ++
      (if o.between then facs.flatMap (betweenLine h) else []) ++ (if o.threeD then axisLimits g.positions else []) := by
  obtain ⟨g, hg, hd⟩ := andThen_ok hd
  obtain ⟨ms, hms, rfl⟩ := map_ok hd
  exact ⟨g, ms, hg, hms, rfl⟩

theorem draw_markers {E : Eigh} {o : Options} {h : Heap RVar} {vars : List VRef} {facs : List PyFactor} {covs : Covs}
    {items : List Item} (hd : draw E o h vars facs covs = .ok items) :
    ∃ g, gather h vars = .ok g ∧ markers items = g.marks := by
  obtain ⟨g, ms, hg, hms, rfl⟩ := draw_parts hd
  refine ⟨g, hg, ?_⟩
  have h1 : markers (if o.threeD then drawVariables3 E o h covs g else drawVariables2 E o h covs g) = g.marks := by
    split
    · exact markers_variables3 ..
    · exact markers_variables2 ..
  have h2 : markers ms = [] := by
    split at hms
    · exact markers_allLines (allLines_measurements hms)
    · cases hms; rfl
  have h3 : markers (if o.between then facs.flatMap (betweenLine h) else []) = [] := by
    split
    · refine markers_allLines fun i hi => ?_
      obtain ⟨f, _, hf⟩ := List.mem_flatMap.mp hi
      exact allLines_between h f i hf
    · rfl
  have h4 : markers (if o.threeD then axisLimits g.positions else []) = [] := by
    split
    · exact markers_plain fun i hi => plain_limits hi
    · rfl
  rw [markers_append, markers_append, markers_append, h1, h2, h3, h4]
  simp

theorem draw_lines {E : Eigh} {o : Options} {h : Heap RVar} {vars : List VRef} {facs : List PyFactor} {covs : Covs}
    {items : List Item} (hd : draw E o h vars facs covs = .ok items) :
    ∃ ms, (if o.measurements then measurementLines h facs else .ok []) = .ok ms ∧
      lines items = lines ms ++ lines (if o.between then facs.flatMap (betweenLine h) else []) := by
  obtain ⟨g, ms, hg, hms, rfl⟩ := draw_parts hd
  refine ⟨ms, hms, ?_⟩
  have h1 : lines (if o.threeD then drawVariables3 E o h covs g else drawVariables2 E o h covs g) = [] := by
    split
    · exact lines_variables3 ..
    · exact lines_variables2 ..
  have h4 : lines (if o.threeD then axisLimits g.positions else []) = [] := by
    split
    · exact lines_plain fun i hi => plain_limits hi
    · rfl
  rw [lines_append, lines_append, lines_append, h1, h4]
  simp

theorem marks_positions (g : Gathered) : g.marks.map Prod.snd = g.positions := by
  simp [Gathered.marks, Gathered.positions, Function.comp_def]

theorem gather_pose {h : Heap RVar} {vars : List VRef} {g : Gathered} (hg : gather h vars = .ok g) {r : VRef} (hr : r ∈ vars) :
    (∀ v, h r = .pose v → (r, v) ∈ g.pose) ∧ (∀ v, h r = .pose2d v → (r, v) ∈ g.pose2d) ∧
    (∀ x, h r = .landmark x → (r, read3 x.value 0) ∈ g.landmark) ∧
    (∀ x, h r = .generic x → x.value.length = 2 → (r, ![x.value.getD 0 0, x.value.getD 1 0]) ∈ g.landmark2d) := by
  induction vars generalizing g with
  | nil => simp at hr
  | cons q qs ih =>
    unfold gather at hg
    rcases List.mem_cons.mp hr with rfl | hr
    · cases e : h r with
      | pose v =>
        rw [e] at hg
        obtain ⟨g0, _, rfl⟩ := map_ok hg
        simp
      | landmark x =>
        rw [e] at hg
        obtain ⟨p, hp, hg⟩ := andThen_ok hg
        obtain ⟨g0, _, rfl⟩ := map_ok hg
        unfold LandmarkVar.posW at hp
        split at hp
        · cases hp; simp
        · cases hp
      | pose2d v =>
        rw [e] at hg
        obtain ⟨g0, _, rfl⟩ := map_ok hg
        simp
      | generic v =>
        refine ⟨by simp, by simp, by simp, ?_⟩
        intro x hx hl
        cases hx
        rw [e] at hg
        dsimp only at hg
        rw [if_pos hl] at hg
        obtain ⟨g0, _, rfl⟩ := map_ok hg
        simp
      | _ => simp
    · have key : ∃ g0, gather h qs = .ok g0 ∧ (∀ a ∈ g0.pose, a ∈ g.pose) ∧ (∀ a ∈ g0.pose2d, a ∈ g.pose2d) ∧
          (∀ a ∈ g0.landmark, a ∈ g.landmark) ∧ (∀ a ∈ g0.landmark2d, a ∈ g.landmark2d) := by
        cases e : h q with
        | landmark x =>
          rw [e] at hg
          obtain ⟨p, _, hg⟩ := andThen_ok hg
          obtain ⟨g0, hg0, rfl⟩ := map_ok hg
          exact ⟨g0, hg0, by simp +contextual⟩
        | generic v =>
          rw [e] at hg
          dsimp only at hg
          split at hg
          · obtain ⟨g0, hg0, rfl⟩ := map_ok hg
            exact ⟨g0, hg0, by simp +contextual⟩
          · exact ⟨g, hg, by simp⟩
        | pose v =>
          rw [e] at hg
          obtain ⟨g0, hg0, rfl⟩ := map_ok hg
          exact ⟨g0, hg0, by simp +contextual⟩
        | pose2d v =>
          rw [e] at hg
          obtain ⟨g0, hg0, rfl⟩ := map_ok hg
          exact ⟨g0, hg0, by simp +contextual⟩
        | rotation v => rw [e] at hg; exact ⟨g, hg, by simp⟩
        | invRange v => rw [e] at hg; exact ⟨g, hg, by simp⟩
        | plane v => rw [e] at hg; exact ⟨g, hg, by simp⟩
      obtain ⟨g0, hg0, k1, k2, k3, k4⟩ := key
      obtain ⟨i1, i2, i3, i4⟩ := ih hg0 hr
      exact ⟨fun v hv => k1 _ (i1 v hv), fun v hv => k2 _ (i2 v hv), fun v hv => k3 _ (i3 v hv), fun v hv hl => k4 _ (i4 v hv hl)⟩

theorem mem_measurementLines {h : Heap RVar} {fs : List PyFactor} {ms : List Item} (hm : measurementLines h fs = .ok ms) :
    (∀ f ∈ fs, ∃ a, measurementLine h f = .ok a ∧ ∀ i ∈ a, i ∈ ms) ∧
    ∀ i ∈ ms, ∃ f ∈ fs, ∃ a, measurementLine h f = .ok a ∧ i ∈ a := by
  induction fs generalizing ms with
  | nil => cases hm; simp
  | cons f fs ih =>
    obtain ⟨a, ha, hm⟩ := andThen_ok hm
    obtain ⟨b, hb, rfl⟩ := map_ok hm
    obtain ⟨i1, i2⟩ := ih hb
    constructor
    · intro f' hf'
      rcases List.mem_cons.mp hf' with rfl | hf'
      · exact ⟨a, ha, fun i hi => List.mem_append.mpr (.inl hi)⟩
      · obtain ⟨a', h1, h2⟩ := i1 f' hf'
        exact ⟨a', h1, fun i hi => List.mem_append.mpr (.inr (h2 i hi))⟩
    · intro i hi
      rcases List.mem_append.mp hi with hi | hi
      · exact ⟨f, by simp, a, ha, hi⟩
      · obtain ⟨f', hf', a', h1, h2⟩ := i2 i hi
        exact ⟨f', by simp [hf'], a', h1, h2⟩

theorem mem_lines {items : List Item} {k : Line} {a b : V3} : (k, a, b) ∈ lines items ↔ Item.line k a b ∈ items := by
  unfold lines
  rw [List.mem_filterMap]
  constructor
  · rintro ⟨i, hi, he⟩
    cases i <;> simp at he
    obtain ⟨rfl, rfl, rfl⟩ := he
    exact hi
  · exact fun h => ⟨_, h, rfl⟩

/-- The line of a factor is in the drawing. -/
theorem measurement_drawn {E : Eigh} {o : Options} {h : Heap RVar} {vars : List VRef} {facs : List PyFactor} {covs : Covs}
    {items : List Item} (hd : draw E o h vars facs covs = .ok items) (ho : o.measurements = true) {f : PyFactor}
    (hf : f ∈ facs) {k : Line} {a b : V3} (hm : measurementLine h f = .ok [.line k a b]) : (k, a, b) ∈ lines items := by
  obtain ⟨ms, hms, hl⟩ := draw_lines hd
  rw [if_pos ho] at hms
  obtain ⟨a', h1, h2⟩ := (mem_measurementLines hms).1 f hf
  rw [hm] at h1
  cases h1
  rw [hl, List.mem_append]
  exact .inl (mem_lines.mpr (h2 _ (by simp)))

/-- What was gathered belongs to variables. -/
theorem gather_only {h : Heap RVar} {vars : List VRef} {g : Gathered} (hg : gather h vars = .ok g) :
    (∀ q ∈ g.pose, q.1 ∈ vars ∧ shownAs (h q.1) = some (.pose, q.2.pos)) ∧
    (∀ q ∈ g.pose2d, q.1 ∈ vars ∧ shownAs (h q.1) = some (.pose2d, lift q.2.pos)) ∧
    (∀ q ∈ g.landmark, q.1 ∈ vars ∧ shownAs (h q.1) = some (.landmark, q.2)) ∧
    (∀ q ∈ g.landmark2d, q.1 ∈ vars ∧ shownAs (h q.1) = some (.landmark2d, lift q.2)) := by
  induction vars generalizing g with
  | nil => cases hg; simp
  | cons r rs ih =>
    unfold gather at hg
    cases e : h r with
    | pose v =>
      rw [e] at hg
      obtain ⟨g0, hg0, rfl⟩ := map_ok hg
      obtain ⟨i1, i2, i3, i4⟩ := ih hg0
      refine ⟨fun q hq => ?_, fun q hq => ?_, fun q hq => ?_, fun q hq => ?_⟩
      · rcases List.mem_cons.mp hq with rfl | hq
        · exact ⟨by simp, by simp [e, shownAs]⟩
        · exact ⟨List.mem_cons_of_mem _ (i1 q hq).1, (i1 q hq).2⟩
      · exact ⟨List.mem_cons_of_mem _ (i2 q hq).1, (i2 q hq).2⟩
      · exact ⟨List.mem_cons_of_mem _ (i3 q hq).1, (i3 q hq).2⟩
      · exact ⟨List.mem_cons_of_mem _ (i4 q hq).1, (i4 q hq).2⟩
    | landmark x =>
      rw [e] at hg
      obtain ⟨p, hp, hg⟩ := andThen_ok hg
      obtain ⟨g0, hg0, rfl⟩ := map_ok hg
      obtain ⟨i1, i2, i3, i4⟩ := ih hg0
      refine ⟨fun q hq => ?_, fun q hq => ?_, fun q hq => ?_, fun q hq => ?_⟩
      · exact ⟨List.mem_cons_of_mem _ (i1 q hq).1, (i1 q hq).2⟩
      · exact ⟨List.mem_cons_of_mem _ (i2 q hq).1, (i2 q hq).2⟩
      · rcases List.mem_cons.mp hq with rfl | hq
        · refine ⟨by simp, ?_⟩
          unfold LandmarkVar.posW at hp
          split at hp
          · cases hp; simp [e, shownAs]
          · cases hp
        · exact ⟨List.mem_cons_of_mem _ (i3 q hq).1, (i3 q hq).2⟩
      · exact ⟨List.mem_cons_of_mem _ (i4 q hq).1, (i4 q hq).2⟩
    | pose2d v =>
      rw [e] at hg
      obtain ⟨g0, hg0, rfl⟩ := map_ok hg
      obtain ⟨i1, i2, i3, i4⟩ := ih hg0
      refine ⟨fun q hq => ?_, fun q hq => ?_, fun q hq => ?_, fun q hq => ?_⟩
      · exact ⟨List.mem_cons_of_mem _ (i1 q hq).1, (i1 q hq).2⟩
      · rcases List.mem_cons.mp hq with rfl | hq
        · exact ⟨by simp, by simp [e, shownAs, lift]⟩
        · exact ⟨List.mem_cons_of_mem _ (i2 q hq).1, (i2 q hq).2⟩
      · exact ⟨List.mem_cons_of_mem _ (i3 q hq).1, (i3 q hq).2⟩
      · exact ⟨List.mem_cons_of_mem _ (i4 q hq).1, (i4 q hq).2⟩
    | generic v =>
      rw [e] at hg
      dsimp only at hg
      split at hg
      · rename_i hl
        obtain ⟨g0, hg0, rfl⟩ := map_ok hg
        obtain ⟨i1, i2, i3, i4⟩ := ih hg0
        refine ⟨fun q hq => ?_, fun q hq => ?_, fun q hq => ?_, fun q hq => ?_⟩
        · exact ⟨List.mem_cons_of_mem _ (i1 q hq).1, (i1 q hq).2⟩
        · exact ⟨List.mem_cons_of_mem _ (i2 q hq).1, (i2 q hq).2⟩
        · exact ⟨List.mem_cons_of_mem _ (i3 q hq).1, (i3 q hq).2⟩
        · rcases List.mem_cons.mp hq with rfl | hq
          · exact ⟨by simp, by simp [e, shownAs, lift, hl]⟩
          · exact ⟨List.mem_cons_of_mem _ (i4 q hq).1, (i4 q hq).2⟩
      · obtain ⟨i1, i2, i3, i4⟩ := ih hg
        exact ⟨fun q hq => ⟨List.mem_cons_of_mem _ (i1 q hq).1, (i1 q hq).2⟩,
          fun q hq => ⟨List.mem_cons_of_mem _ (i2 q hq).1, (i2 q hq).2⟩,
          fun q hq => ⟨List.mem_cons_of_mem _ (i3 q hq).1, (i3 q hq).2⟩,
          fun q hq => ⟨List.mem_cons_of_mem _ (i4 q hq).1, (i4 q hq).2⟩⟩
    | rotation v | invRange v | plane v =>
      rw [e] at hg
      obtain ⟨i1, i2, i3, i4⟩ := ih hg
      exact ⟨fun q hq => ⟨List.mem_cons_of_mem _ (i1 q hq).1, (i1 q hq).2⟩,
        fun q hq => ⟨List.mem_cons_of_mem _ (i2 q hq).1, (i2 q hq).2⟩,
        fun q hq => ⟨List.mem_cons_of_mem _ (i3 q hq).1, (i3 q hq).2⟩,
        fun q hq => ⟨List.mem_cons_of_mem _ (i4 q hq).1, (i4 q hq).2⟩⟩

/-- Lines of measurements are lines. -/
theorem measurement_lines {h : Heap RVar} {fs : List PyFactor} {ms : List Item} (hm : measurementLines h fs = .ok ms) :
    ∀ i ∈ ms, ∃ k a b, i = .line k a b := by
  induction fs generalizing ms with
  | nil => cases hm; simp
  | cons f fs ih =>
    obtain ⟨a, ha, hm⟩ := andThen_ok hm
    obtain ⟨b, hb, rfl⟩ := map_ok hm
    intro i hi
    rcases List.mem_append.mp hi with hi | hi
    · unfold measurementLine at ha
      split at ha
      · obtain ⟨_, _, ha⟩ := andThen_ok ha
        obtain ⟨_, _, ha⟩ := andThen_ok ha
        obtain ⟨_, _, ha⟩ := andThen_ok ha
        obtain ⟨_, _, rfl⟩ := map_ok ha
        exact ⟨_, _, _, List.mem_singleton.mp hi⟩
      · obtain ⟨_, _, ha⟩ := andThen_ok ha
        obtain ⟨_, _, ha⟩ := andThen_ok ha
        obtain ⟨_, _, rfl⟩ := map_ok ha
        exact ⟨_, _, _, List.mem_singleton.mp hi⟩
      · obtain ⟨_, _, ha⟩ := andThen_ok ha
        obtain ⟨_, _, ha⟩ := andThen_ok ha
        obtain ⟨_, _, rfl⟩ := map_ok ha
        exact ⟨_, _, _, List.mem_singleton.mp hi⟩
      · cases ha; simp at hi
    · exact ih hb i hi

theorem between_lines {h : Heap RVar} {f : PyFactor} {i : Item} (hi : i ∈ betweenLine h f) : ∃ k a b, i = .line k a b := by
  unfold betweenLine at hi
  split at hi
  · split at hi
    · exact ⟨_, _, _, List.mem_singleton.mp hi⟩
    · simp at hi
  · simp at hi

/-- Where the things of a drawing that are no lines come from. -/
theorem draw_rest {E : Eigh} {o : Options} {h : Heap RVar} {vars : List VRef} {facs : List PyFactor} {covs : Covs}
    {items : List Item} (hd : draw E o h vars facs covs = .ok items) {i : Item} (hi : i ∈ items)
    (hn : ∀ k a b, i ≠ .line k a b) : ∃ g, gather h vars = .ok g ∧
      (i ∈ (if o.threeD then drawVariables3 E o h covs g else drawVariables2 E o h covs g) ∨
        o.threeD = true ∧ i ∈ axisLimits g.positions) := by
  obtain ⟨g, ms, hg, hms, rfl⟩ := draw_parts hd
  refine ⟨g, hg, ?_⟩
  simp only [List.mem_append] at hi
  rcases hi with ((hi | hi) | hi) | hi
  · exact .inl hi
  · by_cases ho : o.measurements = true
    · rw [if_pos ho] at hms
      obtain ⟨k, a, b, e⟩ := measurement_lines hms i hi
      exact absurd e (hn k a b)
    · rw [if_neg ho] at hms
      cases hms
      simp at hi
  · split at hi
    · obtain ⟨f, _, hf⟩ := List.mem_flatMap.mp hi
      obtain ⟨k, a, b, e⟩ := between_lines hf
      exact absurd e (hn k a b)
    · simp at hi
  · split at hi
    · rename_i h3; exact .inr ⟨h3, hi⟩
    · simp at hi

end Factorama.Plot
