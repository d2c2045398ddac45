import Verif.Model.Bounds
import Verif.Props.Variables

/-!
# C147: bounds of an inverse range that the program changes
-/

namespace Factorama.Props
open Matrix Spec Geo InvRangeVar

/-- A history of actions, each with whether it returned (`true`) or threw (`false`); an action that throws changes nothing. None runs
into undefined behaviour. -/
inductive C147.History : InvRangeVar → List (Act × Bool) → InvRangeVar → Prop where
  | nil (v : InvRangeVar) : C147.History v [] v
  | returned {v v' w : InvRangeVar} {a : Act} {h : List (Act × Bool)} : v.act a = .ok v' → C147.History v' h w →
      C147.History v ((a, true) :: h) w
  | threw {v w : InvRangeVar} {a : Act} {h : List (Act × Bool)} : v.act a = .threw → C147.History v h w →
      C147.History v ((a, false) :: h) w

/-- The action changes a bound. -/
def C147.Rebounds : Act → Prop
  | .minimum _ | .maximum _ => True
  | _ => False

/-- The value is where the bounds want it. -/
def C147.Within (v : InvRangeVar) : Prop := (v.lo ≤ v.hi → v.lo ≤ v.inv ∧ v.inv ≤ v.hi) ∧ (v.hi < v.lo → v.inv = v.hi)

theorem C147.clip_within (lo hi x : ℝ) : (lo ≤ hi → lo ≤ clip lo hi x ∧ clip lo hi x ≤ hi) ∧ (hi < lo → clip lo hi x = hi) := by
  unfold InvRangeVar.clip
  refine ⟨fun h => ⟨le_min (le_max_right _ _) h, min_le_right _ _⟩, fun h => min_eq_right (le_trans h.le (le_max_right _ _))⟩

/-- An action that returns and changes no bound leaves the value within the bounds. -/
theorem C147.act_within {v w : InvRangeVar} {a : Act} (ha : ¬ C147.Rebounds a) (h : v.act a = .ok w) : C147.Within w := by
  cases a with
  | minimum b => exact absurd trivial ha
  | maximum b => exact absurd trivial ha
  | clip =>
    obtain rfl := Res.ok.inj h
    exact C147.clip_within _ _ _
  | set x =>
    cases x with
    | nil => cases h
    | cons a x =>
      obtain rfl := Res.ok.inj h
      exact C147.clip_within _ _ _
  | increment dx =>
    change v.applyIncr dx = .ok w at h
    unfold applyIncr at h
    split at h
    · cases h
    split at h
    · cases h
    obtain rfl := Res.ok.inj h
    exact C147.clip_within _ _ _

theorem C147.keeps {v w : InvRangeVar} {h : List (Act × Bool)} (hh : C147.History v h w) (hb : ∀ e ∈ h, ¬ C147.Rebounds e.1)
    (hv : C147.Within v) : C147.Within w := by
  induction hh with
  | nil => exact hv
  | returned ha _ ih =>
    exact ih (fun e he => hb e (List.mem_cons_of_mem _ he)) (C147.act_within (hb _ (List.mem_cons_self ..)) ha)
  | threw _ _ ih => exact ih (fun e he => hb e (List.mem_cons_of_mem _ he)) hv

theorem C147.split {v w : InvRangeVar} {h1 h2 : List (Act × Bool)} (hh : C147.History v (h1 ++ h2) w) :
    ∃ u, C147.History v h1 u ∧ C147.History u h2 w := by
  induction h1 generalizing v with
  | nil => exact ⟨v, .nil v, hh⟩
  | cons e h1 ih =>
    cases hh with
    | returned ha hr => obtain ⟨u, a, b⟩ := ih hr; exact ⟨u, .returned ha a, b⟩
    | threw ha hr => obtain ⟨u, a, b⟩ := ih hr; exact ⟨u, .threw ha a, b⟩

theorem C147.frame {v w : InvRangeVar} {h : List (Act × Bool)} (hh : C147.History v h w) :
    w.origin = v.origin ∧ w.bearing = v.bearing ∧ w.id = v.id := by
  induction hh with
  | nil => exact ⟨rfl, rfl, rfl⟩
  | @returned v v' w a h ha _ ih =>
    have : v'.origin = v.origin ∧ v'.bearing = v.bearing ∧ v'.id = v.id := by
      cases a with
      | minimum b => obtain rfl := Res.ok.inj ha; exact ⟨rfl, rfl, rfl⟩
      | maximum b => obtain rfl := Res.ok.inj ha; exact ⟨rfl, rfl, rfl⟩
      | clip => obtain rfl := Res.ok.inj ha; exact ⟨rfl, rfl, rfl⟩
      | set x =>
        cases x with
        | nil => cases ha
        | cons a x => obtain rfl := Res.ok.inj ha; exact ⟨rfl, rfl, rfl⟩
      | increment dx =>
        change v.applyIncr dx = .ok v' at ha
        unfold applyIncr at ha
        split at ha
        · cases ha
        split at ha
        · cases ha
        obtain rfl := Res.ok.inj ha
        exact ⟨rfl, rfl, rfl⟩
    exact ⟨ih.1.trans this.1, ih.2.1.trans this.2.1, ih.2.2.trans this.2.2⟩
  | threw _ _ ih => exact ih

/-- A point at range 5, seen by a satellite: the bounds are widened, then the value is set. -/
theorem C147.satellite : C147.History (InvRangeVar.make 1 0 ![0, 0, 2] 5) ([(.minimum 1e-8, true), (.increment [], false)] ++ (.set [1e-7], true) :: [])
    ⟨1, false, 0, normalized ![0, 0, 2], 1e-8, 1e3, clip 1e-8 1e3 1e-7, []⟩ :=
  .returned rfl (.threw (by show applyIncr _ [] = _; simp [applyIncr]) (.returned rfl (.nil _)))

/-- **C147**. Take any history of a variable, with any changes of its bounds. If since the last of these changes a set, an increment or
a clip has returned, the inverse range is within the bounds it has now (if they contradict each other, it is the upper one). -/
theorem C147_bounds_partial (v w : InvRangeVar) (pre post : List (Act × Bool)) (a : Act) (ha : ¬ C147.Rebounds a)
    (hpost : ∀ e ∈ post, ¬ C147.Rebounds e.1) (hh : C147.History v (pre ++ (a, true) :: post) w) :
    (w.lo ≤ w.hi → w.lo ≤ w.inv ∧ w.inv ≤ w.hi) ∧ (w.hi < w.lo → w.inv = w.hi) := by
  obtain ⟨u, _, h2⟩ := C147.split hh
  cases h2 with
  | returned h hr => exact C147.keeps hr hpost (C147.act_within ha h)

example : (1e-8 : ℝ) ≤ clip 1e-8 1e3 1e-7 ∧ clip 1e-8 1e3 1e-7 ≤ (1e3 : ℝ) :=
  (C147_bounds_partial _ _ _ [] _ (by simp [C147.Rebounds]) (by simp) C147.satellite).1 (by norm_num)

/-- **C147**, the point. If moreover the lower bound is at least `1e-9`, the point of a variable made with origin `o` and bearing `b`
is defined, and it lies on the ray from `o` along `b` at a distance between the inverses of the bounds. -/
theorem C147_point_partial (id : Int) (o b : V3) (hb : b ≠ 0) (range : ℝ) (w : InvRangeVar) (pre post : List (Act × Bool)) (a : Act)
    (ha : ¬ C147.Rebounds a) (hpost : ∀ e ∈ post, ¬ C147.Rebounds e.1)
    (hh : C147.History (InvRangeVar.make id o b range) (pre ++ (a, true) :: post) w) (hlo : 1e-9 ≤ w.lo) (hle : w.lo ≤ w.hi) :
    ∃ p, w.posW = some p ∧ (∃ t : ℝ, 0 < t ∧ p - o = t • b) ∧ 1 / w.hi ≤ length (p - o) ∧ length (p - o) ≤ 1 / w.lo := by
  obtain ⟨h1, h2⟩ := (C147_bounds_partial _ w pre post a ha hpost hh).1 hle
  obtain ⟨ho, hbe, _⟩ := C147.frame hh
  have hl0 : 0 < w.lo := lt_of_lt_of_le (by norm_num) hlo
  have hpos : 0 < w.inv := lt_of_lt_of_le hl0 h1
  have ho : w.origin = o := ho
  have hbe : w.bearing = normalized b := hbe
  have hlen : length (w.origin + (1 / w.inv) • w.bearing - o) = 1 / w.inv := by
    rw [ho, add_sub_cancel_left, length_eq, vnorm_smul, hbe, vnorm_unit (normalized_unit hb), mul_one, abs_of_pos (by positivity)]
  refine ⟨w.origin + (1 / w.inv) • w.bearing, ?_, ?_, ?_, ?_⟩
  · unfold InvRangeVar.posW
    rw [if_neg]
    rw [abs_of_pos hpos]
    push Not
    exact le_trans hlo h1
  · have hp : 0 < b ⬝ᵥ b := lt_of_le_of_ne (dot_self_nonneg _) fun h0 => hb (dotProduct_self_eq_zero.mp h0.symm)
    refine ⟨1 / w.inv * (√(b ⬝ᵥ b))⁻¹, by positivity, ?_⟩
    rw [ho, hbe, add_sub_cancel_left]
    unfold normalized
    rw [if_pos hp, vdiv_eq_smul, smul_smul]
  · rw [hlen]
    exact one_div_le_one_div_of_le hpos h2
  · rw [hlen]
    exact one_div_le_one_div_of_le hl0 h1

example : ∃ p, (⟨1, false, 0, normalized ![0, 0, 2], 1e-8, 1e3, clip 1e-8 1e3 1e-7, []⟩ : InvRangeVar).posW = some p ∧
    length (p - 0) ≤ 1 / 1e-8 := by
  obtain ⟨p, h1, _, _, h2⟩ := C147_point_partial 1 0 ![0, 0, 2] (fun h => by simpa using congrFun h 2) 5 _ _ [] _ (by simp [C147.Rebounds])
    (by simp) C147.satellite (by norm_num) (by norm_num)
  exact ⟨p, h1, h2⟩

/-- With the default bounds the value would have been `1e-6`. -/
example : clip 1e-8 1e3 1e-7 = 1e-7 ∧ clip 1e-6 1e3 1e-7 = 1e-6 := by
  unfold InvRangeVar.clip
  constructor
  · rw [max_eq_left (by norm_num), min_eq_left (by norm_num)]
  · rw [max_eq_right (by norm_num), min_eq_left (by norm_num)]

/-- **C147** is false of the code right after a bound has been changed: the value stays where it was. -/
theorem C147_false : ¬ ∀ (v w : InvRangeVar) (h : List (Act × Bool)), InvRangeReachable v.origin v.bearing v →
    C147.History v h w → w.lo ≤ w.hi → w.lo ≤ w.inv := by
  intro h
  have hz : normalized (0 : V3) = 0 := by simp [normalized]
  have hm : InvRangeReachable (InvRangeVar.make 1 0 0 1).origin (InvRangeVar.make 1 0 0 1).bearing (InvRangeVar.make 1 0 0 1) := by
    have : (InvRangeVar.make 1 0 0 1).bearing = 0 := hz
    rw [this]
    exact .make 1 1
  have := h (InvRangeVar.make 1 0 0 1) _ [(.minimum 2, true)] hm (.returned rfl (.nil _)) (by show (2 : ℝ) ≤ 1e3; norm_num)
  have h2 : (2 : ℝ) ≤ initialInv 1 := this
  unfold initialInv InvRangeVar.clip at h2
  rw [if_neg (by norm_num)] at h2
  have h3 : min (max (1 / (1 : ℝ)) 1e-6) 1e3 ≤ 1 := le_trans (min_le_left _ _) (max_le (by norm_num) (by norm_num))
  linarith

/-- **C147**, consequence: giving a variable its own value back, as the optimizer does after a rejected step, changes nothing exactly if
the value is where the bounds want it. After a bound has been moved past the value, it does not undo the step but moves the value. -/
theorem C147_restore_partial (v : InvRangeVar) : v.setValue v.value = .ok v ↔ C147.Within v := by
  have e : v.setValue v.value = .ok { v with inv := clip v.lo v.hi v.inv } := rfl
  rw [e]
  constructor
  · intro h
    have h1 : clip v.lo v.hi v.inv = v.inv := congrArg InvRangeVar.inv (Res.ok.inj h)
    have := C147.clip_within v.lo v.hi v.inv
    rw [h1] at this
    exact this
  · rintro ⟨h1, h2⟩
    have : clip v.lo v.hi v.inv = v.inv := by
      rcases le_or_gt v.lo v.hi with h | h
      · obtain ⟨a, b⟩ := h1 h
        unfold InvRangeVar.clip
        rw [max_eq_left a, min_eq_left b]
      · rw [(C147.clip_within v.lo v.hi v.inv).2 h, h2 h]
    rw [this]

/-- A value outside its bounds, and the same value inside. -/
example : (⟨1, false, 0, 0, 2, 3, 1, []⟩ : InvRangeVar).setValue [1] ≠ .ok ⟨1, false, 0, 0, 2, 3, 1, []⟩ ∧
    (⟨1, false, 0, 0, 1 / 2, 3, 1, []⟩ : InvRangeVar).setValue [1] = .ok ⟨1, false, 0, 0, 1 / 2, 3, 1, []⟩ := by
  constructor
  · intro h
    have := ((C147_restore_partial ⟨1, false, 0, 0, 2, 3, 1, []⟩).1 h).1 (by norm_num)
    have h2 : (2 : ℝ) ≤ 1 := this.1
    norm_num at h2
  · exact (C147_restore_partial ⟨1, false, 0, 0, 1 / 2, 3, 1, []⟩).2 ⟨fun _ => by norm_num, fun h => by norm_num at h⟩

end Factorama.Props
