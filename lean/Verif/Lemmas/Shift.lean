import Verif.Spec.Motion
import Verif.Props.ZeroIncrement
import Verif.Props.Invariance

/-!
# Shifting everything that has a place in the world
-/

namespace Factorama
open Spec Geo Matrix Props

/-- The increment that shifts a variable by `a`. -/
noncomputable def shiftBy (a : V3) (point : Bool) : RVar → List ℝ
  | .pose _ => [a 0, a 1, a 2, 0, 0, 0]
  | .landmark _ => [a 0, a 1, a 2]
  | .plane v => [0, 0, 0, -(v.normal ⬝ᵥ a)]
  | .pose2d _ => [a 0, a 1, 0]
  | .generic v => if point = true then List.ofFn fun i : Fin v.value.length => (toList a).getD i 0
      else List.replicate v.value.length 0
  | .rotation _ => List.replicate 3 0
  | .invRange _ => List.replicate 1 0

theorem shiftBy_smul (t : ℝ) (a : V3) (b : Bool) (v : RVar) : shiftBy (t • a) b v = (shiftBy a b v).map (t * ·) := by
  cases v with
  | generic v =>
    cases b with
    | false => simp [shiftBy]
    | true =>
      simp only [shiftBy, if_true]
      apply List.ext_getElem (by simp)
      intro k h1 h2
      simp only [List.getElem_ofFn, List.getElem_map]
      match k with
      | 0 | 1 | 2 => simp [toList]
      | k + 3 => simp [toList]
  | _ => simp [shiftBy, dotProduct_smul]

theorem shiftBy_length (a : V3) (b : Bool) (v : RVar) : (shiftBy a b v).length = VarLike.size v := by
  cases v <;> simp [shiftBy, VarLike.size]
  split <;> simp

/-- What the increment does to a variable in a canonical state. -/
theorem shiftBy_shifts {a : V3} {b : Bool} {v v' : RVar} (hr : Reachable v ∨ ∃ w, v = .rotation w) (hc : Canonical v)
    (hp : ∀ g, v = .generic g → b = true → g.value.length = 2 ∨ g.value.length = 3)
    (h : VarLike.applyIncr v (shiftBy a b v) = .ok v') : Shifted a b v v' := by
  have hz := C69_partial v hr hc
  cases v with
  | pose v =>
    replace h : (v.applyIncr [a 0, a 1, a 2, 0, 0, 0]).map RVar.pose = .ok v' := h
    replace hz : (v.applyIncr (List.replicate 6 0)).map RVar.pose = .ok (.pose v) := hz
    rw [PoseVar.applyIncr, if_neg (by simp)] at h hz
    rw [read3_zeros, read3_zeros] at hz
    have e0 : read3 [a 0, a 1, a 2, 0, 0, 0] 0 = a := by funext i; fin_cases i <;> simp [read3]
    have e3 : read3 [a 0, a 1, a 2, 0, 0, 0] 3 = 0 := by funext i; fin_cases i <;> simp [read3]
    rw [e0, e3] at h
    simp only [Res.map, Res.ok.injEq, RVar.pose.injEq] at h hz
    subst h
    have h1 := congrArg PoseVar.rot hz
    have h2 := congrArg PoseVar.dcm hz
    exact .pose _ rfl h2 h1 rfl
  | landmark v =>
    replace h : (v.applyIncr [a 0, a 1, a 2]).map RVar.landmark = .ok v' := h
    have hc : v.value.length = 3 := hc
    rw [LandmarkVar.applyIncr, if_neg (by simp), if_neg (by simp [hc])] at h
    simp only [Res.map, Res.ok.injEq] at h
    subst h
    obtain ⟨x, y, z, e⟩ := List.length_eq_three.1 hc
    exact .landmark _ ![x, y, z] (by simp [e, toList]) (by simp [e, toList, vecHead, vecTail])
  | plane v =>
    replace h : (v.applyIncr [0, 0, 0, -(v.normal ⬝ᵥ a)]).map RVar.plane = .ok v' := h
    replace hz : (v.applyIncr (List.replicate 4 0)).map RVar.plane = .ok (.plane v) := hz
    rw [PlaneVar.applyIncr, if_neg (by simp)] at h hz
    have e0 : read3 [0, 0, 0, -(v.normal ⬝ᵥ a)] 0 = 0 := by funext i; fin_cases i <;> simp [read3]
    rw [e0] at h
    rw [read3_zeros] at hz
    split at hz
    · rename_i hn
      rw [if_pos hn] at h
      simp only [Res.map, Res.ok.injEq, RVar.plane.injEq] at h hz
      subst h
      exact .plane _ (by have := congrArg PlaneVar.normal hz; exact this) (by simp [sub_eq_add_neg])
    · cases hz
  | pose2d v =>
    replace h : (v.applyIncr [a 0, a 1, 0]).map RVar.pose2d = .ok v' := h
    replace hz : (v.applyIncr (List.replicate 3 0)).map RVar.pose2d = .ok (.pose2d v) := hz
    rw [Pose2DVar.applyIncr, if_neg (by simp)] at h hz
    simp only [Res.map, Res.ok.injEq, RVar.pose2d.injEq] at h hz
    subst h
    have h1 := congrArg Pose2DVar.theta hz
    refine .pose2d _ ?_ (by simpa [List.replicate_succ] using h1)
    funext i; fin_cases i <;> simp
  | generic v =>
    cases b with
    | false =>
      have e : VarLike.applyIncr (RVar.generic v) (shiftBy a false (RVar.generic v)) = .ok (RVar.generic v) := by
        rw [← hz]; rfl
      rw [e] at h
      cases h
      exact .still (by simp [HasPlace])
    | true =>
      replace h : (v.applyIncr (List.ofFn fun i : Fin v.value.length => (toList a).getD i 0)).map RVar.generic = .ok v' := h
      rw [GenVar.applyIncr, if_neg (by simp)] at h
      simp only [Res.map, Res.ok.injEq] at h
      subst h
      rcases hp v rfl rfl with hl | hl
      · obtain ⟨x, y, e⟩ := List.length_eq_two.1 hl
        refine .point2 ![x, y] (by simp [e, toList]) ?_
        simp only [toList]
        apply List.ext_getElem (by simp [hl])
        intro k h1 h2
        match k with
        | 0 | 1 => simp [e]
        | k + 2 => simp at h2
      · obtain ⟨x, y, z, e⟩ := List.length_eq_three.1 hl
        refine .point3 ![x, y, z] (by simp [e, toList]) ?_
        simp only [toList]
        apply List.ext_getElem (by simp [hl])
        intro k h1 h2
        match k with
        | 0 | 1 | 2 => simp [e, vecHead, vecTail]
        | k + 3 => simp at h2
  | rotation v =>
    have e : VarLike.applyIncr (RVar.rotation v) (shiftBy a b (RVar.rotation v)) = .ok (RVar.rotation v) := hz
    rw [e] at h
    cases h
    exact .still (by simp [HasPlace])
  | invRange v =>
    have e : VarLike.applyIncr (RVar.invRange v) (shiftBy a b (RVar.invRange v)) = .ok (RVar.invRange v) := hz
    rw [e] at h
    cases h
    exact .still (by simp [HasPlace])

theorem shifted_still {a : V3} {b : Bool} {v v' : RVar} (h : Shifted a b v v') (hp : ¬ HasPlace b v) : v' = v := by
  cases h <;> first | rfl | simp [HasPlace] at hp

/-- The values are shifted by the increment. -/
theorem shifted_value {a : V3} {b : Bool} {v v' : RVar} (h : Shifted a b v v') :
    (VarLike.value (F := ℝ) v').length = (VarLike.value (F := ℝ) v).length ∧
      ∀ k, k < (VarLike.value (F := ℝ) v).length →
        (VarLike.value v').getD k 0 = (VarLike.value v).getD k 0 + (shiftBy a b v).getD k 0 := by
  cases h with
  | @pose v v' _ h1 h2 h3 h4 =>
    refine ⟨?_, fun k hk => ?_⟩
    · simp [VarLike.value, PoseVar.value, h4, length_toList]
    · simp only [VarLike.value, PoseVar.value, h1, h3, h4, shiftBy]
      match k with
      | 0 | 1 | 2 | 3 | 4 | 5 => simp [toList]
      | k + 6 => simp [toList]
  | @landmark v v' _ x h1 h2 =>
    refine ⟨by simp [VarLike.value, h1, h2, toList], fun k hk => ?_⟩
    simp only [VarLike.value, h1, h2, shiftBy]
    match k with
    | 0 | 1 | 2 => simp [toList]
    | k + 3 => simp [toList]
  | @plane v v' _ h1 h2 =>
    refine ⟨by simp [VarLike.value, PlaneVar.value, length_toList], fun k hk => ?_⟩
    simp only [VarLike.value, PlaneVar.value, h1, h2, shiftBy]
    match k with
    | 0 | 1 | 2 | 3 => simp [toList, sub_eq_add_neg]
    | k + 4 => simp [toList]
  | @pose2d v v' _ h1 h2 =>
    refine ⟨by simp [VarLike.value, Pose2DVar.value], fun k hk => ?_⟩
    simp only [VarLike.value, Pose2DVar.value, h1, h2, shiftBy]
    match k with
    | 0 | 1 | 2 => simp
    | k + 3 => simp
  | @point2 v v' x h1 h2 =>
    refine ⟨by simp [VarLike.value, h1, h2, length_toList], fun k hk => ?_⟩
    have hk' : k < v.value.length := hk
    have e : (shiftBy a true (.generic v)).getD k 0 = (toList a).getD k 0 := by
      rw [shiftBy, if_pos rfl, List.getD_eq_getElem?_getD, List.getElem?_eq_getElem (by simpa using hk'), Option.getD_some]
      simp [-List.ofFn_succ]
    rw [e]
    simp only [VarLike.value, h1, h2]
    match k with
    | 0 | 1 => simp [toList, vecHead, vecTail]
    | k + 2 => rw [h1, length_toList] at hk'; omega
  | @point3 v v' x h1 h2 =>
    refine ⟨by simp [VarLike.value, h1, h2, length_toList], fun k hk => ?_⟩
    have hk' : k < v.value.length := hk
    have e : (shiftBy a true (.generic v)).getD k 0 = (toList a).getD k 0 := by
      rw [shiftBy, if_pos rfl, List.getD_eq_getElem?_getD, List.getElem?_eq_getElem (by simpa using hk'), Option.getD_some]
      simp [-List.ofFn_succ]
    rw [e]
    simp only [VarLike.value, h1, h2]
    match k with
    | 0 | 1 | 2 => simp [toList]
    | k + 3 => simp [toList]
  | @still _ v hp =>
    refine ⟨rfl, fun k hk => ?_⟩
    have hz : ∀ n k, (List.replicate n (0 : ℝ)).getD k 0 = 0 := fun n k => by
      rw [List.getD_eq_getElem?_getD, List.getElem?_replicate]; split <;> rfl
    have : (shiftBy a b v).getD k 0 = 0 := by
      cases v with
      | generic v =>
        rw [shiftBy, if_neg (by simpa [HasPlace] using hp)]
        exact hz _ _
      | rotation | invRange => exact hz _ _
      | _ => simp [HasPlace] at hp
    rw [this, add_zero]

end Factorama
