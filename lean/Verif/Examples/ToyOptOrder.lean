import Verif.Examples.ToyOpt

/-!
# The rational arithmetic of the concrete runs meets the order laws
-/

namespace Factorama.ToyOpt
open Spec Graph Opt Toy

theorem natSqrt_spec (n b : Nat) (r : Nat) (h1 : r * r ≤ n) (h2 : n < (r + 2 ^ b) * (r + 2 ^ b)) :
    natSqrt n b r * natSqrt n b r ≤ n ∧ n < (natSqrt n b r + 1) * (natSqrt n b r + 1) := by
  induction b generalizing r with
  | zero => exact ⟨h1, by simpa [natSqrt] using h2⟩
  | succ b ih =>
    unfold natSqrt
    split
    · rename_i h
      refine ih _ h ?_
      rw [Nat.pow_succ] at h2
      have : r + 2 ^ b + 2 ^ b = r + 2 ^ b * 2 := by omega
      rw [this]; exact h2
    · rename_i h
      exact ih _ h1 (by omega)

theorem natSqrt_root (n : Nat) : natSqrt n (n.log2 / 2 + 1) 0 * natSqrt n (n.log2 / 2 + 1) 0 ≤ n ∧
    n < (natSqrt n (n.log2 / 2 + 1) 0 + 1) * (natSqrt n (n.log2 / 2 + 1) 0 + 1) := by
  refine natSqrt_spec n _ 0 (Nat.zero_le _) ?_
  rw [Nat.zero_add, ← Nat.pow_add]
  refine Nat.lt_of_lt_of_le (Nat.lt_log2_self (n := n)) (Nat.pow_le_pow_right (by omega) (by omega))

theorem ratSqrt_mono {a b : Rat} (h : a ≤ b) : ratSqrt a ≤ ratSqrt b := by
  have h1 : (a * 10 ^ 24).floor.toNat ≤ (b * 10 ^ 24).floor.toNat := by
    have : (a * 10 ^ 24).floor ≤ (b * 10 ^ 24).floor := by
      apply Rat.floor_monotone
      grind
    omega
  unfold ratSqrt
  dsimp only
  generalize (a * 10 ^ 24).floor.toNat = m at *
  generalize (b * 10 ^ 24).floor.toNat = n at *
  have hm := natSqrt_root m
  have hn := natSqrt_root n
  generalize natSqrt m (m.log2 / 2 + 1) 0 = x at *
  generalize natSqrt n (n.log2 / 2 + 1) 0 = y at *
  have hxy : x ≤ y := by
    refine Classical.byContradiction fun hc => ?_
    have : (y + 1) * (y + 1) ≤ x * x := Nat.mul_le_mul (by omega) (by omega)
    omega
  rw [Rat.mkRat_eq_div, Rat.mkRat_eq_div]
  have : ((x : Int) : Rat) ≤ ((y : Int) : Rat) := Rat.intCast_le_intCast.2 (by omega)
  grind

theorem costOrder : CostOrder rat where
  half a b h := by
    simp only [rat, decide_eq_true_eq] at *
    grind
  trans a b c h h' := by
    simp only [rat, decide_eq_true_eq] at *
    grind
  irrefl a := by
    simp only [rat, decide_eq_false_iff_not]
    grind
  sqrt a b h := by
    simp only [rat, decide_eq_true_eq, decide_eq_false_iff_not] at *
    have := ratSqrt_mono (a := a) (b := b) (by grind)
    grind

end Factorama.ToyOpt
