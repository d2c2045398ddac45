import Verif.Model.Stopwatch

/-!
# C62: what a stopwatch shows
-/

namespace Factorama.Spec
open Stopwatch

/-- The last call made at or before the tick `t`, if any. -/
def lastCall (evs : List (Nat × Press)) (t : Nat) : Option Press :=
  ((evs.filter fun e => decide (e.1 ≤ t)).getLast?).map (·.2)

/-- The tick from `t` to `t + 1` counts: the last call before it was a `start`, and no `reset` comes after it. -/
def Counts (evs : List (Nat × Press)) (t : Nat) : Prop :=
  lastCall evs t = some .start ∧ ∀ e ∈ evs, e.2 = .reset → e.1 ≤ t

instance (evs : List (Nat × Press)) (t : Nat) : Decidable (Counts evs t) := by unfold Counts; infer_instance

/-- The number of ticks before `now` that count. -/
def runningTicks (evs : List (Nat × Press)) (now : Nat) : Nat := (List.range now).countP fun t => decide (Counts evs t)

end Factorama.Spec

namespace Factorama.Props
open Spec Stopwatch

theorem Stopwatch.lastCall_snoc (evs : List (Nat × Press)) (e : Nat × Press) (t : Nat) :
    lastCall (evs ++ [e]) t = if e.1 ≤ t then some e.2 else lastCall evs t := by
  unfold lastCall
  rw [List.filter_append]
  by_cases h : e.1 ≤ t
  · rw [if_pos h]
    simp [List.filter_cons, h]
  · rw [if_neg h]
    simp [List.filter_cons, h]

theorem Stopwatch.counts_snoc (evs : List (Nat × Press)) (e : Nat × Press) (hlast : ∀ e' ∈ evs, e'.1 ≤ e.1) (t : Nat) :
    Counts (evs ++ [e]) t ↔ if e.1 ≤ t then e.2 = .start else (Counts evs t ∧ e.2 ≠ .reset) := by
  unfold Counts
  rw [Stopwatch.lastCall_snoc]
  by_cases h : e.1 ≤ t
  · rw [if_pos h, if_pos h]
    simp only [Option.some.injEq]
    refine ⟨fun h1 => h1.1, fun h1 => ⟨h1, fun e' he' _ => ?_⟩⟩
    rcases List.mem_append.1 he' with h2 | h2
    · exact Nat.le_trans (hlast e' h2) h
    · rw [List.mem_singleton.1 h2]; exact h
  · rw [if_neg h, if_neg h]
    constructor
    · rintro ⟨h1, h2⟩
      refine ⟨⟨h1, fun e' he' => h2 e' (by simp [he'])⟩, fun h3 => h (h2 e (by simp) h3)⟩
    · rintro ⟨⟨h1, h2⟩, h3⟩
      refine ⟨h1, fun e' he' h4 => ?_⟩
      rcases List.mem_append.1 he' with h5 | h5
      · exact h2 e' h5 h4
      · rw [List.mem_singleton.1 h5] at h4; exact absurd h4 h3

theorem Stopwatch.runningTicks_snoc (evs : List (Nat × Press)) (e : Nat × Press) (hlast : ∀ e' ∈ evs, e'.1 ≤ e.1)
    (now : Nat) (hnow : e.1 ≤ now) : runningTicks (evs ++ [e]) now =
      (if e.2 = .reset then 0 else runningTicks evs e.1) + if e.2 = .start then now - e.1 else 0 := by
  unfold runningTicks
  obtain ⟨n, rfl⟩ := Nat.exists_eq_add_of_le hnow
  rw [List.range_add, List.countP_append]
  congr 1
  · by_cases hr : e.2 = .reset
    · rw [if_pos hr, List.countP_eq_zero]
      intro t ht
      have := List.mem_range.1 ht
      rw [decide_eq_true_eq, Stopwatch.counts_snoc evs e hlast, if_neg (by omega)]
      simp [hr]
    · rw [if_neg hr]
      apply List.countP_congr
      intro t ht
      have := List.mem_range.1 ht
      rw [decide_eq_true_eq, decide_eq_true_eq, Stopwatch.counts_snoc evs e hlast, if_neg (by omega)]
      simp [hr]
  · by_cases hs : e.2 = .start
    · rw [if_pos hs, List.countP_eq_length.2]
      · simp
      · intro t ht
        simp only [List.mem_map, List.mem_range] at ht
        obtain ⟨k, _, rfl⟩ := ht
        rw [decide_eq_true_eq, Stopwatch.counts_snoc evs e hlast, if_pos (by omega)]
        exact hs
    · rw [if_neg hs, List.countP_eq_zero]
      intro t ht
      simp only [List.mem_map, List.mem_range] at ht
      obtain ⟨k, _, rfl⟩ := ht
      rw [decide_eq_true_eq, Stopwatch.counts_snoc evs e hlast, if_pos (by omega)]
      exact hs

/-- **C62**. For every sequence of calls at non-decreasing times, `elapsed()` is the number of clock ticks since the last
`reset` during which the watch was running, that is whose last preceding call is a `start`. -/
theorem C62_elapsed (evs : List (Nat × Press)) (hmono : evs.Pairwise fun a b => a.1 ≤ b.1) (now : Nat)
    (hnow : ∀ e ∈ evs, e.1 ≤ now) : (Stopwatch.after evs).elapsed now = runningTicks evs now := by
  have key : ∀ l : List (Nat × Press), l.reverse.Pairwise (fun a b => a.1 ≤ b.1) → ∀ now, (∀ e ∈ l, e.1 ≤ now) →
      (Stopwatch.after l.reverse).elapsed now = runningTicks l.reverse now := by
    intro l
    induction l with
    | nil =>
      intro _ now _
      have : runningTicks [] now = 0 := by
        unfold runningTicks
        rw [List.countP_eq_zero]
        intro t _
        simp [Counts, lastCall]
      rw [List.reverse_nil, this]
      rfl
    | cons e l ih =>
      intro hm now hn
      rw [List.reverse_cons] at *
      obtain ⟨hm1, -, hm2⟩ := List.pairwise_append.1 hm
      have hlast : ∀ e' ∈ l.reverse, e'.1 ≤ e.1 := fun e' he' => hm2 e' he' e (by simp)
      have ih' := ih hm1 e.1 (fun e' he' => hlast e' (by simpa using he'))
      have hle : e.1 ≤ now := hn e (by simp)
      rw [Stopwatch.runningTicks_snoc _ e hlast now hle]
      unfold Stopwatch.after at *
      rw [List.foldl_append]
      simp only [List.foldl_cons, List.foldl_nil]
      generalize l.reverse.foldl press Stopwatch.init = w at *
      obtain ⟨t, p⟩ := e
      obtain ⟨b, acc, st⟩ := w
      dsimp only at *
      generalize runningTicks l.reverse t = n at *
      cases p <;> cases b <;>
        simp [press, Stopwatch.start, Stopwatch.stop, Stopwatch.reset, Stopwatch.elapsed] at ih' ⊢ <;> omega
  have := key evs.reverse (by simpa using hmono) now (by simpa using hnow)
  simpa using this

/-- Started twice, stopped twice, started again, read while running. -/
example : (Stopwatch.after [(3, .start), (5, .start), (9, .stop), (12, .stop), (20, .start)]).elapsed 24 = 10 := by
  rw [C62_elapsed _ (by decide) _ (by decide)]; decide
/-- A reset stops the watch and forgets what was counted. -/
example : (Stopwatch.after [(3, .start), (5, .reset), (9, .start)]).elapsed 11 = 2 := by
  rw [C62_elapsed _ (by decide) _ (by decide)]; decide

/-- **C62**, redundant calls: starting a running watch and stopping a stopped one change nothing. -/
theorem C62_redundant (w : Stopwatch) (now : Nat) :
    (w.isRunning = true → w.start now = w) ∧ (w.isRunning = false → w.stop now = w) := by
  constructor <;> intro h <;> simp [Stopwatch.start, Stopwatch.stop, h]

example : (Stopwatch.after [(3, .start), (5, .start)]) = Stopwatch.after [(3, .start)] :=
  (C62_redundant (Stopwatch.after [(3, .start)]) 5).1 rfl

end Factorama.Props
