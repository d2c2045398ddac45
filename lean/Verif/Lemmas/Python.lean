import Verif.Spec.Python
import Verif.Lemmas.Determined
import Verif.Lemmas.Lists

/-!
# Asking for variables from Python
-/

namespace Factorama
open Spec Graph Opt
variable {F V Fact : Type} [Zero F] [VarLike F V] [LawfulVar F V]

/-- No call takes a variable out of the graph. -/
theorem member_call {A : Arith F} {L : LinAlg F Fact} {env : Env F V} {c : Call F V} {s : OptWorld F V Fact}
    (hr : (step A L env c s).2 ≠ .ub) {q : VRef} (hq : q ∈ s.graph.varsVec) : q ∈ (step A L env c s).1.graph.varsVec := by
  by_cases hc : changesStructure c
  · cases c with
    | user op =>
      show q ∈ (World.step env op ⟨s.heap, s.graph⟩).1.graph.varsVec
      cases op with
      | addVariable p =>
        cases p with
        | none => exact hq
        | some r =>
          simp only [World.step, World.onGraph, Graph.addVariable]
          split
          · exact hq
          · exact List.mem_append_left _ hq
      | addFactor p =>
        cases p with
        | none => exact hq
        | some f =>
          simp only [World.step, World.onGraph, Graph.addFactor]
          split <;> exact hq
      | finalize =>
        rw [(lists_step (w := ⟨s.heap, s.graph⟩) (fun _ => by simp) (fun _ => by simp)).1]
        exact hq
      | setConstant r b => exact hq
      | _ => exact hc.elim
    | setup _ _ => exact hc.elim
    | optimize => exact hc.elim
    | prepare => exact hc.elim
  · rcases e : step A L env c s with ⟨t, r⟩
    rw [e] at hr
    have := (kept_call hc e hr).1.varsVec
    dsimp only
    rw [this]
    exact hq

namespace Py

/-- The program that asks for variables (left) and the one that does not. -/
structure Like (s t : State F V Fact) : Prop where
  world : s.world = t.world
  wrap : ∀ r, (s.wrap r = .shared ∧ t.wrap r = .shared) ∨
    (t.wrap r = .none ∧ (s.wrap r = .none ∨ s.wrap r = .adopted ∨ (s.wrap r = .shared ∧ r ∈ s.world.graph.varsVec)))

omit [LawfulVar F V] in
theorem Like.look {A : Arith F} {L : LinAlg F Fact} {junk : VRef → V} {a : Action F V} {s t : State F V Fact}
    (h : Like s t) (ha : looksUp a = true) : Like (act A L junk a s).1 t ∧ (act A L junk a s).2 = [] := by
  cases a with
  | call _ _ => simp [looksUp] at ha
  | letGo _ => simp [looksUp] at ha
  | getVariable id =>
    refine ⟨⟨h.world, fun r => ?_⟩, rfl⟩
    have := h.wrap r
    simp only [act, touch, adopt]
    grind
  | factorVariables f =>
    refine ⟨⟨h.world, fun r => ?_⟩, rfl⟩
    have := h.wrap r
    simp only [act, touch, adopt]
    grind
  | getAllVariables =>
    refine ⟨⟨h.world, fun r => ?_⟩, rfl⟩
    have := h.wrap r
    simp only [act, touch, share, looked, Graph.getAllVariables]
    grind

theorem Like.other {A : Arith F} {L : LinAlg F Fact} {junk : VRef → V} {a : Action F V} {s t : State F V Fact}
    (h : Like s t) (ha : looksUp a = false) (hub : Res.ub ∉ (act A L junk a t).2)
    (hsafe : ∀ r, a = .letGo r → s.wrap r ≠ .adopted) :
    Like (act A L junk a s).1 (act A L junk a t).1 ∧ (act A L junk a s).2 = (act A L junk a t).2 := by
  cases a with
  | getVariable _ => simp [looksUp] at ha
  | factorVariables _ => simp [looksUp] at ha
  | getAllVariables => simp [looksUp] at ha
  | call env c =>
    simp only [act, List.mem_singleton] at hub ⊢
    rw [h.world]
    refine ⟨⟨rfl, fun r => ?_⟩, rfl⟩
    have hm := member_call (A := A) (L := L) (env := env) (c := c) (s := t.world) (fun e => hub e.symm) (q := r)
    have := h.wrap r
    rw [h.world] at this
    dsimp only
    grind
  | letGo r =>
    have hs := hsafe r rfl
    have hw := h.wrap r
    have hworld := h.world
    refine ⟨?_, rfl⟩
    simp only [act]
    rcases hw with ⟨h1, h2⟩ | ⟨h2, h1 | h1 | ⟨h1, hm⟩⟩
    · rw [h1, h2]
      dsimp only
      rw [hworld]
      split
      · refine ⟨hworld, fun q => ?_⟩
        have := h.wrap q
        dsimp only
        grind
      · refine ⟨by simp [destroy, hworld], fun q => ?_⟩
        have := h.wrap q
        simp only [destroy]
        grind
    · rw [h1, h2]
      refine ⟨hworld, fun q => ?_⟩
      have := h.wrap q
      dsimp only
      grind
    · exact absurd h1 hs
    · rw [h1, h2]
      dsimp only
      rw [if_pos hm]
      refine ⟨hworld, fun q => ?_⟩
      have := h.wrap q
      dsimp only
      grind

/-- Whole programs. -/
theorem Like.run {A : Arith F} {L : LinAlg F Fact} {junk : VRef → V} (prog : List (Action F V)) :
    ∀ {s t : State F V Fact}, Like s t → Res.ub ∉ (Py.run A L junk (withoutLooks prog) t).2 →
    (∀ pre r post, prog = pre ++ .letGo r :: post → (Py.run A L junk pre s).1.wrap r ≠ .adopted) →
    Like (Py.run A L junk prog s).1 (Py.run A L junk (withoutLooks prog) t).1 ∧
    (Py.run A L junk prog s).2 = (Py.run A L junk (withoutLooks prog) t).2 := by
  induction prog with
  | nil => intro s t h _ _; exact ⟨h, rfl⟩
  | cons a as ih =>
    intro s t h hub hsafe
    cases ha : looksUp a with
    | true =>
      have e : withoutLooks (a :: as) = withoutLooks as := by simp [withoutLooks, ha]
      rw [e] at hub ⊢
      obtain ⟨h', ho⟩ := h.look (A := A) (L := L) (junk := junk) ha
      have := ih h' hub (fun pre r post hp => hsafe (a :: pre) r post (by rw [hp]; rfl))
      simp only [Py.run, ho, List.nil_append]
      exact this
    | false =>
      have e : withoutLooks (a :: as) = a :: withoutLooks as := by simp [withoutLooks, ha]
      rw [e] at hub ⊢
      simp only [Py.run, List.mem_append, not_or] at hub
      obtain ⟨h', ho⟩ := h.other ha hub.1 (fun r hr => hsafe [] r as (by rw [hr]; rfl))
      have := ih h' hub.2 (fun pre r post hp => hsafe (a :: pre) r post (by rw [hp]; rfl))
      simp only [Py.run, ho]
      exact ⟨this.1, by rw [this.2]⟩

omit [LawfulVar F V] in
/-- If only variables with a living wrapper are asked for, or `get_all_variables` is used, none is adopted. -/
theorem no_adopted {A : Arith F} {L : LinAlg F Fact} {junk : VRef → V} (prog : List (Action F V)) :
    ∀ {s : State F V Fact}, (∀ r, s.wrap r ≠ .adopted) →
    (∀ pre a post, prog = pre ++ a :: post → a ≠ .getAllVariables →
      ∀ r ∈ looked (Py.run A L junk pre s).1 a, (Py.run A L junk pre s).1.wrap r ≠ .none) →
    ∀ r, (Py.run A L junk prog s).1.wrap r ≠ .adopted := by
  induction prog with
  | nil => intro s h _; exact h
  | cons a as ih =>
    intro s h hheld
    have h0 := hheld [] a as rfl
    simp only [Py.run] at h0 ⊢
    refine ih (fun r => ?_) (fun pre b post hp => hheld (a :: pre) b post (by rw [hp]; rfl))
    have := h r
    cases a with
    | call _ _ => exact h r
    | getVariable id => have := h0 (by simp) r; simp only [act, touch, adopt]; grind
    | factorVariables id => have := h0 (by simp) r; simp only [act, touch, adopt]; grind
    | getAllVariables => simp only [act, touch, share]; grind
    | letGo q =>
      simp only [act]
      split
      · simp
      · cases hq : s.wrap q with
        | none => exact h r
        | adopted => exact h r
        | shared => dsimp only; split <;> exact h r

end Py
end Factorama
