import Verif.Lemmas.Blind
import Verif.Lemmas.Determined
import Verif.Spec.Many
import Verif.Props.Lifetime
import Verif.Props.CovarianceLinearisation

/-!
# C114, C115: several graphs and optimizers
-/

set_option linter.unusedSectionVars false

namespace Factorama.Props
open Spec Graph Opt Many
variable {F V Fact : Type} [Zero F] [VarLike F V]

namespace C114

/-- The objects that are not on a side. -/
abbrev out (S : Side) : VRef → Bool := fun r => !S.objects r

/-- The graphs of a side use its variables only, and its optimizers its graphs. -/
structure Closed (S : Side) (s : State F V Fact) : Prop where
  clear : ∀ g, S.graphs g = true → Life.Clear (out S) (fun _ => True) (s.graphs g)
  target : ∀ o g, S.opts o = true → s.target o = some g → S.graphs g = true

theorem clear_init (D : VRef → Bool) : Life.Clear D (fun _ => True) (Graph.init : Graph F V) :=
  ⟨by simp [Graph.init], by simp [Graph.init], by simp [Graph.init]⟩

theorem closed_init (S : Side) (A : Arith F) (h : Heap V) : Closed S (Many.init A h : State F V Fact) :=
  ⟨fun _ _ => clear_init _, fun _ _ _ h => by cases h⟩

theorem view_clear {S : Side} {s : State F V Fact} (hs : Closed S s) {o : ORef} (ho : S.opts o = true) :
    Life.Clear (out S) (fun _ => True) (view s o).graph := by
  unfold view
  dsimp only
  split
  · rename_i g e; exact hs.clear g (hs.target o g ho e)
  · exact clear_init _

/-- Replacing the objects that are not on the side. -/
theorem heap_mask {S : Side} {s t : State F V Fact} (h : S.Same s t) : t.heap = Life.mask (out S) t.heap s.heap := by
  funext r
  unfold Life.mask
  by_cases e : S.objects r = true
  · simp [out, e, h.heap r e]
  · have : S.objects r = false := by simpa using e
    simp [out, this]

theorem view_mask {S : Side} {s t : State F V Fact} (h : S.Same s t) {o : ORef} (ho : S.opts o = true) (hs : Closed S s) :
    view t o = Life.maskW (out S) t.heap (view s o) := by
  have e : (view t o).graph = (view s o).graph := by
    simp only [view]
    rw [h.target o ho]
    cases e : s.target o with
    | none => rfl
    | some g => exact h.graphs g (hs.target o g ho e)
  have e2 : (view t o).opt = (view s o).opt := h.opts o ho
  have e3 : (view t o).heap = Life.mask (out S) t.heap (view s o).heap := heap_mask h
  rcases h1 : view t o with ⟨a, b, c⟩
  rw [h1] at e e2 e3
  dsimp only at e e2 e3
  rw [e, e2, e3]
  rfl

theorem mask_in {S : Side} {junk : VRef → V} {h : Heap V} {r : VRef} (hr : S.objects r = true) :
    Life.mask (out S) junk h r = h r := Life.mask_eq (by simp [out, hr])

theorem put_same {α : Type} {p : Nat → Bool} {f f' : Nat → α} (h : ∀ k, p k = true → f' k = f k) (k : Nat) (a : α) :
    ∀ j, p j = true → put f' k a j = put f k a j := by
  intro j hj
  unfold put
  split
  · rfl
  · exact h j hj

/-- A step of an optimizer of the side. -/
theorem back_same {S : Side} {s t : State F V Fact} (h : S.Same s t) {o : ORef} (ho : S.opts o = true)
    (w : OptWorld F V Fact) (hw : Life.Clear (out S) (fun _ => True) w.graph) (hs : Closed S s) (junk : VRef → V) :
    S.Same (back s o w) (back t o (Life.maskW (out S) junk w)) ∧ Closed S (back s o w) := by
  refine ⟨⟨fun r hr => mask_in hr, fun g hg => ?_, fun k hk => ?_, fun k hk => h.target k hk⟩, fun g hg => ?_,
    fun k g hk e => hs.target k g hk e⟩
  · simp only [back, h.target o ho]
    cases s.target o with
    | none => exact h.graphs g hg
    | some g' => exact put_same h.graphs g' _ g hg
  · exact put_same h.opts o _ k hk
  · simp only [back]
    cases e : s.target o with
    | none => exact hs.clear g hg
    | some g' =>
      dsimp only [put]
      split
      · exact hw
      · exact hs.clear g hg

/-- A call on a side depends on that side only. -/
theorem act_within (A : Arith F) (L : LinAlg F Fact) {S : Side} {a : Many.Action F V} (ha : S.Within a)
    {s t : State F V Fact} (h : S.Same s t) (hs : Closed S s) :
    S.Same (act A L a s).1 (act A L a t).1 ∧ (act A L a t).2 = (act A L a s).2 ∧ Closed S (act A L a s).1 := by
  cases a with
  | graph env g op =>
    obtain ⟨hg, hn, hf⟩ := ha
    have hav : Life.Avoids (fun _ => True) (out S) (.user op : Call F V) := by
      refine ⟨fun r hr => by simp [out, hn r hr], fun f e => ?_⟩
      injection e with e
      obtain ⟨h1, h2⟩ := hf f e
      exact ⟨fun r hr => by simp [out, h1 r hr], h2, trivial⟩
    have key := Life.step_blind (Fact := Fact) (junk := t.heap) A L env hav ⟨s.heap, s.graphs g, Optimizer.init A⟩ (hs.clear g hg)
    have e1 : (⟨t.heap, t.graphs g⟩ : World F V) = ⟨Life.mask (out S) t.heap s.heap, s.graphs g⟩ := by
      rw [h.graphs g hg]; congr 1; exact heap_mask h
    obtain ⟨k1, k2⟩ := key
    simp only [Opt.step, Life.maskW, Prod.mk.injEq, OptWorld.mk.injEq] at k1
    simp only [act]
    rw [e1]
    refine ⟨⟨fun r hr => ?_, fun g' hg' => ?_, h.opts, h.target⟩, k1.2, fun g' hg' => ?_, hs.target⟩
    · dsimp only; rw [k1.1.1]; exact mask_in hr
    · dsimp only; rw [k1.1.2.1]; exact put_same h.graphs g _ g' hg'
    · dsimp only [put]
      split
      · exact k2
      · exact hs.clear g' hg'
  | setup o g st =>
    obtain ⟨ho, hg⟩ := ha
    refine ⟨⟨h.heap, h.graphs, fun k hk => ?_, put_same h.target o g⟩, rfl, hs.clear, fun k g' hk e => ?_⟩
    · have e : (Opt.setup g.isSome st (view t o)).1.opt = (Opt.setup g.isSome st (view s o)).1.opt := by
        simp only [Opt.setup, modOpt, SE.modify, show (view t o).opt = (view s o).opt from h.opts o ho]
      simp only [act]
      rw [e]
      exact put_same h.opts o _ k hk
    · simp only [act, put] at e
      split at e
      · exact hg g' e
      · exact hs.target k g' hk e
  | optimize env o =>
    obtain ⟨k1, k2⟩ := Life.step_blind (junk := t.heap) (P := fun _ => True) A L env (c := .optimize)
      ⟨fun _ h => h.elim, fun _ h => by cases h⟩ (view s o) (view_clear hs ha)
    simp only [act, view_mask h ha hs]
    simp only [Opt.step] at k1 k2
    rw [k1]
    obtain ⟨k3, k4⟩ := back_same h ha _ k2 hs t.heap
    exact ⟨k3, rfl, k4⟩
  | prepare env o =>
    obtain ⟨k1, k2⟩ := Life.step_blind (junk := t.heap) (P := fun _ => True) A L env (c := .prepare)
      ⟨fun _ h => h.elim, fun _ h => by cases h⟩ (view s o) (view_clear hs ha)
    simp only [act, view_mask h ha hs]
    simp only [Opt.step] at k1 k2
    rw [k1]
    obtain ⟨k3, k4⟩ := back_same h ha _ k2 hs t.heap
    exact ⟨k3, rfl, k4⟩

theorem same_refl (S : Side) (s : State F V Fact) : S.Same s s := ⟨fun _ _ => rfl, fun _ _ => rfl, fun _ _ => rfl, fun _ _ => rfl⟩

theorem same_trans {S : Side} {s t u : State F V Fact} (h : S.Same s t) (h' : S.Same t u) : S.Same s u :=
  ⟨fun r hr => (h'.heap r hr).trans (h.heap r hr), fun r hr => (h'.graphs r hr).trans (h.graphs r hr),
   fun r hr => (h'.opts r hr).trans (h.opts r hr), fun r hr => (h'.target r hr).trans (h.target r hr)⟩

theorem same_symm {S : Side} {s t : State F V Fact} (h : S.Same s t) : S.Same t s :=
  ⟨fun r hr => (h.heap r hr).symm, fun r hr => (h.graphs r hr).symm, fun r hr => (h.opts r hr).symm, fun r hr => (h.target r hr).symm⟩

/-- Two sides with nothing in common. -/
structure Apart (S T : Side) : Prop where
  graphs : ∀ g, S.graphs g = true → T.graphs g = false
  opts : ∀ o, S.opts o = true → T.opts o = false
  objects : ∀ r, S.objects r = true → T.objects r = false

theorem put_other {α : Type} {p q : Nat → Bool} (hd : ∀ k, p k = true → q k = false) {f : Nat → α} {k : Nat} (hk : q k = true)
    (a : α) : ∀ j, p j = true → put f k a j = f j := by
  intro j hj
  unfold put
  rw [if_neg]
  rintro rfl
  rw [hd j hj] at hk
  cases hk

/-- Calls on one side leave the other alone. -/
theorem act_apart (A : Arith F) (L : LinAlg F Fact) {S T : Side} (hd : Apart S T) {a : Many.Action F V} (ha : T.Within a)
    {s : State F V Fact} (hs : Closed T s) : S.Same s (act A L a s).1 := by
  have keep : ∀ {h h' : Heap V}, h' = Life.mask (out T) h h' → ∀ r, S.objects r = true → h' r = h r := by
    intro h h' e r hr
    rw [e]
    simp [Life.mask, out, hd.objects r hr]
  have self : ∀ h : Heap V, Life.mask (out T) h h = h := fun h => by funext r; simp [Life.mask]
  cases a with
  | graph env g op =>
    obtain ⟨hg, hn, hf⟩ := ha
    have hav : Life.Avoids (fun _ => True) (out T) (.user op : Call F V) := by
      refine ⟨fun r hr => by simp [out, hn r hr], fun f e => ?_⟩
      injection e with e
      obtain ⟨h1, h2⟩ := hf f e
      exact ⟨fun r hr => by simp [out, h1 r hr], h2, trivial⟩
    obtain ⟨k1, -⟩ := Life.step_blind (Fact := Fact) (junk := s.heap) A L env hav ⟨s.heap, s.graphs g, Optimizer.init A⟩ (hs.clear g hg)
    simp only [Opt.step, Life.maskW, Prod.mk.injEq, OptWorld.mk.injEq, self] at k1
    exact ⟨keep k1.1.1, put_other hd.graphs hg _, fun _ _ => rfl, fun _ _ => rfl⟩
  | setup o g st => exact ⟨fun _ _ => rfl, fun _ _ => rfl, put_other hd.opts ha.1 _, put_other hd.opts ha.1 _⟩
  | optimize env o =>
    obtain ⟨k1, -⟩ := Life.step_blind (junk := s.heap) (P := fun _ => True) A L env (c := .optimize)
      ⟨fun _ h => h.elim, fun _ h => by cases h⟩ (view s o) (view_clear hs ha)
    have e : Life.maskW (out T) s.heap (view s o) = view s o := by
      unfold Life.maskW; rw [show (view s o).heap = s.heap from rfl, self]; rfl
    rw [e] at k1
    refine ⟨keep (congrArg (fun p => p.1.heap) k1), fun g hg => ?_, put_other hd.opts ha _, fun _ _ => rfl⟩
    simp only [act, back]
    cases e : s.target o with
    | none => rfl
    | some g' => exact put_other hd.graphs (hs.target o g' ha e) _ g hg
  | prepare env o =>
    obtain ⟨k1, -⟩ := Life.step_blind (junk := s.heap) (P := fun _ => True) A L env (c := .prepare)
      ⟨fun _ h => h.elim, fun _ h => by cases h⟩ (view s o) (view_clear hs ha)
    have e : Life.maskW (out T) s.heap (view s o) = view s o := by
      unfold Life.maskW; rw [show (view s o).heap = s.heap from rfl, self]; rfl
    rw [e] at k1
    refine ⟨keep (congrArg (fun p => p.1.heap) k1), fun g hg => ?_, put_other hd.opts ha _, fun _ _ => rfl⟩
    simp only [act, back]
    cases e : s.target o with
    | none => rfl
    | some g' => exact put_other hd.graphs (hs.target o g' ha e) _ g hg

theorem closed_same {S : Side} {s t : State F V Fact} (h : S.Same s t) (hs : Closed S s) : Closed S t :=
  ⟨fun g hg => by rw [h.graphs g hg]; exact hs.clear g hg, fun o g ho e => hs.target o g ho (by rw [← h.target o ho]; exact e)⟩

theorem apart_rest (S : Side) : Apart S S.rest := ⟨fun _ h => by simp [Side.rest, h], fun _ h => by simp [Side.rest, h], fun _ h => by simp [Side.rest, h]⟩
theorem rest_apart (S : Side) : Apart S.rest S :=
  ⟨fun _ h => by simpa [Side.rest] using h, fun _ h => by simpa [Side.rest] using h, fun _ h => by simpa [Side.rest] using h⟩

theorem has_within {S : Side} {a : Many.Action F V} (h : S.Within a) : S.has a = true := by
  cases a with
  | graph _ _ _ => exact h.1
  | setup _ _ _ => exact h.1
  | optimize _ _ => exact h
  | prepare _ _ => exact h

theorem has_rest {S : Side} {a : Many.Action F V} (h : S.rest.Within a) : S.has a = false := by
  have := has_within h
  cases a <;> simpa [Side.has, Side.rest] using this

theorem run_same (A : Arith F) (L : LinAlg F Fact) {S : Side} : ∀ (prog : List (Many.Action F V)),
    (∀ a ∈ prog, S.Within a ∨ S.rest.Within a) → ∀ (s t : State F V Fact), S.Same s t → Closed S s → Closed S.rest t →
    S.Same (run A L (prog.filter S.has) s).1 (run A L prog t).1 ∧
    (run A L prog t).2.filter (fun p => S.has p.1) = (run A L (prog.filter S.has) s).2 ∧
    Closed S (run A L (prog.filter S.has) s).1
  | [], _, _, _, h, hs, _ => ⟨h, rfl, hs⟩
  | a :: prog, hp, s, t, h, hs, ht => by
    have ih := run_same A L prog (fun b hb => hp b (List.mem_cons_of_mem _ hb))
    rcases hp a (List.mem_cons_self ..) with ha | ha
    · obtain ⟨h1, h2, h3⟩ := act_within A L ha h hs
      have h4 : Closed S.rest (act A L a t).1 := closed_same (act_apart A L (rest_apart S) ha (closed_same h hs)) ht
      obtain ⟨i1, i2, i3⟩ := ih _ _ h1 h3 h4
      rw [List.filter_cons_of_pos (has_within ha)]
      refine ⟨i1, ?_, i3⟩
      simp only [run]
      rw [List.filter_cons_of_pos (by exact has_within ha), h2, i2]
    · have h1 := act_apart A L (apart_rest S) ha ht
      have h4 := (act_within A L ha (same_refl _ t) ht).2.2
      obtain ⟨i1, i2, i3⟩ := ih _ _ (same_trans h h1) hs h4
      rw [List.filter_cons_of_neg (by simp [has_rest ha])]
      refine ⟨i1, ?_, i3⟩
      simp only [run]
      rw [List.filter_cons_of_neg (by simp [has_rest ha]), i2]

end C114

/-- **C114.** A program uses several graphs and optimizers over the same variables. Divide its graphs, optimizers and variables
into two sides, such that every call is made on one side with arguments of that side (the graphs of one side have the variables
of that side, and their factors look at their own variables only). Then one side is the same as if the calls on the other side
were left out: the same outcomes of calls, and at the end the same values of variables, graphs, optimizers with their
statistics, and covariances. -/
theorem C114_isolated (A : Arith F) (L : LinAlg F Fact) (h0 : Heap V) (S : Side) (prog : List (Many.Action F V))
    (hp : ∀ a ∈ prog, S.Within a ∨ S.rest.Within a) :
    let whole := run A L prog (Many.init A h0)
    let own := run A L (prog.filter S.has) (Many.init A h0)
    S.Same own.1 whole.1 ∧ whole.2.filter (fun p => S.has p.1) = own.2 ∧
    ∀ o v, S.opts o = true → (∀ r, v = some r → S.objects r = true) →
      covariance A L whole.1 o v = covariance A L own.1 o v := by
  obtain ⟨h1, h2, h3⟩ := C114.run_same A L prog hp _ _ (C114.same_refl S (Many.init A h0)) (C114.closed_init S A h0)
    (C114.closed_init _ A h0)
  refine ⟨h1, h2, fun o v ho hv => ?_⟩
  unfold covariance
  rw [C114.view_mask h1 ho h3]
  cases v with
  | none => rfl
  | some r =>
    unfold estimateCovariance
    simp only [Life.maskW, C114.mask_in (hv r rfl)]

namespace C114

/-- Two graphs, the second one over the variables 5, 6 and 7; the identifiers are the same in both. -/
def heap : Heap (GenVar Rat)
  | 5 => ⟨1, false, [1, 2]⟩
  | 6 => ⟨2, false, [9, 9]⟩
  | r => ToyOpt.heap r

def side : Side := ⟨(· == 0), (· == 0), (· < 5)⟩

/-- The two graphs are built in turns; optimizer 0 works on the first graph, optimizer 1 on the second. -/
def prog : List (Many.Action Rat (GenVar Rat)) :=
  [.graph ToyOpt.env 0 (.addVariable (some 0)), .graph ToyOpt.env 1 (.addVariable (some 5)),
   .graph ToyOpt.env 0 (.addVariable (some 1)), .graph ToyOpt.env 1 (.addVariable (some 6)),
   .graph ToyOpt.env 0 (.addVariable (some 2)), .graph ToyOpt.env 1 (.addVariable (some 7)),
   .graph ToyOpt.env 0 (.addFactor (some (genericPrior 10 0 [4, 4] 2))),
   .graph ToyOpt.env 1 (.addFactor (some (genericPrior 10 5 [0, 3] 1))),
   .graph ToyOpt.env 0 (.addFactor (some (genericBetween 11 0 1 2 2 3))),
   .graph ToyOpt.env 1 (.addFactor (some (genericBetween 11 5 6 7 2 5))),
   .graph ToyOpt.env 1 .finalize, .graph ToyOpt.env 0 .finalize,
   .setup 0 (some 0) ToyOpt.lm, .setup 1 (some 1) ToyOpt.gn, .optimize ToyOpt.env 0,
   .graph ToyOpt.env 1 (.setValue 5 [8, 8]), .optimize ToyOpt.env 1, .prepare ToyOpt.env 0, .prepare ToyOpt.env 1]

theorem prog_sides : ∀ a ∈ prog, side.Within a ∨ side.rest.Within a := by
  intro a ha
  simp only [prog, List.mem_cons, List.not_mem_nil, or_false] at ha
  rcases ha with rfl | rfl | rfl | rfl | rfl | rfl | rfl | rfl | rfl | rfl | rfl | rfl | rfl | rfl | rfl | rfl | rfl | rfl | rfl
  · exact .inl ⟨rfl, fun r h => by cases h; rfl, fun f h => nomatch h⟩
  · exact .inr ⟨rfl, fun r h => by cases h; rfl, fun f h => nomatch h⟩
  · exact .inl ⟨rfl, fun r h => by cases h; rfl, fun f h => nomatch h⟩
  · exact .inr ⟨rfl, fun r h => by cases h; rfl, fun f h => nomatch h⟩
  · exact .inl ⟨rfl, fun r h => by cases h; rfl, fun f h => nomatch h⟩
  · exact .inr ⟨rfl, fun r h => by cases h; rfl, fun f h => nomatch h⟩
  · exact .inl ⟨rfl, fun r h => h.elim, fun f h => by
      cases h; exact ⟨by simp [genericPrior, side], C86.looksAtOwn_prior _ _ _ _⟩⟩
  · exact .inr ⟨rfl, fun r h => h.elim, fun f h => by
      cases h; exact ⟨by simp [genericPrior, side, Side.rest], C86.looksAtOwn_prior _ _ _ _⟩⟩
  · exact .inl ⟨rfl, fun r h => h.elim, fun f h => by
      cases h; exact ⟨by simp [genericBetween, side], C86.looksAtOwn_between _ _ _ _ _ _⟩⟩
  · exact .inr ⟨rfl, fun r h => h.elim, fun f h => by
      cases h; exact ⟨by simp [genericBetween, side, Side.rest], C86.looksAtOwn_between _ _ _ _ _ _⟩⟩
  · exact .inr ⟨rfl, fun r h => h.elim, fun f h => nomatch h⟩
  · exact .inl ⟨rfl, fun r h => h.elim, fun f h => nomatch h⟩
  · exact .inl ⟨rfl, fun k h => by cases h; rfl⟩
  · exact .inr ⟨rfl, fun k h => by cases h; rfl⟩
  · exact .inl rfl
  · exact .inr ⟨rfl, fun r h => by cases h; rfl, fun f h => nomatch h⟩
  · exact .inr rfl
  · exact .inl rfl
  · exact .inr rfl

def final := run ToyOpt.rat Ldlt.linAlg prog (Many.init ToyOpt.rat heap)

theorem final_ok : final.2.map Prod.snd = List.replicate 19 (.ok ()) := by decide +kernel

theorem final_covariance : C29.report (view final.1 0) (some 0) = .ok (some [1 / 4, 0, 0, 1 / 4]) ∧
    C29.report (view final.1 1) (some 5) = .ok (some [1, 0, 0, 1]) := by
  constructor <;> decide +kernel

end C114

/-- Both graphs are built and optimized in turns, all calls succeed, and the covariances are different ones. -/
example := C114_isolated ToyOpt.rat Ldlt.linAlg C114.heap C114.side C114.prog C114.prog_sides

namespace C115
variable [LawfulVar F V]

theorem covariance_shape (A : Arith F) (L : LinAlg F Fact) {s t : OptWorld F V Fact} (ho : t.opt = s.opt)
    (hp : t.graph.varPl = s.graph.varPl) (hs : SameShape s.heap t.heap) (v : Option VRef) :
    estimateCovariance A L t v = estimateCovariance A L s v := by
  cases v with
  | none => rfl
  | some r =>
    have h := hs r
    have hpl : ∀ i, t.graph.variablePlacement i = s.graph.variablePlacement i := fun i => by
      simp only [variablePlacement, hp]
    unfold estimateCovariance
    simp only [ho, hpl, h]

theorem shape_refl (h : Heap V) : SameShape (F := F) h h := fun _ => ⟨rfl, rfl, rfl⟩
theorem shape_trans {h h' h'' : Heap V} (a : SameShape (F := F) h h') (b : SameShape (F := F) h' h'') : SameShape (F := F) h h'' :=
  fun r => ⟨(b r).1.trans (a r).1, (b r).2.1.trans (a r).2.1, (b r).2.2.trans (a r).2.2⟩

/-- What stays of the optimizer at `o` and its graph at `g`. -/
structure Stays (o : ORef) (g : GRef) (s t : State F V Fact) : Prop where
  opt : t.opts o = s.opts o
  target : t.target o = s.target o
  placed : (t.graphs g).varPl = (s.graphs g).varPl
  shape : SameShape s.heap t.heap

theorem put_ne {α : Type} {f : Nat → α} {k j : Nat} {a : α} (h : k ≠ j) : put f k a j = f j := if_neg fun e => h e.symm

theorem back_stays {o o' : ORef} (hne : o' ≠ o) (g : GRef) {s : State F V Fact} {w : OptWorld F V Fact}
    (hk : Kept (view s o').graph w.graph) (hs : SameShape s.heap w.heap) : Stays o g s (back s o' w) := by
  refine ⟨put_ne hne, rfl, ?_, hs⟩
  simp only [back]
  cases e : s.target o' with
  | none => rfl
  | some g' =>
    dsimp only [put]
    split
    · rename_i h
      subst h
      have := hk.varPl
      simp only [view, e] at this
      exact this
    · rfl

theorem act_stays (A : Arith F) (L : LinAlg F Fact) {o : ORef} {g : GRef} {a : Many.Action F V} (ha : Elsewhere o g a)
    (s : State F V Fact) (hub : (act A L a s).2 ≠ .ub) : Stays o g s (act A L a s).1 := by
  cases a with
  | graph env k op =>
    have keep : ¬ changesStructure (.user op : Call F V) →
        Kept (s.graphs k) (World.step env op ⟨s.heap, s.graphs k⟩).1.graph ∧
        SameShape s.heap (World.step env op ⟨s.heap, s.graphs k⟩).1.heap := fun hc =>
      kept_call (A := A) (L := L) (env := env) (s := ⟨s.heap, s.graphs k, Optimizer.init A⟩) hc rfl hub
    refine ⟨rfl, rfl, ?_, ?_⟩
    · by_cases e : k = g
      · subst e
        simp only [act, put, if_true]
        exact (keep (ha.2 rfl)).1.varPl
      · simp only [act]
        rw [put_ne e]
    · by_cases hc : changesStructure (.user op : Call F V)
      · cases op with
        | setConstant r b => exact absurd rfl (ha.1 r b)
        | addVariable _ => exact shape_refl _
        | addFactor _ => exact shape_refl _
        | finalize => exact shape_refl _
        | _ => exact hc.elim
      · exact (keep hc).2
  | setup o' k st => exact ⟨put_ne ha, put_ne ha, rfl, shape_refl _⟩
  | optimize env o' =>
    obtain ⟨h1, h2⟩ := kept_call (A := A) (L := L) (env := env) (c := .optimize) (s := view s o') id rfl hub
    exact back_stays ha g h1 h2
  | prepare env o' =>
    obtain ⟨h1, h2⟩ := kept_call (A := A) (L := L) (env := env) (c := .prepare) (s := view s o') id rfl hub
    exact back_stays ha g h1 h2

theorem run_stays (A : Arith F) (L : LinAlg F Fact) {o : ORef} {g : GRef} : ∀ (later : List (Many.Action F V)),
    (∀ a ∈ later, Elsewhere o g a) → ∀ s : State F V Fact, (∀ p ∈ (run A L later s).2, p.2 ≠ .ub) →
    Stays o g s (run A L later s).1
  | [], _, s, _ => ⟨rfl, rfl, rfl, shape_refl _⟩
  | a :: later, h, s, hub => by
    have h1 := act_stays A L (h a (List.mem_cons_self ..)) s (hub _ (List.mem_cons_self ..))
    have h2 := run_stays A L later (fun b hb => h b (List.mem_cons_of_mem _ hb)) (act A L a s).1
      fun p hp => hub p (List.mem_cons_of_mem _ hp)
    exact ⟨h2.opt.trans h1.opt, h2.target.trans h1.target, h2.placed.trans h1.placed, shape_trans h1.shape h2.shape⟩

end C115

/-- **C115** (the part that holds). An optimizer keeps its statistics and the covariances it reports while other optimizers work
on the same graph, on other graphs with the same variables, and while variables get other values; until it is used again itself,
the structure of its graph is changed, or a variable is made constant or free. -/
theorem C115_kept_partial [LawfulVar F V] (A : Arith F) (L : LinAlg F Fact) (s : State F V Fact) (o : ORef) (g : GRef)
    (hg : s.target o = some g) (later : List (Many.Action F V)) (hl : ∀ a ∈ later, Elsewhere o g a)
    (hub : ∀ p ∈ (run A L later s).2, p.2 ≠ .ub) :
    let t := (run A L later s).1
    (t.opts o).stats = (s.opts o).stats ∧ (t.opts o).initialStats = (s.opts o).initialStats ∧
    ∀ v, covariance A L t o v = covariance A L s o v := by
  have h := C115.run_stays A L later hl s hub
  refine ⟨by rw [h.opt], by rw [h.opt], fun v => ?_⟩
  refine C115.covariance_shape A L (s := view s o) (t := view (run A L later s).1 o) h.opt ?_ h.shape v
  simp only [view, h.target, hg]
  exact h.placed

namespace C115

/-- One graph with the residual `x² − 4`, and two optimizers for it; the first one makes one step from `x = 1`. -/
def start : List (Many.Action Rat (GenVar Rat)) :=
  [.graph ToyOpt.env 0 (.addVariable (some 0)), .graph ToyOpt.env 0 (.addFactor (some C31.square)),
   .graph ToyOpt.env 0 .finalize, .setup 0 (some 0) { ToyOpt.gn with maxIterations := 1 }, .optimize ToyOpt.env 0]

/-- The second optimizer goes on with one step more. -/
def second : List (Many.Action Rat (GenVar Rat)) :=
  [.setup 1 (some 0) { ToyOpt.gn with maxIterations := 1 }, .optimize ToyOpt.env 1]

def after (prog : List (Many.Action Rat (GenVar Rat))) : State Rat (GenVar Rat) (Ldlt.Fact Rat) :=
  (run ToyOpt.rat Ldlt.linAlg prog (Many.init ToyOpt.rat fun _ => ⟨1, false, [1]⟩)).1

theorem second_elsewhere : ∀ a ∈ second, Elsewhere 0 0 a := by
  intro a ha
  simp only [second, List.mem_cons, List.not_mem_nil, or_false] at ha
  rcases ha with rfl | rfl
  · exact Nat.one_ne_zero
  · exact Nat.one_ne_zero

end C115

/-- **C115** is false of the code for an optimizer that has not prepared its covariances yet: the Jacobian is taken from the graph,
which holds the one of the other optimizer's last iteration. The first optimizer has ended with SUCCESS and reports the
variance `1/4`; with a step of the second optimizer in between, it reports `1/25`. -/
theorem C115_unprepared_false :
    ((C115.after C115.start).opts 0).stats.status = .success ∧
    C29.report (view (C115.after (C115.start ++ [.prepare ToyOpt.env 0])) 0) (some 0) = .ok (some [1 / 4]) ∧
    C29.report (view (C115.after (C115.start ++ C115.second ++ [.prepare ToyOpt.env 0])) 0) (some 0) = .ok (some [1 / 25]) ∧
    ∀ a ∈ C115.second, Elsewhere 0 0 a := by
  refine ⟨?_, ?_, ?_, C115.second_elsewhere⟩ <;> decide +kernel

/-- With the covariances prepared in time, the second optimizer makes no difference, although it changes the variable. -/
example := C115_kept_partial ToyOpt.rat Ldlt.linAlg (C115.after (C115.start ++ [.prepare ToyOpt.env 0])) 0 0 (by decide +kernel)
  C115.second C115.second_elsewhere (by
    have h : (run ToyOpt.rat Ldlt.linAlg C115.second (C115.after (C115.start ++ [.prepare ToyOpt.env 0]))).2.map Prod.snd =
      [.ok (), .ok ()] := by decide +kernel
    intro p hp
    have := List.mem_map_of_mem (f := Prod.snd) hp
    rw [h] at this
    simp at this
    rw [this]
    simp)

example : ((C115.after (C115.start ++ C115.second)).heap 0).value ≠ ((C115.after C115.start).heap 0).value := by decide +kernel

end Factorama.Props
