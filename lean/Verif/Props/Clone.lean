import Verif.Lemmas.Blind
import Verif.Lemmas.Determined
import Verif.Spec.Clone
import Verif.Props.Lifetime

/-!
# C112: copies of variables
-/

namespace Factorama.Props
open Spec Graph Opt Cloning
variable {F V Fact : Type} [Zero F] [VarLike F V]

namespace C112

/-- The state with another object at `c`. -/
def at' (c : VRef) (v : V) (s : OptWorld F V Fact) : OptWorld F V Fact := { s with heap := s.heap.set c v }

theorem at_eq (c : VRef) (v : V) (s : OptWorld F V Fact) : at' c v s = Life.maskW (· == c) (fun _ => v) s := by
  simp only [at', Life.maskW]
  congr 1
  funext r
  simp [Heap.set, Life.mask]

theorem run_append (A : Arith F) (L : LinAlg F Fact) (as bs : List (Cloning.Action F V)) (s : OptWorld F V Fact) :
    run A L (as ++ bs) s = ((run A L bs (run A L as s).1).1, (run A L as s).2 ++ (run A L bs (run A L as s).1).2) := by
  induction as generalizing s with
  | nil => rfl
  | cons a as ih => simp only [List.cons_append, run, ih]

abbrev Free (c : VRef) (g : Graph F V) : Prop := Life.Clear (· == c) (fun _ => True) g

theorem avoids {c : VRef} {env : Env F V} {call : Call F V} (h : LeavesAlone c (.call env call)) :
    Life.Avoids (fun _ => True) (· == c) call := by
  refine ⟨fun r hr => ?_, fun f hf => ⟨fun r hr => ?_, (h.2 f hf).2, trivial⟩⟩
  · rw [beq_eq_false_iff_ne]
    rintro rfl
    exact h.1 hr
  · rw [beq_eq_false_iff_ne]
    rintro rfl
    exact (h.2 f hf).1 hr

theorem act_free (A : Arith F) (L : LinAlg F Fact) {c : VRef} {a : Cloning.Action F V} (h : LeavesAlone c a)
    {s : OptWorld F V Fact} (hs : Free c s.graph) (v : V) :
    act A L a (at' c v s) = (at' c v (act A L a s).1, (act A L a s).2) ∧ Free c (act A L a s).1.graph := by
  cases a with
  | call env call =>
    have := Life.step_blind (junk := fun _ => v) A L env (avoids h) s hs
    rw [at_eq, at_eq]
    exact this
  | clone x y =>
    refine ⟨?_, hs⟩
    simp only [act, at']
    congr 2
    funext r
    have h1 : x ≠ c := h.1
    have h2 : y ≠ c := h.2
    by_cases e1 : r = y
    · subst e1; simp [Heap.set, h1, h2]
    · simp [Heap.set, e1]

theorem set_set (h : Heap V) (c : VRef) (v w : V) : (h.set c v).set c w = h.set c w := by
  funext r; simp only [Heap.set]; split <;> rfl

theorem mutate_at (h : Heap V) (c : VRef) (v : V) (f : V → Res V) :
    (mutate c f (h.set c v)).1 = h.set c (match f v with | .ok v' => v' | _ => v) := by
  have e : (h.set c v) c = v := by simp [Heap.set]
  unfold mutate
  rw [e]
  cases f v with
  | ok w => exact set_set h c v w
  | threw => rfl
  | ub => rfl

/-- A call on the object itself changes nothing else. -/
theorem act_object (A : Arith F) (L : LinAlg F Fact) {c : VRef} {a : Cloning.Action F V} (h : aboutObject c a = true)
    (s : OptWorld F V Fact) (v : V) : (act A L a (at' c v s)).1 = at' c (alone c [a] v) s := by
  cases a with
  | clone _ _ => cases h
  | call env call =>
    cases call with
    | setup _ _ => cases h
    | optimize => cases h
    | prepare => cases h
    | user op =>
      cases op with
      | setConstant r b =>
        obtain rfl : r = c := eq_of_beq h
        simp only [act, Opt.step, World.step, World.onHeap, at', mutate_at, alone, if_true]
      | setValue r x =>
        obtain rfl : r = c := eq_of_beq h
        simp only [act, Opt.step, World.step, World.onHeap, at', mutate_at, alone, if_true]
        cases VarLike.setValue v x <;> rfl
      | incrOne r x =>
        obtain rfl : r = c := eq_of_beq h
        simp only [act, Opt.step, World.step, World.onHeap, at', mutate_at, alone, if_true]
        cases VarLike.applyIncr v x <;> rfl
      | _ => cases h

theorem alone_cons (c : VRef) (a : Cloning.Action F V) (as : List (Cloning.Action F V)) (v : V) :
    alone c (a :: as) v = alone c as (alone c [a] v) := by
  rcases a with ⟨env, call⟩ | ⟨x, y⟩
  · rcases call with op | _ | _ | _
    · cases op <;> rfl
    · rfl
    · rfl
    · rfl
  · rfl

theorem alone_other {c : VRef} {a : Cloning.Action F V} (h : aboutObject c a = false) (v : V) : alone c [a] v = v := by
  rcases a with ⟨env, call⟩ | ⟨x, y⟩
  · rcases call with op | _ | _ | _
    · cases op with
      | setConstant r b => simp only [alone]; rw [if_neg (beq_eq_false_iff_ne.1 h)]
      | setValue r b => simp only [alone]; rw [if_neg (beq_eq_false_iff_ne.1 h)]
      | incrOne r b => simp only [alone]; rw [if_neg (beq_eq_false_iff_ne.1 h)]
      | _ => rfl
    · rfl
    · rfl
    · rfl
  · rfl

theorem run_free (A : Arith F) (L : LinAlg F Fact) {c : VRef} : ∀ (as : List (Cloning.Action F V)),
    (∀ a ∈ as, aboutObject c a = true ∨ LeavesAlone c a) → ∀ (s : OptWorld F V Fact), Free c s.graph → ∀ v,
    (run A L as (at' c v s)).1 = at' c (alone c as v) (run A L (others c as) s).1 ∧
    (run A L as (at' c v s)).2.filter (fun p => !aboutObject c p.1) = (run A L (others c as) s).2 ∧
    Free c (run A L (others c as) s).1.graph
  | [], _, s, hs, v => ⟨rfl, rfl, hs⟩
  | a :: as, h, s, hs, v => by
    have ih := run_free A L as (fun b hb => h b (List.mem_cons_of_mem _ hb))
    by_cases ha : aboutObject c a = true
    · have e : others c (a :: as) = others c as := by simp [others, ha]
      rw [e, alone_cons]
      have := act_object A L ha s v
      simp only [run, this]
      have := ih s hs (alone c [a] v)
      refine ⟨this.1, ?_, this.2.2⟩
      rw [List.filter_cons_of_neg (by simp [ha])]
      exact this.2.1
    · have hf := (h a (List.mem_cons_self ..)).resolve_left ha
      have hfalse : aboutObject c a = false := by simpa using ha
      have e : others c (a :: as) = a :: others c as := by simp [others, hfalse]
      obtain ⟨h1, h2⟩ := act_free A L hf hs v
      rw [e, alone_cons, alone_other hfalse]
      simp only [run, h1]
      have := ih _ h2 v
      refine ⟨this.1, ?_, this.2.2⟩
      rw [List.filter_cons_of_pos (by simp [hfalse])]
      exact congrArg _ this.2.1

/-- The object at an unused address is not touched. -/
theorem run_untouched (A : Arith F) (L : LinAlg F Fact) {c : VRef} (as : List (Cloning.Action F V))
    (h : ∀ a ∈ as, LeavesAlone c a) (s : OptWorld F V Fact) (hs : Free c s.graph) : Free c (run A L as s).1.graph := by
  induction as generalizing s with
  | nil => exact hs
  | cons a as ih =>
    exact ih (fun b hb => h b (List.mem_cons_of_mem _ hb)) _ (act_free A L (h a (List.mem_cons_self ..)) hs (s.heap c)).2

end C112

/-- **C112**, independence. A program copies a variable to a new object at an address it does not use before, and goes on; what
it does with the copy are calls on it. Then the copy ends up as it would if the same calls had been made on the original at
the moment of copying and nothing else had happened; and everything else — the graph, the optimizer with its results, the other
variables, the outcomes of the other calls — is as in the program without the copy. -/
theorem C112_independent (A : Arith F) (L : LinAlg F Fact) (h0 : Heap V) (pre post : List (Cloning.Action F V))
    (source copy : VRef) (hpre : ∀ a ∈ pre, LeavesAlone copy a)
    (hpost : ∀ a ∈ post, aboutObject copy a = true ∨ LeavesAlone copy a) :
    let atCopy := (run A L pre (init A h0)).1
    let with_ := run A L (pre ++ .clone source copy :: post) (init A h0)
    let without := run A L (pre ++ others copy post) (init A h0)
    with_.1.heap copy = alone copy post (atCopy.heap source) ∧
    with_.1.graph = without.1.graph ∧ with_.1.opt = without.1.opt ∧ (∀ r, r ≠ copy → with_.1.heap r = without.1.heap r) ∧
    ∃ before after, with_.2 = before ++ (.clone source copy, .ok ()) :: after ∧
      without.2 = before ++ after.filter fun p => !aboutObject copy p.1 := by
  have hfree : C112.Free copy (run A L pre (init A h0)).1.graph :=
    C112.run_untouched A L pre hpre _ ⟨by simp [Opt.init, Graph.init], by simp [Opt.init, Graph.init], by simp [Opt.init, Graph.init]⟩
  obtain ⟨h1, h2, h3⟩ := C112.run_free A L post hpost _ hfree ((run A L pre (init A h0)).1.heap source)
  dsimp only
  rw [C112.run_append, C112.run_append]
  have e : act A L (.clone source copy) (run A L pre (init A h0)).1 =
    (C112.at' copy ((run A L pre (init A h0)).1.heap source) (run A L pre (init A h0)).1, .ok ()) := rfl
  simp only [run, e, h1]
  refine ⟨by simp [C112.at', Heap.set], rfl, rfl, fun r hr => by simp [C112.at', Heap.set, hr], _, _, rfl, ?_⟩
  rw [h2]

namespace C112
/-- The small graph is built and optimized; the address 9 is not used. -/
def before : List (Cloning.Action Rat (GenVar Rat)) :=
  (ToyOpt.build.map Call.user ++ [Call.user .finalize, Call.setup true ToyOpt.gn]).map (.call ToyOpt.env)

/-- The copy is changed, the graph is optimized, the copy is changed again. -/
def later : List (Cloning.Action Rat (GenVar Rat)) :=
  [.call ToyOpt.env (.user (.setValue 9 [5, 6])), .call ToyOpt.env .optimize, .call ToyOpt.env (.user (.setConstant 9 true)),
   .call ToyOpt.env .prepare, .call ToyOpt.env (.user (.setValue 9 [1]))]

theorem before_apart : ∀ a ∈ before, LeavesAlone 9 a := by
  intro a ha
  simp [before, ToyOpt.build, ToyOpt.facs] at ha
  rcases ha with rfl | rfl | rfl | rfl | rfl | rfl | rfl <;>
    refine ⟨by simp [names], fun f hf => ?_⟩ <;> cases hf
  · exact ⟨by simp [genericPrior], C86.looksAtOwn_prior _ _ _ _⟩
  · exact ⟨by simp [genericBetween], C86.looksAtOwn_between _ _ _ _ _ _⟩

theorem later_apart : ∀ a ∈ later, aboutObject 9 a = true ∨ LeavesAlone 9 a := by
  intro a ha
  simp [later] at ha
  rcases ha with rfl | rfl | rfl | rfl | rfl
  · exact .inl rfl
  · exact .inr ⟨id, fun f hf => by cases hf⟩
  · exact .inl rfl
  · exact .inr ⟨id, fun f hf => by cases hf⟩
  · exact .inl rfl

end C112

/-- The copy of a variable of the small graph gets the value that is set, and keeps it while the original is optimized; a vector
of the wrong size is refused. -/
example : (run ToyOpt.rat Ldlt.linAlg (C112.before ++ .clone 0 9 :: C112.later) (init ToyOpt.rat ToyOpt.heap)).1.heap 9 =
    alone 9 C112.later ((run ToyOpt.rat Ldlt.linAlg C112.before (init ToyOpt.rat ToyOpt.heap)).1.heap 0) :=
  (C112_independent ToyOpt.rat Ldlt.linAlg ToyOpt.heap C112.before C112.later 0 9 C112.before_apart C112.later_apart).1

example : (alone 9 C112.later ((run ToyOpt.rat Ldlt.linAlg C112.before (init ToyOpt.rat ToyOpt.heap)).1.heap 0)).value = [5, 6] ∧
    ((run ToyOpt.rat Ldlt.linAlg (C112.before ++ others 9 C112.later) (init ToyOpt.rat ToyOpt.heap)).1.heap 0).value ≠
      (ToyOpt.heap 0).value := by
  decide +kernel

namespace C112
theorem alone_id [LawfulVar F V] (c : VRef) (as : List (Cloning.Action F V)) (v : V) : VarLike.id (alone c as v) = VarLike.id v := by
  induction as generalizing v with
  | nil => rfl
  | cons a as ih =>
    rw [alone_cons, ih]
    rcases a with ⟨env, call⟩ | ⟨x, y⟩
    · rcases call with op | _ | _ | _
      · cases op with
        | setConstant r b => simp only [alone]; split; exact LawfulVar.id_setConst _ _; rfl
        | setValue r b =>
          simp only [alone]
          split
          · split
            · rename_i h; exact LawfulVar.id_setValue _ _ _ h
            · rfl
          · rfl
        | incrOne r b =>
          simp only [alone]
          split
          · split
            · rename_i h; exact LawfulVar.id_applyIncr _ _ _ h
            · rfl
          · rfl
        | _ => rfl
      · rfl
      · rfl
      · rfl
    · rfl

/-- Without undefined behaviour, calls keep the ids of all objects and the registration of the variables. -/
theorem run_hist [LawfulVar F V] (A : Arith F) (L : LinAlg F Fact) (as : List (Cloning.Action F V))
    (hcall : ∀ a ∈ as, ∃ env call, a = .call env call) (s : OptWorld F V Fact) (hh : Hist s.heap s.graph)
    (hub : ∀ p ∈ (run A L as s).2, p.2 ≠ .ub) :
    Hist (run A L as s).1.heap (run A L as s).1.graph ∧ SameIds s.heap (run A L as s).1.heap ∧
      ∀ r ∈ s.graph.varsVec, r ∈ (run A L as s).1.graph.varsVec := by
  induction as generalizing s with
  | nil => exact ⟨hh, fun _ => rfl, fun _ h => h⟩
  | cons a as ih =>
    obtain ⟨env, call, rfl⟩ := hcall a (List.mem_cons_self ..)
    have he : step A L env call s = ((step A L env call s).1, (step A L env call s).2) := rfl
    have hr : (step A L env call s).2 ≠ .ub := hub _ (List.mem_cons_self ..)
    obtain ⟨h1, h2, h3⟩ := ih (fun b hb => hcall b (List.mem_cons_of_mem _ hb)) (step A L env call s).1 (hist_call he hr hh)
      (fun p hp => hub p (List.mem_cons_of_mem _ hp))
    have key : SameIds s.heap (step A L env call s).1.heap ∧ ∀ r ∈ s.graph.varsVec, r ∈ (step A L env call s).1.graph.varsVec := by
      by_cases hc : changesStructure call
      · cases call with
        | setup _ _ => exact hc.elim
        | optimize => exact hc.elim
        | prepare => exact hc.elim
        | user op =>
          cases op with
          | addVariable p =>
            refine ⟨fun _ => rfl, fun q0 hq => ?_⟩
            cases p with
            | none => exact hq
            | some q =>
              show q0 ∈ (addVariable s.heap (some q) s.graph).1.varsVec
              unfold addVariable
              dsimp only
              split
              · exact hq
              · exact List.mem_append_left _ hq
          | addFactor p =>
            refine ⟨fun _ => rfl, fun q0 hq => ?_⟩
            cases p with
            | none => exact hq
            | some q =>
              show q0 ∈ (addFactor (some q) s.graph).1.varsVec
              unfold addFactor
              dsimp only
              split <;> exact hq
          | setConstant r b =>
            refine ⟨fun q => ?_, fun _ h => h⟩
            simp only [Opt.step, World.step, World.onHeap, mutate, Heap.set]
            split
            · rename_i e; subst e; exact LawfulVar.id_setConst _ _
            · rfl
          | finalize =>
            refine ⟨fun _ => rfl, fun q0 hq => ?_⟩
            show q0 ∈ (finalizeStructure s.heap s.graph).1.varsVec
            have hv : (finalizeStructure s.heap s.graph).1.varsVec = s.graph.varsVec := by
              unfold finalizeStructure
              dsimp only
              repeat' split
              all_goals rfl
            rw [hv]
            exact hq
          | _ => exact hc.elim
      · obtain ⟨k, sh⟩ := kept_call hc he hr
        exact ⟨fun r => (sh r).1, fun r hr => k.varsVec ▸ hr⟩
    exact ⟨h1, fun r => (h2 r).trans (key.1 r), fun r hr => h3 r (key.2 r hr)⟩

end C112

/-- **C112**, the identifier. A copy has the identifier of the original. So, whatever has been done with the graph, its
variables and the copy since, the graph that has the original refuses the copy and stays as it is. -/
theorem C112_refused [LawfulVar F V] (A : Arith F) (L : LinAlg F Fact) (h0 : Heap V) (pre post : List (Cloning.Action F V))
    (source copy : VRef) (hcalls : ∀ a ∈ pre ++ post, ∃ env call, a = .call env call)
    (hpre : ∀ a ∈ pre, LeavesAlone copy a) (hpost : ∀ a ∈ post, aboutObject copy a = true ∨ LeavesAlone copy a)
    (hin : source ∈ (run A L pre (init A h0)).1.graph.getAllVariables)
    (hub : ∀ p ∈ (run A L (pre ++ .clone source copy :: post) (init A h0)).2, p.2 ≠ .ub) (env : Env F V) :
    let s := (run A L (pre ++ .clone source copy :: post) (init A h0)).1
    VarLike.id (s.heap copy) = VarLike.id (s.heap source) ∧
    step A L env (.user (.addVariable (some copy))) s = (s, .threw) := by
  obtain ⟨h1, h2, h3, h4, before, after, h5, h6⟩ := C112_independent A L h0 pre post source copy hpre hpost
  dsimp only
  have hub2 : ∀ p ∈ (run A L (pre ++ others copy post) (init A h0)).2, p.2 ≠ .ub := by
    intro p hp
    rw [h6] at hp
    apply hub
    rw [h5]
    rcases List.mem_append.1 hp with hp | hp
    · exact List.mem_append_left _ hp
    · exact List.mem_append_right _ (List.mem_cons_of_mem _ (List.mem_filter.1 hp).1)
  rw [C112.run_append] at hub2
  obtain ⟨a1, a2, a3⟩ := C112.run_hist A L pre (fun a ha => hcalls a (List.mem_append_left _ ha)) (init A h0) (Hist.init h0)
    (fun p hp => hub2 p (List.mem_append_left _ hp))
  obtain ⟨b1, b2, b3⟩ := C112.run_hist A L (others copy post)
    (fun a ha => hcalls a (List.mem_append_right _ (List.mem_filter.1 ha).1)) _ a1 (fun p hp => hub2 p (List.mem_append_right _ hp))
  have hrun := C112.run_append A L pre (others copy post) (init A h0)
  have hne : source ≠ copy := by
    rintro rfl
    have := (C112.run_untouched A L pre hpre (init A h0)
      ⟨by simp [Opt.init, Graph.init], by simp [Opt.init, Graph.init], by simp [Opt.init, Graph.init]⟩).vars _ hin
    simp at this
  have e1 : VarLike.id ((run A L (pre ++ .clone source copy :: post) (init A h0)).1.heap copy) =
      VarLike.id ((run A L pre (init A h0)).1.heap source) := by rw [h1, C112.alone_id]
  have e2 : VarLike.id ((run A L (pre ++ .clone source copy :: post) (init A h0)).1.heap source) =
      VarLike.id ((run A L pre (init A h0)).1.heap source) := by
    rw [h4 _ hne, hrun]
    exact b2 source
  refine ⟨e1.trans e2.symm, ?_⟩
  have hm : (run A L (pre ++ .clone source copy :: post) (init A h0)).1.graph.varsMap
      (VarLike.id ((run A L (pre ++ .clone source copy :: post) (init A h0)).1.heap copy)) = some source := by
    rw [h2, e1, hrun]
    exact (b1.reg.vars _ _).2 ⟨b3 _ hin, b2 source⟩
  simp [Opt.step, World.step, World.onGraph, addVariable, hm, Res.void]

example : step ToyOpt.rat Ldlt.linAlg ToyOpt.env (.user (.addVariable (some 9)))
      (run ToyOpt.rat Ldlt.linAlg (C112.before ++ .clone 0 9 :: C112.later) (init ToyOpt.rat ToyOpt.heap)).1 =
    ((run ToyOpt.rat Ldlt.linAlg (C112.before ++ .clone 0 9 :: C112.later) (init ToyOpt.rat ToyOpt.heap)).1, .threw) := by
  refine (C112_refused ToyOpt.rat Ldlt.linAlg ToyOpt.heap C112.before C112.later 0 9 ?_ C112.before_apart C112.later_apart ?_ ?_
    ToyOpt.env).2
  · intro a ha
    simp [C112.before, C112.later, ToyOpt.build, ToyOpt.facs] at ha
    rcases ha with rfl | rfl | rfl | rfl | rfl | rfl | rfl | rfl | rfl | rfl | rfl | rfl <;> exact ⟨_, _, rfl⟩
  · decide +kernel
  · have : ((run ToyOpt.rat Ldlt.linAlg (C112.before ++ .clone 0 9 :: C112.later) (init ToyOpt.rat ToyOpt.heap)).2.map (·.2)).all
        (· ≠ .ub) = true := by decide +kernel
    intro p hp
    simpa using List.all_eq_true.1 this _ (List.mem_map_of_mem hp)

end Factorama.Props
