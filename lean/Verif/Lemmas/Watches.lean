import Verif.Lemmas.Mute
import Verif.Spec.Watches
import Verif.Props.Stopwatch

/-!
# Which stopwatch runs
-/

set_option linter.unusedSectionVars false

namespace Factorama.Opt
open Spec Graph
variable {F V Fact : Type} [Zero F] [VarLike F V]

/-- The watch that runs after an action, if one ran at most before; `none` when a second one is started. -/
def turn (c : Option Watch) : Act F → Option (Option Watch)
  | .press w .start => match c with
    | none => some (some w)
    | some w' => if w' = w then some c else none
  | .press w _ => if c = some w then some none else some c
  | .print _ => some c

/-- The same for a sequence of actions. -/
def turns (c : Option Watch) : List (Act F) → Option (Option Watch)
  | [] => some c
  | a :: l => match turn c a with
    | none => none
    | some c' => turns c' l

theorem turns_append {c c' : Option Watch} {l l' : List (Act F)} (h : turns c l = some c') :
    turns c (l ++ l') = turns c' l' := by
  induction l generalizing c with
  | nil => simp only [turns, Option.some.injEq] at h; subst h; rfl
  | cons a l ih =>
    simp only [turns, List.cons_append] at h ⊢
    cases e : turn c a with
    | none => simp [e] at h
    | some c1 => simp only [e] at h ⊢; exact ih h

section
variable {α β : Type} {I : OptWorld F V Fact → Prop} {B : Act F → Prop} {c q : Option Watch}
  {Post : Option Watch → OptWorld F V Fact → Prop}

/-- Started with watch `c` running, `m` prints something with `B` or never runs two watches at once, and if it returns, `Post`
holds for the watch that runs then. -/
structure Turns (I : OptWorld F V Fact → Prop) (B : Act F → Prop) (c : Option Watch)
    (Post : Option Watch → OptWorld F V Fact → Prop) (m : SE (Talk F V Fact) α) : Prop where
  adds : Adds I (fun _ => True) m
  run : ∀ t, I t.world → ∀ l, (m t).1.acts = t.acts ++ l → (∃ a ∈ l, B a) ∨ ∃ c', turns c l = some c' ∧
    ∀ a, (m t).2 = .ok a → Post c' (m t).1.world

theorem Turns.bind {m : SE (Talk F V Fact) α} {k : α → SE (Talk F V Fact) β} (hm : Turns I B c (fun c' _ => c' = q) m)
    (hk : ∀ a, Turns I B q Post (k a)) : Turns I B c Post (SE.bind m k) := by
  refine ⟨.bind hm.adds fun a => (hk a).adds, fun t ht l hl => ?_⟩
  obtain ⟨h0, l1, h1, -⟩ := hm.adds t ht
  have h2 := hm.run t ht l1 h1
  rcases e : m t with ⟨t1, r⟩
  rw [e] at h0 h1 h2
  dsimp only at h0 h1 h2
  cases r with
  | ok a =>
    rw [SE.bind_ok e] at hl ⊢
    obtain ⟨h5, l2, h3, -⟩ := (hk a).adds t1 h0
    have hl2 : l = l1 ++ l2 := by rw [h3, h1, List.append_assoc] at hl; exact (List.append_cancel_left hl).symm
    subst hl2
    rcases h2 with ⟨x, hx, hb⟩ | ⟨c', h2, h2'⟩
    · exact .inl ⟨x, by simp [hx], hb⟩
    obtain rfl := h2' a rfl
    rcases (hk a).run t1 h0 l2 h3 with ⟨x, hx, hb⟩ | ⟨c', h4, h4'⟩
    · exact .inl ⟨x, by simp [hx], hb⟩
    · exact .inr ⟨c', by rw [turns_append h2]; exact h4, h4'⟩
  | threw =>
    rw [SE.bind_threw e] at hl ⊢
    obtain rfl := List.append_cancel_left (h1.symm.trans hl)
    rcases h2 with h2 | ⟨c', h2, -⟩
    · exact .inl h2
    · exact .inr ⟨c', h2, by simp⟩
  | ub =>
    rw [SE.bind_ub e] at hl ⊢
    obtain rfl := List.append_cancel_left (h1.symm.trans hl)
    rcases h2 with h2 | ⟨c', h2, -⟩
    · exact .inl h2
    · exact .inr ⟨c', h2, by simp⟩

/-- Nothing is added. -/
theorem Turns.quiet {m : SE (Talk F V Fact) α} (ha : Adds I (fun _ => True) m) (hq : ∀ t, (m t).1.acts = t.acts)
    (hp : ∀ t a, I t.world → (m t).2 = .ok a → Post c (m t).1.world) : Turns I B c Post m := by
  refine ⟨ha, fun t ht l hl => ?_⟩
  have : l = [] := by
    have := (hq t).symm.trans hl
    simpa using this
  subst this
  exact .inr ⟨c, rfl, fun a e => hp t a ht e⟩

theorem Turns.silently (hA : Allows I fun _ => True) {m : SE (OptWorld F V Fact) α} (h : FlagBlind m) :
    Turns I B c (fun c' _ => c' = c) (silently m) := .quiet (.silently hA h) (fun _ => rfl) fun _ _ _ _ => rfl

theorem Turns.look {k : OptWorld F V Fact → SE (Talk F V Fact) β} (hk : ∀ s, Turns I B c Post (k s)) :
    Turns I B c Post (SE.bind look k) := ⟨.look fun s => (hk s).adds, fun t ht => (hk t.world).run t ht⟩

theorem Turns.ret (a : α) : Turns I B c (fun c' _ => c' = c) (SE.ret a : SE (Talk F V Fact) α) :=
  .quiet (.ret a) (fun _ => rfl) fun _ _ _ _ => rfl
theorem Turns.throw : Turns I B c Post (SE.throw : SE (Talk F V Fact) α) :=
  .quiet .throw (fun _ => rfl) fun _ _ _ e => by simp [SE.throw] at e
theorem Turns.undefined : Turns I B c Post (SE.undefined : SE (Talk F V Fact) α) :=
  .quiet .undefined (fun _ => rfl) fun _ _ _ e => by simp [SE.undefined] at e

theorem Turns.act {a : Act F} (h : turn c a = some q) : Turns I B c (fun c' _ => c' = q) (act a : SE (Talk F V Fact) Unit) := by
  refine ⟨.act trivial, fun t ht l hl => ?_⟩
  obtain rfl : l = [a] := (List.append_cancel_left hl).symm
  exact .inr ⟨q, by simp [turns, h], fun _ _ => rfl⟩

theorem Turns.say' (hA : Allows I fun _ => True) (m : Message F) (hp : ∀ s, Post c s) :
    Turns I B c Post (say m : SE (Talk F V Fact) Unit) := by
  refine ⟨.say hA m, fun t ht l hl => ?_⟩
  simp only [Opt.say] at hl ⊢
  split at hl
  · obtain rfl : l = [.print m] := (List.append_cancel_left hl).symm
    exact .inr ⟨c, rfl, fun _ _ => hp _⟩
  · have : l = [] := by simpa using hl
    subst this
    exact .inr ⟨c, rfl, fun _ _ => hp _⟩

theorem Turns.say (hA : Allows I fun _ => True) (m : Message F) :
    Turns I B c (fun c' _ => c' = c) (say m : SE (Talk F V Fact) Unit) := .say' hA m fun _ => rfl

theorem Turns.imp {Post' : Option Watch → OptWorld F V Fact → Prop} {m : SE (Talk F V Fact) α} (h : Turns I B c Post m)
    (hp : ∀ c' s, Post c' s → Post' c' s) : Turns I B c Post' m :=
  ⟨h.adds, fun t ht l hl => (h.run t ht l hl).imp id fun ⟨c', h1, h2⟩ => ⟨c', h1, fun a e => hp _ _ (h2 a e)⟩⟩

/-- Where a message with `B` is printed for sure, nothing else matters. -/
theorem Turns.bad (hA : Allows I fun _ => True) (hv : ∀ s, I s → s.opt.settings.verbose = true) {m : Message F} (hB : B (.print m))
    {k : Unit → SE (Talk F V Fact) β} (hk : ∀ a, Adds I (fun _ => True) (k a)) :
    Turns I B c Post (SE.bind (Opt.say m) k) := by
  refine ⟨.bind (.say hA m) hk, fun t ht l hl => .inl ⟨.print m, ?_, hB⟩⟩
  have e : Opt.say m t = (⟨t.world, t.acts ++ [.print m]⟩, .ok ()) := by
    rw [Opt.say, if_pos (hv _ ht)]; rfl
  rw [SE.bind_ok e] at hl
  obtain ⟨-, l2, h2, -⟩ := hk () ⟨t.world, t.acts ++ [.print m]⟩ ht
  rw [h2, List.append_assoc] at hl
  rw [← List.append_cancel_left hl]
  simp

/-- Code between `start()` and `stop()`. -/
theorem Turns.timed (hA : Allows I fun _ => True) {m : SE (OptWorld F V Fact) α} (h : FlagBlind m) (w : Watch)
    {k : α → SE (Talk F V Fact) β} (hk : ∀ a, Turns I B none Post (k a)) :
    Turns I B none Post (SE.bind (startWatch w) fun _ => SE.bind (Opt.silently m) fun a => SE.bind (stopWatch w) fun _ => k a) :=
  .bind (.act (q := some w) rfl) fun _ => .bind (.silently hA h) fun a =>
    .bind (.act (q := none) (by simp [turn])) fun _ => hk a

/-- The watch that runs after a step: none, unless the step failed. -/
def Settled (c : Option Watch) (s : OptWorld F V Fact) : Prop := c = none ∨ s.opt.stats.status = .failed

theorem Turns.gaussNewton (hA : Allows I fun _ => True) (A : Arith F) (L : LinAlg F Fact) (env : Env F V) :
    Turns I B none Settled (gaussNewtonStepV A L env : SE (Talk F V Fact) Unit) := by
  refine .look fun s0 => ?_
  split
  · exact .throw
  refine .timed hA (.evalResidual1 env) .residual fun _ => .timed hA .evalSparse .jacobian fun J => .look fun s =>
    .bind (.act (q := some .hessian) rfl) fun _ => .bind (.act (q := none) rfl) fun _ =>
    .bind (.act (q := some .solve) rfl) fun _ => ?_
  dsimp only
  have fin : ∀ m : Message F, Turns I B none Settled (Opt.say m : SE (Talk F V Fact) Unit) :=
    fun m => (Turns.say hA m).imp fun c' s h => .inl h
  split
  · refine .bind (.silently hA (.setSolver _)) fun _ => ?_
    refine ⟨.bind (.silently hA (.modStats _)) fun _ => .say hA _, fun t ht l hl => .inr ⟨some .solve, ?_, fun _ _ => .inr ?_⟩⟩
    · have e : Opt.silently (giveUp .failed) t = (⟨(giveUp .failed t.world).1, t.acts⟩, .ok ()) := rfl
      rw [SE.bind_ok e, Opt.say] at hl
      split at hl
      · obtain rfl := List.append_cancel_left hl; rfl
      · have : l = [] := by simpa using hl
        subst this; rfl
    · have e : Opt.silently (giveUp .failed) t = (⟨(giveUp .failed t.world).1, t.acts⟩, .ok ()) := rfl
      rw [SE.bind_ok e, Opt.say]
      split <;> rfl
  · refine .bind (.silently hA (.setSolver _)) fun _ => .bind (.act (q := none) rfl) fun _ => ?_
    split
    · exact .undefined
    split
    · exact .bind (.silently hA (.modStats _)) fun _ => fin _
    split
    · exact .bind (.silently hA (.modStats _)) fun _ => fin _
    split
    · exact .bind (.silently hA (.modStats _)) fun _ => fin _
    · exact .timed hA (.onHeap _) .updateVars fun _ => .bind (.silently hA (.evalResidual2 env)) fun _ =>
        .bind (.silently hA (.get (fun _ _ _ => rfl) fun _ => .modStats _)) fun _ => .look fun _ => fin _

/-- An action with such a message. -/
def Trouble (a : Act F) : Prop := ∃ m, a = .print m ∧ m.isTrouble = true

theorem Turns.lmTrials (hA : Allows I fun _ => True) (hv : ∀ s, I s → s.opt.settings.verbose = true) (A : Arith F)
    (L : LinAlg F Fact) (env : Env F V) (J : SpMat F) (cost : F) :
    ∀ (k : Nat) (dx : List F), Turns I Trouble none (fun c' _ => c' = none) (lmTrialsV A L env J cost k dx : SE (Talk F V Fact) _)
  | 0, dx => .ret _
  | k + 1, dx => by
    have ih := Turns.lmTrials hA hv A L env J cost k
    refine .look fun s => .bind (.act (q := some .hessian) rfl) fun _ => .bind (.act (q := none) rfl) fun _ =>
      .bind (.act (q := some .solve) rfl) fun _ => ?_
    dsimp only
    split
    · exact .bind (.silently hA (.setSolver _)) fun _ => .bind (.silently hA (.raiseLambda A)) fun _ => .look fun _ =>
        .bad hA hv ⟨_, rfl, rfl⟩ fun _ => .lmTrials hA A L env J cost k dx
    · refine .bind (.silently hA (.setSolver _)) fun _ => ?_
      split
      · exact .undefined
      split
      · exact .bind (.silently hA (.raiseLambda A)) fun _ => .look fun _ =>
          .bad hA hv ⟨_, rfl, rfl⟩ fun _ => .lmTrials hA A L env J cost k dx
      split
      · exact .bind (.silently hA (.raiseLambda A)) fun _ => .look fun _ =>
          .bad hA hv ⟨_, rfl, rfl⟩ fun _ => .lmTrials hA A L env J cost k _
      · refine .bind (.act (q := none) rfl) fun _ => .timed hA (.onHeap _) .updateVars fun _ =>
          .timed hA (.evalResidual2 env) .residual fun _ => .look fun s' => ?_
        split
        · exact .bind (.silently hA (.modStats _)) fun _ => .look fun _ => .bind (.say hA _) fun _ => .ret _
        · refine .bind (.act (q := some .updateVars) rfl) fun _ => .bind (.silently hA (.onHeap _)) fun _ =>
            .bind (.silently hA (.modStats _)) fun _ => .look fun s'' => .bind (.say hA _) fun _ => ?_
          split
          · exact .bad hA hv ⟨_, rfl, rfl⟩ fun _ => .ret _
          · exact .bind (.act (q := none) rfl) fun _ => ih _

theorem Turns.levenbergMarquardt (hA : Allows I fun _ => True) (hv : ∀ s, I s → s.opt.settings.verbose = true) (A : Arith F)
    (L : LinAlg F Fact) (env : Env F V) :
    Turns I Trouble none (fun c' _ => c' = none) (levenbergMarquardtStepV A L env : SE (Talk F V Fact) Unit) := by
  refine .look fun s0 => ?_
  split
  · exact .throw
  refine .timed hA (.evalResidual1 env) .residual fun _ => .timed hA .evalSparse .jacobian fun J => .look fun s =>
    .bind (.silently hA (.modStats _)) fun _ => .bind (.lmTrials hA hv A L env J _ 5 []) fun res =>
    .bind (q := none) ?_ fun _ => .look fun _ => .say hA _
  split
  · exact .silently hA (.get (fun _ _ _ => rfl) fun _ => .modStats _)
  · refine .bind (.silently hA ?_) fun _ => .bind (.say hA _) fun _ => .bind (.silently hA fun _ _ _ => rfl) fun _ =>
      .silently hA (.get (fun _ _ _ => rfl) fun _ => .modStats _)
    refine .get (fun _ _ _ => rfl) fun s => ?_
    split
    · exact .modStats _
    · exact .modStats _

/-- The loop, given what a step does. -/
theorem Turns.iterate (hA : Allows I fun _ => True) (A : Arith F) (L : LinAlg F Fact) (env : Env F V)
    (hstep : Turns I B none Settled (oneStepV A L env : SE (Talk F V Fact) Unit)) :
    ∀ n i, Turns I B none (fun _ _ => True) (iterateV A L env n i : SE (Talk F V Fact) Unit)
  | 0, _ => (Turns.ret _).imp fun _ _ _ => trivial
  | n + 1, i => by
    have ih := Turns.iterate hA A L env hstep n
    have hgo : ∀ (r : Stats F × Bool) (m : Option (Message F)), Turns I B none (fun _ _ => True)
        (SE.bind (Opt.sayIfAny m) (fun _ => SE.bind (Opt.silently (modStats fun _ => r.1)) fun _ =>
          if r.2 then SE.ret () else iterateV A L env n (i + 1)) : SE (Talk F V Fact) Unit) := by
      intro r m
      refine .bind (q := none) ?_ fun _ => .bind (.silently hA (.modStats _)) fun _ => ?_
      · cases m with
        | none => exact .ret _
        | some m => exact .say hA m
      · split
        · exact (Turns.ret _).imp fun _ _ _ => trivial
        · exact ih _
    refine .look fun s => .bind (q := none) ?_ fun _ => ?_
    · unfold sayHeader
      split
      · exact .say hA _
      · exact .ret _
    have hadds : ∀ (t t' : Talk F V Fact) (l : List (Act F)), I t'.world → t'.acts = t.acts ++ l →
        ∀ (m : SE (Talk F V Fact) Unit), Adds I (fun _ => True) m →
        I (m t').1.world ∧ ∃ l, (m t').1.acts = t.acts ++ l ∧ ∀ a ∈ l, True := by
      intro t t' l h0 h1 m hm
      obtain ⟨h5, l', h3, h4⟩ := hm t' h0
      exact ⟨h5, l ++ l', by rw [h3, h1, List.append_assoc], fun _ _ => trivial⟩
    have herr : Turns I B none (fun _ _ => True)
      (SE.bind (Opt.act (.print (.errorInIteration i))) (fun _ => Opt.silently (giveUp .failed)) : SE (Talk F V Fact) Unit) :=
      .bind (.act (q := none) rfl) fun _ => (Turns.silently hA (.modStats _)).imp fun _ _ _ => trivial
    refine ⟨fun t ht => ?_, fun t ht l hl => ?_⟩
    · obtain ⟨h0, l, h1, -⟩ := hstep.adds t ht
      dsimp only
      rcases e : oneStepV A L env t with ⟨t', r⟩
      rw [e] at h0 h1
      cases r with
      | ub => exact ⟨h0, l, h1, fun _ _ => trivial⟩
      | threw => exact hadds t t' l h0 h1 _ herr.adds
      | ok u => exact hadds t t' l h0 h1 _ (hgo _ _).adds
    · obtain ⟨h0, l1, h1, -⟩ := hstep.adds t ht
      have h2 := hstep.run t ht l1 h1
      dsimp only at hl ⊢
      rcases e : oneStepV A L env t with ⟨t', r⟩
      rw [e] at h0 h1 h2 hl
      dsimp only at h0 h1 h2 hl
      cases r with
      | ub =>
        obtain rfl := List.append_cancel_left (h1.symm.trans hl)
        exact h2.imp id fun ⟨c', h, _⟩ => ⟨c', h, fun _ _ => trivial⟩
      | threw =>
        dsimp only at hl
        have hl2 : l = l1 ++ [.print (.errorInIteration i)] := by
          have : t'.acts ++ [.print (.errorInIteration i)] = t.acts ++ l := hl
          rw [h1, List.append_assoc] at this
          exact (List.append_cancel_left this).symm
        subst hl2
        rcases h2 with ⟨x, hx, hb⟩ | ⟨c', h, _⟩
        · exact .inl ⟨x, by simp [hx], hb⟩
        · exact .inr ⟨c', by rw [turns_append h]; rfl, fun _ _ => trivial⟩
      | ok u =>
        dsimp only at hl
        obtain ⟨h5, l2, h3, -⟩ := (hgo (afterStep A t'.world.opt.settings t'.world.opt.initialStats s.opt.stats t'.world.opt.stats)
          (afterStepSays A t'.world.opt.settings t'.world.opt.initialStats s.opt.stats t'.world.opt.stats)).adds t' h0
        have hl2 : l = l1 ++ l2 := by
          rw [h3, h1, List.append_assoc] at hl
          exact (List.append_cancel_left hl).symm
        subst hl2
        rcases h2 with ⟨x, hx, hb⟩ | ⟨c', h, hset⟩
        · exact .inl ⟨x, by simp [hx], hb⟩
        rcases hset () rfl with rfl | hf
        · rcases (hgo _ _).run t' h0 l2 h3 with ⟨x, hx, hb⟩ | ⟨c', h6, _⟩
          · exact .inl ⟨x, by simp [hx], hb⟩
          · exact .inr ⟨c', by rw [turns_append h]; exact h6, fun _ _ => trivial⟩
        · -- the run stops after a failure
          have hr : (afterStep A t'.world.opt.settings t'.world.opt.initialStats s.opt.stats t'.world.opt.stats).2 = true := by
            simp [afterStep, hf]
          have hs : Turns I B c' (fun _ _ => True)
              (SE.bind (Opt.sayIfAny (afterStepSays A t'.world.opt.settings t'.world.opt.initialStats s.opt.stats t'.world.opt.stats))
                (fun _ => SE.bind (Opt.silently (modStats fun _ => (afterStep A t'.world.opt.settings t'.world.opt.initialStats
                  s.opt.stats t'.world.opt.stats).1)) fun _ =>
                if (afterStep A t'.world.opt.settings t'.world.opt.initialStats s.opt.stats t'.world.opt.stats).2 then SE.ret ()
                else iterateV A L env n (i + 1)) : SE (Talk F V Fact) Unit) := by
            refine .bind (q := c') ?_ fun _ => .bind (.silently hA (.modStats _)) fun _ => ?_
            · cases afterStepSays A t'.world.opt.settings t'.world.opt.initialStats s.opt.stats t'.world.opt.stats with
              | none => exact .ret _
              | some m => exact .say hA m
            · rw [hr]
              exact (Turns.ret _).imp fun _ _ _ => trivial
          rcases hs.run t' h0 l2 h3 with ⟨x, hx, hb⟩ | ⟨c'', h6, _⟩
          · exact .inl ⟨x, by simp [hx], hb⟩
          · exact .inr ⟨c'', by rw [turns_append h]; exact h6, fun _ _ => trivial⟩

/-- A whole run, given what a step does. -/
theorem Turns.optimize (hA : Allows I fun _ => True) (A : Arith F) (L : LinAlg F Fact) (env : Env F V)
    (hstep : Turns I B none Settled (oneStepV A L env : SE (Talk F V Fact) Unit)) :
    Turns I B none (fun _ _ => True) (optimizeV A L env : SE (Talk F V Fact) Unit) := by
  refine .look fun s0 => ?_
  split
  · exact .throw
  refine .bind (.silently hA (.modStats _)) fun _ => .bind (.act (q := none) rfl) fun _ => .bind (.act (q := none) rfl) fun _ =>
    .bind (.act (q := none) rfl) fun _ => .bind (.act (q := none) rfl) fun _ => .bind (.act (q := none) rfl) fun _ =>
    .bind (.silently hA (.evalInitial env)) fun _ => .bind (.silently hA (.modStats _)) fun _ =>
    .bind (.silently hA fun _ _ _ => rfl) fun _ => .look fun _ => .bind (.say hA _) fun _ => ?_
  -- after the loop any watch may run, and no more is started
  have htail : ∀ c, Turns I B c (fun _ _ => True) (SE.bind (Opt.silently (modStats fun st : Stats F =>
      if st.status = .running then { st with status := .success } else st)) fun _ => SE.bind Opt.look fun s2 =>
      SE.bind (Opt.say (.summary (runSummary A s2.opt))) fun _ => Opt.silently (modOpt fun o => { o with complete := true }) :
      SE (Talk F V Fact) Unit) := fun c => .bind (.silently hA (.modStats _)) fun _ => .look fun _ => .bind (.say hA _) fun _ =>
      (Turns.silently hA fun _ _ _ => rfl).imp fun _ _ _ => trivial
  have hit := Turns.iterate hA A L env hstep s0.opt.settings.maxIterations 0
  refine ⟨.bind hit.adds fun _ => (htail none).adds, fun t ht l hl => ?_⟩
  obtain ⟨h0, l1, h1, -⟩ := hit.adds t ht
  have h2 := hit.run t ht l1 h1
  rcases e : iterateV A L env s0.opt.settings.maxIterations 0 t with ⟨t1, r⟩
  rw [e] at h0 h1 h2
  dsimp only at h0 h1 h2
  cases r with
  | ok a =>
    rw [SE.bind_ok e] at hl
    obtain ⟨h5, l2, h3, -⟩ := (htail none).adds t1 h0
    have hl2 : l = l1 ++ l2 := by rw [h3, h1, List.append_assoc] at hl; exact (List.append_cancel_left hl).symm
    subst hl2
    rcases h2 with ⟨x, hx, hb⟩ | ⟨c', h2, _⟩
    · exact .inl ⟨x, by simp [hx], hb⟩
    rcases (htail c').run t1 h0 l2 h3 with ⟨x, hx, hb⟩ | ⟨c'', h4, _⟩
    · exact .inl ⟨x, by simp [hx], hb⟩
    · exact .inr ⟨c'', by rw [turns_append h2]; exact h4, fun _ _ => trivial⟩
  | threw =>
    rw [SE.bind_threw e] at hl
    obtain rfl := List.append_cancel_left (h1.symm.trans hl)
    exact h2.imp id fun ⟨c', h, _⟩ => ⟨c', h, fun _ _ => trivial⟩
  | ub =>
    rw [SE.bind_ub e] at hl
    obtain rfl := List.append_cancel_left (h1.symm.trans hl)
    exact h2.imp id fun ⟨c', h, _⟩ => ⟨c', h, fun _ _ => trivial⟩

end
end Factorama.Opt

namespace Factorama.Opt
open Spec
variable {F : Type}

/-- The sum over the five watches. -/
def fiveSum (f : Watch → Int) : Int := f .residual + f .jacobian + f .hessian + f .solve + f .updateVars

theorem fiveSum_le {f g : Watch → Int} (h : ∀ w, f w ≤ g w) : fiveSum f ≤ fiveSum g := by
  have h1 := h .residual
  have h2 := h .jacobian
  have h3 := h .hessian
  have h4 := h .solve
  have h5 := h .updateVars
  unfold fiveSum
  omega

/-- Watches of which `c` is the only one that runs, at a time that is not before its start. -/
structure OneRuns (W : Watch → Stopwatch) (c : Option Watch) (now : Nat) : Prop where
  running : ∀ w, (W w).isRunning = true ↔ c = some w
  start : ∀ w, (W w).isRunning = true → (W w).startTime ≤ now
  nonneg : ∀ w, 0 ≤ (W w).accumulated

/-- Time passes for one watch at most. -/
theorem OneRuns.wait {W : Watch → Stopwatch} {c : Option Watch} {now later : Nat} (h : OneRuns W c now) (hl : now ≤ later) :
    fiveSum (fun w => (W w).elapsed later) ≤ fiveSum (fun w => (W w).elapsed now) + (later - now) := by
  have key : ∀ w, (W w).elapsed later = (W w).elapsed now + if c = some w then (later : Int) - now else 0 := by
    intro w
    have := h.running w
    unfold Stopwatch.elapsed
    by_cases hc : c = some w
    · rw [if_pos (this.2 hc), if_pos (this.2 hc), if_pos hc]; omega
    · rw [if_neg (fun e => hc (this.1 e)), if_neg (fun e => hc (this.1 e)), if_neg hc]; omega
  simp only [fiveSum, key]
  match c with
  | none => simp; omega
  | some .residual | some .jacobian | some .hessian | some .solve | some .updateVars => simp; omega

/-- The calls on watch `w` in one action. -/
def pressed (w : Watch) (n : Nat) : Act F → Stopwatch → Stopwatch
  | .press w' p, s => if w' = w then Stopwatch.press s (n, p) else s
  | .print _, s => s

theorem pressesOf_cons (w : Watch) (n : Nat) (a : Act F) (es : List (Nat × Act F)) (s : Stopwatch) :
    (pressesOf w ((n, a) :: es)).foldl Stopwatch.press s = (pressesOf w es).foldl Stopwatch.press (pressed w n a s) := by
  cases a with
  | print m => rfl
  | press w' p =>
    simp only [pressesOf, pressed]
    split <;> rfl

/-- A call that does not start a second watch. -/
theorem OneRuns.press {W : Watch → Stopwatch} {c c' : Option Watch} {n : Nat} (h : OneRuns W c n) {a : Act F}
    (ha : turn c a = some c') : OneRuns (fun w => pressed w n a (W w)) c' n ∧
      ∀ w, (pressed w n a (W w)).elapsed n ≤ (W w).elapsed n := by
  obtain ⟨h1, h2, h3⟩ := h
  cases a with
  | print m =>
    simp only [turn, Option.some.injEq] at ha
    subst ha
    exact ⟨⟨h1, h2, h3⟩, fun w => Int.le_refl _⟩
  | press w' p =>
    refine ⟨⟨fun w => ?_, fun w => ?_, fun w => ?_⟩, fun w => ?_⟩ <;>
      (have r1 := h1 w; have r2 := h2 w; have r3 := h3 w
       generalize W w = s at r1 r2 r3
       obtain ⟨b, acc, st⟩ := s
       by_cases hw : w' = w <;> cases p <;> cases b <;> cases c <;>
         simp only [hw, if_true, if_false, turn, pressed, Stopwatch.press, Stopwatch.start, Stopwatch.stop, Stopwatch.reset, Stopwatch.elapsed] at ha r1 r2 r3 ⊢ <;>
         grind)

/-- With at most one watch running at any time the times add up to no more than the time passed. -/
theorem OneRuns.total {es : List (Nat × Act F)} : ∀ {W : Watch → Stopwatch} {c c' : Option Watch} {t0 now : Nat},
    OneRuns W c t0 → turns c (es.map (·.2)) = some c' → es.Pairwise (fun a b => a.1 ≤ b.1) → (∀ e ∈ es, t0 ≤ e.1) →
    t0 ≤ now → (∀ e ∈ es, e.1 ≤ now) →
    fiveSum (fun w => ((pressesOf w es).foldl Stopwatch.press (W w)).elapsed now) ≤
      fiveSum (fun w => (W w).elapsed t0) + (now - t0) := by
  induction es with
  | nil => intro W c c' t0 now h _ _ _ hn _; exact h.wait hn
  | cons e es ih =>
    intro W c c' t0 now h ht hp h0 hn hnow
    obtain ⟨n, a⟩ := e
    simp only [List.map_cons, turns] at ht
    cases hc : turn c a with
    | none => simp [hc] at ht
    | some c1 =>
      simp only [hc] at ht
      have hn0 : t0 ≤ n := h0 (n, a) (by simp)
      have hn1 : n ≤ now := hnow (n, a) (by simp)
      have hwait := h.wait hn0
      have h' : OneRuns W c n := ⟨h.running, fun w hw => Nat.le_trans (h.start w hw) hn0, h.nonneg⟩
      obtain ⟨h1, h2⟩ := h'.press hc
      obtain ⟨hp1, hp2⟩ := List.pairwise_cons.1 hp
      have := ih h1 ht hp2 (fun e he => hp1 e he) hn1 fun e he => hnow e (by simp [he])
      simp only [pressesOf_cons]
      have h3 := fiveSum_le h2
      omega

end Factorama.Opt
