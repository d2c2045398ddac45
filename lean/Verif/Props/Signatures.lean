import Verif.Model.Signatures

/-!
# C145: arguments of constructors called from Python
-/

namespace Factorama.Props
open Py
variable {α : Type}

/-- The specification: a call is accepted by a constructor if there are not too many positional arguments, every keyword names a
parameter that is not given by position, and every parameter without a default in the header is given. -/
structure C145.Accepted (c : Ctor) (pos : List α) (kw : List (String × α)) : Prop where
  few : pos.length ≤ c.py.length
  known : ∀ q ∈ kw, ∃ (i : Nat) (p : Param), pos.length ≤ i ∧ c.py[i]? = some p ∧ p.name = q.1
  given : ∀ (i : Nat) (p d : Param), pos.length ≤ i → c.py[i]? = some p → c.cpp[i]? = some d → d.dflt = none → ∃ q ∈ kw, q.1 = p.name

/-- The specification: what the constructor gets for its parameter number `i`. -/
inductive C145.Gets (c : Ctor) (pos : List α) (kw : List (String × α)) (i : Nat) : Arg α → Prop where
  | position (a : α) (h : pos[i]? = some a) : C145.Gets c pos kw i (.given a)
  | byName (a : α) (p : Param) (hi : pos.length ≤ i) (hp : c.py[i]? = some p) (hq : (p.name, a) ∈ kw) : C145.Gets c pos kw i (.given a)
  | omitted (d : Param) (x : Default) (hi : pos.length ≤ i) (hk : ∀ p, c.py[i]? = some p → ∀ a, (p.name, a) ∉ kw)
      (hd : c.cpp[i]? = some d) (hx : d.dflt = some x) : C145.Gets c pos kw i (.dflt x)

theorem C145.keyword_none {kw : List (String × α)} {n : String} : keyword kw n = none ↔ ∀ q ∈ kw, q.1 ≠ n := by
  unfold keyword
  simp

theorem C145.keyword_some {kw : List (String × α)} {n : String} {a : α} (h : keyword kw n = some a) : (n, a) ∈ kw := by
  unfold keyword at h
  obtain ⟨q, hq, rfl⟩ := Option.map_eq_some_iff.1 h
  have h1 := List.find?_some hq
  have h2 := List.mem_of_find?_eq_some hq
  have : q.1 = n := by simpa using h1
  rw [← this]
  exact h2

theorem C145.keyword_mem {kw : List (String × α)} (hk : (kw.map (·.1)).Nodup) {n : String} {a : α} (h : (n, a) ∈ kw) :
    keyword kw n = some a := by
  induction kw with
  | nil => cases h
  | cons q kw ih =>
    rw [List.map_cons, List.nodup_cons] at hk
    unfold keyword
    rw [List.find?_cons]
    rcases List.mem_cons.1 h with rfl | h
    · simp
    · have hne : q.1 ≠ n := fun e => hk.1 (e ▸ List.mem_map.2 ⟨(n, a), h, rfl⟩)
      simp only [decide_eq_false hne]
      exact ih hk.2 h

/-- The names used by a list of keyword arguments are among those of the parameters from number `k` on. -/
def C145.Known (ps : List Param) (k : Nat) (kw : List (String × α)) : Prop :=
  ∀ q ∈ kw, ∃ (i : Nat) (p : Param), k ≤ i ∧ ps[i]? = some p ∧ p.name = q.1

/-- What is bound to parameter `i`. -/
def C145.bound (ps : List Param) (pos : List α) (kw : List (String × α)) (i : Nat) : Option (Arg α) :=
  if i < pos.length then pos[i]?.map .given
  else ps[i]?.bind fun p => match keyword kw p.name with
    | some a => some (.given a)
    | none => p.dflt.map .dflt

theorem C145.keyword_filter {kw : List (String × α)} {n m : String} (h : m ≠ n) :
    keyword (kw.filter fun q => decide (q.1 ≠ n)) m = keyword kw m := by
  unfold keyword
  rw [List.find?_filter]
  congr 2
  funext q
  by_cases hq : q.1 = m <;> simp [hq, h]

theorem C145.known_pos {p : Param} {ps : List Param} {k : Nat} {kw : List (String × α)} :
    C145.Known (p :: ps) (k + 1) kw ↔ C145.Known ps k kw := by
  constructor
  · intro h q hq
    obtain ⟨i, p', hi, hp, hn⟩ := h q hq
    obtain ⟨j, rfl⟩ : ∃ j, i = j + 1 := ⟨i - 1, by omega⟩
    exact ⟨j, p', by omega, by simpa using hp, hn⟩
  · intro h q hq
    obtain ⟨i, p', hi, hp, hn⟩ := h q hq
    exact ⟨i + 1, p', by omega, by simpa using hp, hn⟩

theorem C145.known_filter {p : Param} {ps : List Param} (hn : p.name ∉ ps.map (·.name)) {kw : List (String × α)} :
    C145.Known (p :: ps) 0 kw ↔ C145.Known ps 0 (kw.filter fun q => decide (q.1 ≠ p.name)) := by
  constructor
  · intro h q hq
    rw [List.mem_filter] at hq
    obtain ⟨i, p', _, hp, hn'⟩ := h q hq.1
    cases i with
    | zero =>
      obtain rfl : p = p' := by simpa using hp
      exact absurd hn'.symm (by simpa using hq.2)
    | succ j => exact ⟨j, p', Nat.zero_le _, by simpa using hp, hn'⟩
  · intro h q hq
    by_cases hqn : q.1 = p.name
    · exact ⟨0, p, Nat.le_refl _, rfl, hqn.symm⟩
    · obtain ⟨i, p', _, hp, hn'⟩ := h q (List.mem_filter.2 ⟨hq, by simpa using hqn⟩)
      exact ⟨i + 1, p', Nat.zero_le _, by simpa using hp, hn'⟩

theorem C145.bind_iff (ps : List Param) (hn : (ps.map (·.name)).Nodup) (pos : List α) (kw : List (String × α)) (args : List (Arg α)) :
    bindArgs ps pos kw = some args ↔ pos.length ≤ ps.length ∧ C145.Known ps pos.length kw ∧ args.length = ps.length ∧
      ∀ i < ps.length, args[i]? = C145.bound ps pos kw i := by
  induction ps generalizing pos kw args with
  | nil =>
    cases pos with
    | nil =>
      cases kw with
      | nil =>
        simp only [bindArgs, C145.Known]
        constructor
        · rintro ⟨⟩; simp
        · rintro ⟨_, _, h, _⟩
          rw [List.length_nil] at h
          rw [List.length_eq_zero_iff.1 h]
      | cons q kw =>
        simp only [bindArgs]
        constructor
        · rintro ⟨⟩
        · rintro ⟨_, h, _⟩
          obtain ⟨i, p, _, hp, _⟩ := h q (by simp)
          simp at hp
    | cons a pos => simp [bindArgs]
  | cons p ps ih =>
    rw [List.map_cons, List.nodup_cons] at hn
    have later : ∀ (i : Nat) (p' : Param), ps[i]? = some p' → p'.name ≠ p.name := fun i p' h e =>
      hn.1 (e ▸ List.mem_map.2 ⟨p', List.mem_of_getElem? h, rfl⟩)
    cases pos with
    | cons a pos =>
      have hb : ∀ i, C145.bound (p :: ps) (a :: pos) kw (i + 1) = C145.bound ps pos kw i := fun i => by
        simp [C145.bound]
      have h0 : C145.bound (p :: ps) (a :: pos) kw 0 = some (.given a) := by simp [C145.bound]
      simp only [bindArgs]
      rw [List.length_cons, C145.known_pos]
      cases hk : keyword kw p.name with
      | some b =>
        dsimp only
        constructor
        · rintro ⟨⟩
        · rintro ⟨_, h, _⟩
          obtain ⟨i, p', _, hp, e⟩ := h _ (C145.keyword_some hk)
          exact absurd e (later i p' hp)
      | none =>
        dsimp only
        rw [Option.map_eq_some_iff]
        constructor
        · rintro ⟨as, has, rfl⟩
          obtain ⟨h1, h2, h3, h4⟩ := (ih hn.2 pos kw as).1 has
          refine ⟨by simpa using h1, h2, by simpa using h3, fun i hi => ?_⟩
          cases i with
          | zero => rw [h0]; rfl
          | succ i => rw [hb, ← h4 i (by simpa using hi)]; rfl
        · rintro ⟨h1, h2, h3, h4⟩
          cases args with
          | nil => simp at h3
          | cons b as =>
            have e := h4 0 (by simp)
            rw [h0] at e
            obtain rfl : b = .given a := by simpa using e
            exact ⟨as, (ih hn.2 pos kw as).2 ⟨by simpa using h1, h2, by simpa using h3, fun i hi => by
              rw [← hb, ← h4 (i + 1) (by simpa using hi)]; rfl⟩, rfl⟩
    | nil =>
      have step : ∀ (x : Arg α) (kw' : List (String × α)), C145.bound (p :: ps) [] kw 0 = some x →
          (∀ m, m ≠ p.name → keyword kw' m = keyword kw m) → (C145.Known (p :: ps) 0 kw ↔ C145.Known ps 0 kw') →
          ((bindArgs ps [] kw').map (x :: ·) = some args ↔ ([] : List α).length ≤ (p :: ps).length ∧
            C145.Known (p :: ps) ([] : List α).length kw ∧ args.length = (p :: ps).length ∧
            ∀ i < (p :: ps).length, args[i]? = C145.bound (p :: ps) [] kw i) := by
        intro x kw' h0 hsame hknown
        have hb : ∀ i, C145.bound (p :: ps) [] kw (i + 1) = C145.bound ps [] kw' i := fun i => by
          simp only [C145.bound, List.length_nil, Nat.not_lt_zero, if_false, List.getElem?_cons_succ]
          cases hp : ps[i]? with
          | none => rfl
          | some p' => simp only [Option.bind_some, hsame p'.name (later i p' hp)]
        rw [Option.map_eq_some_iff]
        constructor
        · rintro ⟨as, has, rfl⟩
          obtain ⟨h1, h2, h3, h4⟩ := (ih hn.2 [] kw' as).1 has
          refine ⟨by simp, hknown.2 h2, by simpa using h3, fun i hi => ?_⟩
          cases i with
          | zero => rw [h0]; rfl
          | succ i => rw [hb, ← h4 i (by simpa using hi)]; rfl
        · rintro ⟨h1, h2, h3, h4⟩
          cases args with
          | nil => simp at h3
          | cons b as =>
            have e := h4 0 (by simp)
            rw [h0] at e
            obtain rfl : b = x := by simpa using e
            exact ⟨as, (ih hn.2 [] kw' as).2 ⟨by simp, hknown.1 h2, by simpa using h3, fun i hi => by
              rw [← hb, ← h4 (i + 1) (by simpa using hi)]; rfl⟩, rfl⟩
      simp only [bindArgs]
      cases hk : keyword kw p.name with
      | some a =>
        exact step _ _ (by simp [C145.bound, hk]) (fun m hm => C145.keyword_filter hm) (C145.known_filter hn.1)
      | none =>
        dsimp only
        cases hd : p.dflt with
        | none =>
          dsimp only
          constructor
          · rintro ⟨⟩
          · rintro ⟨_, _, h3, h4⟩
            have e := h4 0 (by simp)
            rw [List.length_cons] at h3
            rw [show C145.bound (p :: ps) [] kw 0 = none by simp [C145.bound, hk, hd], List.getElem?_eq_none_iff] at e
            omega
        | some d =>
          refine step _ _ (by simp [C145.bound, hk, hd]) (fun m _ => rfl) ?_
          have hf : (kw.filter fun q => decide (q.1 ≠ p.name)) = kw :=
            List.filter_eq_self.2 fun q hq => by simpa using C145.keyword_none.1 hk q hq
          rw [C145.known_filter hn.1, hf]

/-- What a C++ call gives. -/
theorem C145.cpp_iff (ps : List Param) (as args : List (Arg α)) : cppArgs ps as = some args ↔ as.length ≤ ps.length ∧
    args.length = ps.length ∧ ∀ i < ps.length, args[i]? = if i < as.length then as[i]? else (ps[i]?.bind (·.dflt)).map .dflt := by
  induction ps generalizing as args with
  | nil =>
    cases as with
    | nil =>
      simp only [cppArgs]
      constructor
      · rintro ⟨⟩; simp
      · rintro ⟨_, h, _⟩
        rw [List.length_nil] at h
        rw [List.length_eq_zero_iff.1 h]
    | cons a as => simp [cppArgs]
  | cons p ps ih =>
    have step : ∀ (x : Arg α) (as' : List (Arg α)), (as.length ≤ ps.length + 1 ↔ as'.length ≤ ps.length) →
        (if 0 < as.length then as[0]? else (p.dflt).map .dflt) = some x →
        (∀ i, (if i + 1 < as.length then as[i + 1]? else (ps[i]?.bind (·.dflt)).map .dflt) =
          (if i < as'.length then as'[i]? else (ps[i]?.bind (·.dflt)).map .dflt)) →
        ((cppArgs ps as').map (x :: ·) = some args ↔ as.length ≤ (p :: ps).length ∧ args.length = (p :: ps).length ∧
          ∀ i < (p :: ps).length, args[i]? = if i < as.length then as[i]? else ((p :: ps)[i]?.bind (·.dflt)).map .dflt) := by
      intro x as' hlen h0 hb
      rw [Option.map_eq_some_iff]
      constructor
      · rintro ⟨bs, hbs, rfl⟩
        obtain ⟨h1, h2, h3⟩ := (ih as' bs).1 hbs
        refine ⟨hlen.2 h1, by simpa using h2, fun i hi => ?_⟩
        cases i with
        | zero => exact h0.symm
        | succ i =>
          rw [List.getElem?_cons_succ, List.getElem?_cons_succ, hb]
          exact h3 i (by simpa using hi)
      · rintro ⟨h1, h2, h3⟩
        cases args with
        | nil => simp at h2
        | cons b bs =>
          have e := h3 0 (by simp)
          obtain rfl : b = x := Option.some.inj (e.trans h0)
          refine ⟨bs, (ih as' bs).2 ⟨hlen.1 h1, by simpa using h2, fun i hi => ?_⟩, rfl⟩
          have := h3 (i + 1) (by simpa using hi)
          rw [List.getElem?_cons_succ, List.getElem?_cons_succ, hb] at this
          exact this
    cases as with
    | cons a as => exact step a as (by simp) (by simp) (fun i => by simp)
    | nil =>
      simp only [cppArgs]
      cases hd : p.dflt with
      | some d => exact step (.dflt d) [] (by simp) (by simp [hd]) (fun i => by simp)
      | none =>
        dsimp only
        constructor
        · rintro ⟨⟩
        · rintro ⟨_, h2, h3⟩
          have e := h3 0 (by simp)
          rw [List.length_cons] at h2
          simp [hd] at e
          rw [e] at h2
          simp at h2

/-- What the tables say: the Python names of a constructor's parameters differ from each other, the parameters have the defaults of the
header, and what Python leaves out has a default there. -/
structure C145.Table (c : Ctor) : Prop where
  names : (c.py.map (·.name)).Nodup
  fewer : c.py.length ≤ c.cpp.length
  same : ∀ i < c.py.length, c.py[i]?.bind (·.dflt) = c.cpp[i]?.bind (·.dflt)
  rest : ∀ i < c.cpp.length, c.py.length ≤ i → (c.cpp[i]?.bind (·.dflt)).isSome = true

theorem C145.table {c : Ctor} (hc : c ∈ constructors) : C145.Table c := by
  have h : ∀ c ∈ constructors, (c.py.map (·.name)).Nodup ∧ c.py.length ≤ c.cpp.length ∧
      (∀ i < c.py.length, c.py[i]?.bind (·.dflt) = c.cpp[i]?.bind (·.dflt)) ∧
      (∀ i < c.cpp.length, c.py.length ≤ i → (c.cpp[i]?.bind (·.dflt)).isSome = true) := by decide +kernel
  obtain ⟨h1, h2, h3, h4⟩ := h c hc
  exact ⟨h1, h2, h3, h4⟩

/-- What the constructor gets for parameter `i`. -/
def C145.full (c : Ctor) (pos : List α) (kw : List (String × α)) (i : Nat) : Option (Arg α) :=
  if i < pos.length then pos[i]?.map .given
  else match c.py[i]?.bind fun p => keyword kw p.name with
    | some a => some (.given a)
    | none => (c.cpp[i]?.bind (·.dflt)).map .dflt

theorem C145.full_low {c : Ctor} (ht : C145.Table c) (pos : List α) (kw : List (String × α)) {i : Nat} (hi : i < c.py.length) :
    C145.bound c.py pos kw i = C145.full c pos kw i := by
  unfold C145.bound C145.full
  split
  · rfl
  · rw [← ht.same i hi, List.getElem?_eq_getElem hi]
    simp only [Option.bind_some]

theorem C145.full_high {c : Ctor} (pos : List α) (kw : List (String × α)) (hp : pos.length ≤ c.py.length) {i : Nat}
    (hi : c.py.length ≤ i) : C145.full c pos kw i = (c.cpp[i]?.bind (·.dflt)).map .dflt := by
  unfold C145.full
  rw [if_neg (by omega), List.getElem?_eq_none_iff.2 hi]
  rfl

theorem C145.python_iff {c : Ctor} (ht : C145.Table c) (pos : List α) (kw : List (String × α)) (args : List (Arg α)) :
    c.fromPython pos kw = some args ↔ pos.length ≤ c.py.length ∧ C145.Known c.py pos.length kw ∧ args.length = c.cpp.length ∧
      ∀ i < c.cpp.length, args[i]? = C145.full c pos kw i := by
  have hf := ht.fewer
  unfold Ctor.fromPython
  rw [Option.bind_eq_some_iff]
  constructor
  · rintro ⟨bs, hb, ha⟩
    obtain ⟨h1, h2, h3, h4⟩ := (C145.bind_iff _ ht.names pos kw bs).1 hb
    obtain ⟨k1, k2, k3⟩ := (C145.cpp_iff _ _ _).1 ha
    refine ⟨h1, h2, k2, fun i hi => ?_⟩
    rw [k3 i hi]
    split
    · rename_i hlt
      rw [h4 i (h3 ▸ hlt), C145.full_low ht pos kw (h3 ▸ hlt)]
    · rename_i hlt
      rw [C145.full_high pos kw h1 (by omega)]
  · rintro ⟨h1, h2, h3, h4⟩
    have hlen : (args.take c.py.length).length = c.py.length := by rw [List.length_take]; omega
    refine ⟨args.take c.py.length, (C145.bind_iff _ ht.names pos kw _).2 ⟨h1, h2, hlen, fun i hi => ?_⟩,
      (C145.cpp_iff _ _ _).2 ⟨by omega, h3, fun i hi => ?_⟩⟩
    · rw [List.getElem?_take_of_lt hi, h4 i (by omega), C145.full_low ht pos kw hi]
    · rw [hlen]
      split
      · rename_i hlt
        rw [List.getElem?_take_of_lt hlt]
      · rename_i hlt
        rw [h4 i hi, C145.full_high pos kw h1 (by omega)]

theorem C145.gets_iff {c : Ctor} (pos : List α) (kw : List (String × α)) (hk : (kw.map (·.1)).Nodup) (i : Nat) (x : Arg α) :
    C145.full c pos kw i = some x ↔ C145.Gets c pos kw i x := by
  unfold C145.full
  constructor
  · intro h
    split at h
    · obtain ⟨a, ha, rfl⟩ := Option.map_eq_some_iff.1 h
      exact .position a ha
    · rename_i hi
      split at h
      · rename_i a ha
        obtain ⟨p, hp, hq⟩ := Option.bind_eq_some_iff.1 ha
        obtain rfl := Option.some.inj h
        exact .byName a p (by omega) hp (C145.keyword_some hq)
      · rename_i hn
        obtain ⟨d, hd, rfl⟩ := Option.map_eq_some_iff.1 h
        obtain ⟨e, he, hx⟩ := Option.bind_eq_some_iff.1 hd
        refine .omitted e d (by omega) (fun p hp a ha => ?_) he hx
        rw [hp, Option.bind_some, C145.keyword_mem hk ha] at hn
        cases hn
  · intro h
    cases h with
    | position a h =>
      have := (List.getElem?_eq_some_iff.1 h).1
      rw [if_pos this, h]
      rfl
    | byName a p hi hp hq =>
      rw [if_neg (by omega), hp, Option.bind_some, C145.keyword_mem hk hq]
    | omitted d x hi hno hd hx =>
      have hn : (c.py[i]?.bind fun p => keyword kw p.name) = none := by
        cases hp : c.py[i]? with
        | none => rfl
        | some p =>
          rw [Option.bind_some, C145.keyword_none]
          rintro ⟨n, a⟩ hq rfl
          exact hno p hp a hq
      rw [if_neg (by omega), hn, hd, Option.bind_some, hx]
      rfl

/-- **C145**. A constructor called from Python accepts the call exactly if all parameters without a default in the header are given,
none is given twice and no other is named. -/
theorem C145_accepted (c : Ctor) (hc : c ∈ constructors) (pos : List α) (kw : List (String × α)) :
    (c.fromPython pos kw).isSome = true ↔ C145.Accepted c pos kw := by
  have ht := C145.table hc
  have hf := ht.fewer
  constructor
  · intro h
    obtain ⟨args, h⟩ := Option.isSome_iff_exists.1 h
    obtain ⟨h1, h2, h3, h4⟩ := (C145.python_iff ht pos kw args).1 h
    refine ⟨h1, h2, fun i p d hi hp hd hx => Classical.byContradiction fun hn => ?_⟩
    have hlt := (List.getElem?_eq_some_iff.1 hd).1
    have e := h4 i hlt
    unfold C145.full at e
    rw [if_neg (by omega), hp, Option.bind_some, C145.keyword_none.2 fun q hq h => hn ⟨q, hq, h⟩, hd, Option.bind_some, hx] at e
    rw [Option.map_none, List.getElem?_eq_none_iff] at e
    omega
  · rintro ⟨h1, h2, h3⟩
    have key : ∀ i < c.cpp.length, (C145.full c pos kw i).isSome = true := by
      intro i hi
      rcases Nat.lt_or_ge i pos.length with hp | hp
      · unfold C145.full
        rw [if_pos hp, List.getElem?_eq_getElem hp]
        rfl
      rcases Nat.lt_or_ge i c.py.length with hq | hq
      · unfold C145.full
        rw [if_neg (by omega)]
        split
        · rfl
        · rename_i hn
          rw [List.getElem?_eq_getElem hq, Option.bind_some] at hn
          rw [List.getElem?_eq_getElem hi, Option.bind_some]
          cases hd : c.cpp[i].dflt with
          | some d => rfl
          | none =>
            obtain ⟨q, hq1, hq2⟩ := h3 i _ _ hp (List.getElem?_eq_getElem hq) (List.getElem?_eq_getElem hi) hd
            exact absurd hq2 (C145.keyword_none.1 hn q hq1)
      · rw [C145.full_high pos kw h1 hq, Option.isSome_map]
        exact ht.rest i hi hq
    refine Option.isSome_iff_exists.2 ⟨List.ofFn fun i : Fin c.cpp.length => (C145.full c pos kw i).get (key i i.2),
      (C145.python_iff ht pos kw _).2 ⟨h1, h2, by simp, fun i hi => ?_⟩⟩
    rw [List.getElem?_ofFn, dif_pos hi]
    simp

/-- **C145**. It then gets for each of its parameters what the caller gave for it, by position or by name, and the default value of the
header for those which were left out. -/
theorem C145_arguments (c : Ctor) (hc : c ∈ constructors) (pos : List α) (kw : List (String × α)) (hk : (kw.map (·.1)).Nodup)
    (args : List (Arg α)) (h : c.fromPython pos kw = some args) :
    args.length = c.cpp.length ∧ ∀ (i : Nat) (x : Arg α), args[i]? = some x ↔ i < c.cpp.length ∧ C145.Gets c pos kw i x := by
  obtain ⟨_, _, h3, h4⟩ := (C145.python_iff (C145.table hc) pos kw args).1 h
  refine ⟨h3, fun i x => ⟨fun hx => ?_, fun ⟨hi, hg⟩ => ?_⟩⟩
  · have hi : i < c.cpp.length := h3 ▸ (List.getElem?_eq_some_iff.1 hx).1
    exact ⟨hi, (C145.gets_iff pos kw hk i x).1 ((h4 i hi).symm.trans hx)⟩
  · rw [h4 i hi]
    exact (C145.gets_iff pos kw hk i x).2 hg

/-- **C145**. With positional arguments, as many as Python allows, the constructor gets what it gets from a C++ call. -/
theorem C145_positional (c : Ctor) (hc : c ∈ constructors) (pos : List α) (hp : pos.length ≤ c.py.length) :
    c.fromPython pos [] = c.fromCpp pos := by
  have ht := C145.table hc
  have hf := ht.fewer
  apply Option.ext
  intro args
  unfold Ctor.fromCpp
  rw [C145.python_iff ht, C145.cpp_iff]
  have e : ∀ i, C145.full c pos [] i = if i < (pos.map Arg.given).length then (pos.map Arg.given)[i]?
      else (c.cpp[i]?.bind (·.dflt)).map .dflt := by
    intro i
    unfold C145.full
    rw [List.length_map, List.getElem?_map]
    split
    · rfl
    · have : (c.py[i]?.bind fun p => keyword ([] : List (String × α)) p.name) = none := by
        cases c.py[i]? <;> rfl
      rw [this]
  constructor
  · rintro ⟨_, _, h3, h4⟩
    exact ⟨by rw [List.length_map]; omega, h3, fun i hi => by rw [h4 i hi, e]⟩
  · rintro ⟨_, h3, h4⟩
    have hn : C145.Known c.py pos.length ([] : List (String × α)) := fun q hq => absurd hq List.not_mem_nil
    exact ⟨hp, hn, h3, fun i hi => by rw [h4 i hi, e]⟩

/-- **C145**. The order of the keywords does not matter. -/
theorem C145_order (c : Ctor) (hc : c ∈ constructors) (pos : List α) (kw kw' : List (String × α)) (hk : (kw.map (·.1)).Nodup)
    (hperm : kw.Perm kw') : c.fromPython pos kw = c.fromPython pos kw' := by
  have ht := C145.table hc
  have hk' : (kw'.map (·.1)).Nodup := (hperm.map _).nodup hk
  have e : ∀ n, keyword kw n = keyword kw' n := by
    intro n
    cases h : keyword kw n with
    | some a => exact (C145.keyword_mem hk' (hperm.mem_iff.1 (C145.keyword_some h))).symm
    | none => exact (C145.keyword_none.2 fun q hq => C145.keyword_none.1 h q (hperm.mem_iff.2 hq)).symm
  apply Option.ext
  intro args
  rw [C145.python_iff ht, C145.python_iff ht]
  have h1 : C145.Known c.py pos.length kw ↔ C145.Known c.py pos.length kw' :=
    ⟨fun h q hq => h q (hperm.mem_iff.2 hq), fun h q hq => h q (hperm.mem_iff.1 hq)⟩
  have h2 : ∀ i, C145.full c pos kw i = C145.full c pos kw' i := fun i => by
    unfold C145.full
    simp only [e]
  simp only [h1, h2]

/-- **C145**. No call is ambiguous: no two constructors of a class accept the same call. -/
theorem C145_overloads (c c' : Ctor) (hc : c ∈ constructors) (hc' : c' ∈ constructors) (hcls : c.cls = c'.cls) (pos : List α)
    (kw : List (String × α)) (h : C145.Accepted c pos kw) (h' : C145.Accepted c' pos kw) : c = c' := by
  have table : ∀ c ∈ constructors, ∀ c' ∈ constructors, c.cls = c'.cls → c = c' ∨
      (∃ i < c'.py.length, c.py.length ≤ i ∧ (c'.cpp[i]?.bind (·.dflt)) = none ∧
        ∀ p ∈ c.py, c'.py[i]?.map (·.name) ≠ some p.name) ∨
      (∃ i < c.py.length, c'.py.length ≤ i ∧ (c.cpp[i]?.bind (·.dflt)) = none ∧
        ∀ p ∈ c'.py, c.py[i]?.map (·.name) ≠ some p.name) := by decide +kernel
  have key : ∀ (c c' : Ctor), c' ∈ constructors → C145.Accepted c pos kw → C145.Accepted c' pos kw →
      ¬ ∃ i < c'.py.length, c.py.length ≤ i ∧ (c'.cpp[i]?.bind (·.dflt)) = none ∧
        ∀ p ∈ c.py, c'.py[i]?.map (·.name) ≠ some p.name := by
    rintro c c' hc' h h' ⟨i, hi, hle, hd, hn⟩
    have hi' : i < c'.cpp.length := Nat.lt_of_lt_of_le hi (C145.table hc').fewer
    rw [List.getElem?_eq_getElem hi', Option.bind_some] at hd
    obtain ⟨q, hq, e⟩ := h'.given i _ _ (Nat.le_trans h.few hle) (List.getElem?_eq_getElem hi) (List.getElem?_eq_getElem hi') hd
    obtain ⟨j, p, _, hp, e'⟩ := h.known q hq
    apply hn p (List.mem_of_getElem? hp)
    rw [List.getElem?_eq_getElem hi, Option.map_some, e', e]
  rcases table c hc c' hc' hcls with e | e | e
  · exact e
  · exact absurd e (key c c' hc' h h')
  · exact absurd e (key c' c hc h' h)

/-- **C145**, calls of a class. The object is made by the one constructor which accepts the call. -/
theorem C145_construct (cls : String) (pos : List α) (kw : List (String × α)) (args : List (Arg α)) :
    construct cls pos kw = some args ↔ ∃ c ∈ constructors, c.cls = cls ∧ c.fromPython pos kw = some args := by
  unfold construct
  constructor
  · intro h
    obtain ⟨c, hc, h⟩ := List.exists_of_findSome?_eq_some h
    rw [List.mem_filter] at hc
    exact ⟨c, hc.1, by simpa using hc.2, h⟩
  · rintro ⟨c, hc, hcls, h⟩
    cases e : (constructors.filter fun c => decide (c.cls = cls)).findSome? fun c => c.fromPython pos kw with
    | none =>
      have := List.findSome?_eq_none_iff.1 e c (List.mem_filter.2 ⟨hc, by simpa using hcls⟩)
      rw [h] at this
      cases this
    | some args' =>
      obtain ⟨c', hc', h'⟩ := List.exists_of_findSome?_eq_some e
      rw [List.mem_filter] at hc'
      have hcls' : c'.cls = cls := by simpa using hc'.2
      obtain rfl := C145_overloads c c' hc hc'.1 (hcls.trans hcls'.symm) pos kw
        ((C145_accepted c hc pos kw).1 (by rw [h]; rfl)) ((C145_accepted c' hc'.1 pos kw).1 (by rw [h']; rfl))
      rw [← h', h]

/-! ### Examples -/

/-- `PosePositionBetweenFactor(1, a, b, local_frame=True, measured_diff=d)`: the standard deviation is the header's. -/
example : construct "PosePositionBetweenFactor" ["1", "a", "b"] [("local_frame", "True"), ("measured_diff", "d")] =
    some [.given "1", .given "a", .given "b", .given "d", .dflt (.number 1), .given "True"] := by decide +kernel

/-- The two constructors of `PlaneFactor`. -/
example : construct "PlaneFactor" ["1", "a", "b"] [] = some [.given "1", .given "a", .given "b", .dflt (.number 1)] ∧
    construct "PlaneFactor" ["1", "a", "b", "2", "True", "r", "p"] [] = some (["1", "a", "b", "2", "True", "r", "p"].map .given) ∧
    construct "PlaneFactor" ["1", "a", "b", "2", "True"] [] = none := by decide +kernel

/-- The constructor of the first example accepts its call. -/
example : ∃ c ∈ constructors, c.cls = "PosePositionBetweenFactor" ∧
    C145.Accepted c ["1", "a", "b"] [("local_frame", "True"), ("measured_diff", "d")] := by
  obtain ⟨c, hc, e, h⟩ := (C145_construct "PosePositionBetweenFactor" ["1", "a", "b"]
    [("local_frame", "True"), ("measured_diff", "d")] _).1 (by decide +kernel :
      _ = some [.given "1", .given "a", .given "b", .given "d", .dflt (.number 1), .given "True"])
  exact ⟨c, hc, e, (C145_accepted c hc _ _).1 (by rw [h]; rfl)⟩

/-- An argument given by position and by name, a missing one, and an unknown one. -/
example : construct "LandmarkVariable" ["1", "p"] [("id", "2")] = none ∧ construct "LandmarkVariable" ["1"] [] = none ∧
    construct "LandmarkVariable" ["1"] [("pos_W", "p")] = none := by decide +kernel

/-- **C145**, the limits: the constructors whose parameters have other names in Python than in the header, and the one parameter that
cannot be given from Python at all. -/
theorem C145_names : (constructors.filter fun c => decide (c.py.map (·.name) ≠ (c.cpp.map (·.name)).take c.py.length)).map (·.cls) =
      ["InverseRangeVariable", "InverseRangeBearingFactor", "PoseOrientationPriorFactor"] ∧
    (constructors.filter fun c => decide (c.py.length ≠ c.cpp.length)).map (·.cls) = ["LinearVelocityFactor"] := by decide +kernel

end Factorama.Props
