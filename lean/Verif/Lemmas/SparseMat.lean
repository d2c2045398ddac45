import Verif.Lemmas.Dense

/-! Helper lemmas: filling the sparse matrix from row index and data columns. -/

set_option linter.unusedSectionVars false

namespace Factorama
namespace SpMat
variable {F : Type}

theorem insertEntry_append {r : Nat} {v : F} {es : List (Nat × F)} (h : ∀ e ∈ es, e.1 < r) :
    insertEntry r v es = es ++ [(r, v)] := by
  induction es with
  | nil => rfl
  | cons e es ih =>
    obtain ⟨r', v'⟩ := e
    have h0 := h (r', v') (by simp)
    simp only at h0
    rw [insertEntry, if_neg (by omega), if_neg (by omega), ih (fun e he => h e (by simp [he]))]
    rfl

/-- Total reserved room of some columns. -/
def capSum (cols : List (SpCol F)) : Nat := (cols.map fun c => c.cap).sum

@[simp] theorem capSum_nil : capSum ([] : List (SpCol F)) = 0 := rfl
@[simp] theorem capSum_cons (c : SpCol F) (cs : List (SpCol F)) : capSum (c :: cs) = c.cap + capSum cs := by
  simp [capSum]
@[simp] theorem capSum_append (cs cs' : List (SpCol F)) : capSum (cs ++ cs') = capSum cs + capSum cs' := by
  simp [capSum]

theorem writeSlot_col (v : F) (pre : List (SpCol F)) (col : SpCol F) (post : List (SpCol F)) (t : Nat)
    (ht : t < col.cap) :
    writeSlot v (capSum pre + t) (pre ++ col :: post) =
      pre ++ { col with entries := match col.entries[t]? with
                | none => col.entries
                | some e => col.entries.set t (e.1, v) } :: post := by
  induction pre with
  | nil => simp only [List.nil_append, writeSlot, capSum_nil, Nat.zero_add, ht, if_true]; rfl
  | cons c pre ih =>
    rw [List.cons_append, writeSlot, if_neg (by simp; omega)]
    simp only [capSum_cons]
    rw [show c.cap + capSum pre + t - c.cap = capSum pre + t by omega, ih]
    rfl

theorem writeSlots_col (d : List F) (pre : List (SpCol F)) (cap : Nat) (es : List (Nat × F))
    (post : List (SpCol F)) (t : Nat) (hcap : es.length = cap) (ht : t + d.length ≤ cap) :
    writeSlots d (capSum pre + t) (pre ++ ⟨cap, es⟩ :: post) =
      pre ++ ⟨cap, es.take t ++ ((es.drop t).map (·.1)).zip d ++ es.drop (t + d.length)⟩ :: post := by
  induction d generalizing t es with
  | nil => simp [writeSlots]
  | cons v d ih =>
    simp only [List.length_cons] at ht
    rw [writeSlots, writeSlot_col v pre ⟨cap, es⟩ post t (by simp; omega)]
    have hlt : t < es.length := by omega
    simp only [List.getElem?_eq_getElem hlt]
    rw [show capSum pre + t + 1 = capSum pre + (t + 1) by omega, ih _ _ (by simp [hcap]) (by omega)]
    congr 3
    rw [Graph.take_succ_set _ _ _ hlt, List.drop_set_of_lt (by omega), List.drop_set_of_lt (by omega)]
    rw [List.drop_eq_getElem_cons hlt]
    have e : ((es[t] :: es.drop (t + 1)).map (·.1)).zip (v :: d) =
        (es[t].1, v) :: ((es.drop (t + 1)).map (·.1)).zip d := rfl
    rw [e, show t + (v :: d).length = t + 1 + d.length by simp; omega]
    simp only [List.append_assoc, List.cons_append, List.nil_append]

end SpMat

namespace Graph
open SpMat
variable {F V : Type} [Zero F] [VarLike F V]

theorem populateColumn_ok (c : Nat) (rs : List Nat) (dpre d : List F) (m : SpMat F) (cap : Nat)
    (es : List (Nat × F)) (hcol : m.columns[c]? = some ⟨cap, es⟩) (hlen : rs.length = d.length)
    (hcap : es.length ≤ cap)
    (hsort : (es.map (·.1) ++ rs).Pairwise (· < ·)) (hrows : ∀ r ∈ rs, r < m.rows) :
    populateColumn c (dpre ++ d) rs dpre.length m =
      ({ m with columns := m.columns.set c ⟨max cap (es.length + rs.length), es ++ rs.zip d⟩ }, .ok ()) := by
  induction rs generalizing dpre d m es cap with
  | nil =>
    have : m.columns.set c ⟨cap, es⟩ = m.columns := by
      apply List.ext_getElem?
      intro i
      by_cases h : c = i
      · subst h; rw [List.getElem?_set_self (by
          rcases Nat.lt_or_ge c m.columns.length with h | h
          · exact h
          · rw [List.getElem?_eq_none h] at hcol; simp at hcol), hcol]
      · rw [List.getElem?_set_ne h]
    simp [populateColumn, this, Nat.max_eq_left hcap]
  | cons r rs ih =>
    cases d with
    | nil => simp at hlen
    | cons v d =>
      have hlt : c < m.columns.length := by
        rcases Nat.lt_or_ge c m.columns.length with h | h
        · exact h
        · rw [List.getElem?_eq_none h] at hcol; simp at hcol
      have hes : ∀ e ∈ es, e.1 < r := by
        intro e he
        rw [List.pairwise_append] at hsort
        exact hsort.2.2 e.1 (List.mem_map.mpr ⟨e, he, rfl⟩) r (by simp)
      have hins : m.setCoeff r c v =
          .ok { m with columns := m.columns.set c ⟨max cap (es.length + 1), es ++ [(r, v)]⟩ } := by
        simp only [SpMat.setCoeff, hrows r (by simp), if_true, hcol, insertEntry_append hes, List.length_append,
          List.length_singleton]
      have hd : (dpre ++ v :: d)[dpre.length]? = some v := by simp
      simp only [populateColumn, hd, SE.bind_get, hins, SE.bind_put]
      have := ih (dpre ++ [v]) d { m with columns := m.columns.set c ⟨max cap (es.length + 1), es ++ [(r, v)]⟩ }
        (max cap (es.length + 1)) (es ++ [(r, v)]) (by simp [hlt]) (by simpa using hlen) (by simp; omega) (by simpa using hsort)
        (fun r' hr' => hrows r' (by simp [hr']))
      simp only [List.append_assoc, List.singleton_append, List.length_append, List.length_singleton,
        List.set_set] at this
      rw [this]
      have e : max (max cap (es.length + 1)) (es.length + 1 + rs.length) = max cap (es.length + (r :: rs).length) := by
        simp only [List.length_cons]
        omega
      simp [e]

/-- Entries of a column given as parallel lists. -/
def zipCol (rows : List (List Nat)) (data : List (List F)) (c : Nat) : List (Nat × F) :=
  ((rows[c]?).getD []).zip ((data[c]?).getD [])

theorem populate_ok (rows : List (List Nat)) (data : List (List F)) (n : Nat) (m : SpMat F)
    (hrl : rows.length = n) (hdl : data.length = n)
    (hlen : ∀ (c : Nat) (rs : List Nat) (d : List F), rows[c]? = some rs → data[c]? = some d → d.length = rs.length)
    (hcl : m.columns.length = n)
    (hcap : ∀ (c : Nat) col rs, m.columns[c]? = some col → rows[c]? = some rs → col.cap ≤ rs.length)
    (hempty : ∀ (c : Nat) col, m.columns[c]? = some col → col.entries = [])
    (hsort : ∀ (c : Nat) rs, rows[c]? = some rs → rs.Pairwise (· < ·) ∧ ∀ r ∈ rs, r < m.rows) :
    ∃ m', populate rows data n m = (m', .ok ()) ∧ m'.rows = m.rows ∧ m'.alloc = m.alloc ∧
      m'.columns.length = n ∧
      ∀ (c : Nat) (rs : List Nat), rows[c]? = some rs → m'.columns[c]? = some ⟨rs.length, zipCol rows data c⟩ := by
  unfold populate
  obtain ⟨m', h1, h2, h3, h4, h5, h6⟩ := SE.forEach_inv
    (body := fun c => match rows[c]?, data[c]? with
      | some rs, some d => populateColumn c d rs 0
      | some [], none => SE.ret ()
      | _, _ => SE.undefined)
    (fun pre m' => m'.rows = m.rows ∧ m'.alloc = m.alloc ∧ m'.columns.length = n ∧
      (∀ c ∈ pre, ∀ rs, rows[c]? = some rs → m'.columns[c]? = some ⟨rs.length, zipCol rows data c⟩) ∧
      (∀ c, c ∉ pre → m'.columns[c]? = m.columns[c]?)) (List.range n) m
    ⟨rfl, rfl, hcl, by simp, by simp⟩ (by
      intro pre c post m1 hsplit ⟨i1, i2, i3, i4, i5⟩
      have hc : c < n := by
        have : c ∈ List.range n := by rw [hsplit]; simp
        simpa using this
      have hnot : c ∉ pre := by
        have := List.nodup_range (n := n)
        rw [hsplit, List.nodup_append] at this
        intro hm
        exact this.2.2 c hm c (by simp) rfl
      obtain ⟨rs, hrs⟩ : ∃ rs, rows[c]? = some rs := ⟨rows[c], by simp [hrl, hc]⟩
      obtain ⟨d, hd⟩ : ∃ d, data[c]? = some d := ⟨data[c], by simp [hdl, hc]⟩
      obtain ⟨col, hcol⟩ : ∃ col, m.columns[c]? = some col := ⟨m.columns[c], by simp [hcl, hc]⟩
      have hcapc := hcap c col rs hcol hrs
      have hemp := hempty c col hcol
      have hcol1 : m1.columns[c]? = some ⟨col.cap, []⟩ := by
        rw [i5 c hnot, hcol]
        cases col; simp at hemp; simp [hemp]
      have hpc := populateColumn_ok c rs [] d m1 col.cap [] hcol1 (hlen c rs d hrs hd).symm (by simp)
        (by simpa using (hsort c rs hrs).1) (by rw [i1]; exact (hsort c rs hrs).2)
      simp only [List.nil_append, List.length_nil, Nat.zero_add, Nat.max_eq_right hcapc] at hpc
      refine ⟨{ m1 with columns := m1.columns.set c ⟨rs.length, rs.zip d⟩ }, ?_, i1, i2, by simp [i3], ?_, ?_⟩
      · simp only [hrs, hd]; exact hpc
      · intro c' hc' rs' hrs'
        rcases List.mem_append.mp hc' with hc' | hc'
        · have hne : c ≠ c' := fun e => hnot (e ▸ hc')
          simp only [List.getElem?_set_ne hne]
          exact i4 c' hc' rs' hrs'
        · simp at hc'
          subst hc'
          obtain rfl : rs = rs' := by simpa [hrs] using hrs'
          simp [zipCol, hrs, hd, i3, hc]
      · intro c' hc'
        simp at hc'
        simp only [List.getElem?_set_ne (Ne.symm hc'.2)]
        exact i5 c' hc'.1)
  refine ⟨m', h1, h2, h3, h4, fun c rs hrs => h5 c ?_ rs hrs⟩
  rw [List.mem_range, ← hrl]
  exact (List.getElem?_eq_some_iff.mp hrs).1

theorem nonZeros_eq (m : SpMat F) (hfull : ∀ (c : Nat) col, m.columns[c]? = some col → col.cap = col.entries.length) :
    m.nonZeros = capSum m.columns := by
  unfold nonZeros capSum
  congr 1
  apply List.map_congr_left
  intro col hcol
  obtain ⟨c, hc⟩ := List.mem_iff_getElem?.mp hcol
  rw [hfull c col hc]

theorem copyLoop_ok (rows : List (List Nat)) (data : List (List F)) (total n : Nat) (rws alloc : Nat)
    (hrl : rows.length = n) (hdl : data.length = n)
    (hlen : ∀ (c : Nat) (rs : List Nat) (d : List F), rows[c]? = some rs → data[c]? = some d → d.length = rs.length)
    (todo : Nat) : ∀ (pre post : List (SpCol F)), pre.length + todo = n → post.length = todo →
    (∀ (i : Nat) col rs, post[i]? = some col → rows[pre.length + i]? = some rs →
      col.cap = rs.length ∧ col.entries.map (·.1) = rs) →
    capSum pre + capSum post = total →
    copyLoop rows data total (List.range' pre.length todo) (capSum pre) ⟨rws, pre ++ post, alloc⟩ =
      (⟨rws, pre ++ (List.range' pre.length todo).map
        (fun c => ⟨((rows[c]?).getD []).length, zipCol rows data c⟩), alloc⟩, .ok ()) := by
  induction todo with
  | zero =>
    intro pre post h1 h2 h3 h4
    cases post with
    | nil => simp [copyLoop]
    | cons a b => simp at h2
  | succ todo ih =>
    intro pre post h1 h2 h3 h4
    cases post with
    | nil => simp at h2
    | cons col post =>
      obtain ⟨rs, hrs⟩ : ∃ rs, rows[pre.length]? = some rs :=
        ⟨rows[pre.length]'(by omega), List.getElem?_eq_getElem (by omega)⟩
      obtain ⟨d, hd⟩ : ∃ d, data[pre.length]? = some d :=
        ⟨data[pre.length]'(by omega), List.getElem?_eq_getElem (by omega)⟩
      obtain ⟨e1, e2⟩ := h3 0 col rs rfl (by simpa using hrs)
      have hl := hlen _ _ _ hrs hd
      have hel : col.entries.length = rs.length := by rw [← e2]; simp
      have hcolD : (if d.isEmpty then col else ⟨rs.length, rs.zip d⟩ : SpCol F) = ⟨rs.length, rs.zip d⟩ := by
        split
        · rename_i hdE
          have : d = [] := by simpa using hdE
          subst this
          have hr0 : rs = [] := by
            cases rs with
            | nil => rfl
            | cons a b => simp at hl
          subst hr0
          have : col.entries = [] := by simpa using hel
          cases col; simp at e1 this; simp [e1, this]
        · rfl
      have hnext := ih (pre ++ [⟨rs.length, rs.zip d⟩]) post (by simp; omega) (by simpa using h2) (by
          intro i col' rs' hc hr
          exact h3 (i + 1) col' rs' (by simpa using hc) (by
            rw [← hr]; congr 1; simp; omega)) (by
          simp only [capSum_cons] at h4
          simp; omega)
      simp only [List.length_append, List.length_singleton, capSum_append, capSum_cons, capSum_nil,
        Nat.add_zero] at hnext
      have hzc : zipCol rows data pre.length = rs.zip d := by simp [zipCol, hrs, hd]
      rw [List.range'_succ, copyLoop]
      simp only [hrs, hd]
      rw [if_neg (by simp [hl])]
      by_cases hdE : d.isEmpty
      · rw [if_pos hdE]
        have hd0 : d = [] := by simpa using hdE
        subst hd0
        have hr0 : rs.length = 0 := by simpa using hl.symm
        rw [if_pos hdE] at hcolD
        rw [hcolD]
        rw [hr0] at hnext ⊢
        simp only [Nat.add_zero] at hnext
        have e3 : pre ++ (⟨0, rs.zip []⟩ : SpCol F) :: post = (pre ++ [⟨0, rs.zip []⟩]) ++ post := by simp
        rw [e3, hnext]
        simp [hzc, hrs, hr0]
      · rw [if_neg hdE]
        have hdpos : 0 < rs.length := by
          cases d with
          | nil => simp at hdE
          | cons a b => simp at hl; omega
        simp only [capSum_cons] at h4
        rw [if_neg (by omega), if_neg (by omega)]
        simp only [SE.bind_modify]
        have hw := writeSlots_col d pre col.cap col.entries post 0 (by rw [hel, e1]) (by omega)
        simp only [Nat.add_zero, List.take_zero, List.drop_zero, List.nil_append, Nat.zero_add, e2] at hw
        rw [show (⟨col.cap, col.entries⟩ : SpCol F) = col from rfl] at hw
        rw [hw, List.drop_eq_nil_of_le (by omega), List.append_nil, e1]
        have e3 : pre ++ (⟨rs.length, rs.zip d⟩ : SpCol F) :: post = (pre ++ [⟨rs.length, rs.zip d⟩]) ++ post := by simp
        rw [e3, hnext]
        simp [hzc, hrs]

theorem copySparse_ok (rows : List (List Nat)) (data : List (List F)) (n : Nat) (m : SpMat F)
    (hrl : rows.length = n) (hdl : data.length = n)
    (hlen : ∀ (c : Nat) (rs : List Nat) (d : List F), rows[c]? = some rs → data[c]? = some d → d.length = rs.length)
    (hcl : m.columns.length = n)
    (hfull : ∀ (c : Nat) col rs, m.columns[c]? = some col → rows[c]? = some rs →
      col.cap = rs.length ∧ col.entries.map (·.1) = rs) (halloc : m.alloc ≠ 0) :
    ∃ m', copySparse rows data n m = (m', .ok ()) ∧ m'.rows = m.rows ∧ m'.alloc = m.alloc ∧
      m'.columns.length = n ∧
      ∀ (c : Nat) (rs : List Nat), rows[c]? = some rs → m'.columns[c]? = some ⟨rs.length, zipCol rows data c⟩ := by
  have hnz : m.nonZeros = capSum m.columns := by
    apply nonZeros_eq
    intro c col hc
    have hlt := (List.getElem?_eq_some_iff.mp hc).1
    obtain ⟨e1, e2⟩ := hfull c col (rows[c]'(by omega)) hc (by simp)
    rw [e1, ← e2]; simp
  have := copyLoop_ok rows data m.nonZeros n m.rows m.alloc hrl hdl hlen n [] m.columns (by simp) hcl (by
    intro i col rs hc hr
    exact hfull i col rs hc (by simpa using hr)) (by simp [hnz])
  simp only [List.length_nil, capSum_nil, List.nil_append] at this
  refine ⟨⟨m.rows, (List.range' 0 n).map
        (fun c => ⟨((rows[c]?).getD []).length, zipCol rows data c⟩), m.alloc⟩, ?_, rfl, rfl, by simp, ?_⟩
  · unfold copySparse
    simp only [SE.bind_get, if_neg halloc, List.range_eq_range']
    exact this
  · intro c rs hrs
    have hlt := (List.getElem?_eq_some_iff.mp hrs).1
    rw [hrl] at hlt
    simp [hlt, hrs]

end Graph
end Factorama
