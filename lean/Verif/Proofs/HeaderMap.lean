import Verif.Model.StatusAndHeaders

/-! # Header list operations -/

namespace Warcio.StatusAndHeaders

variable [PyUni]

theorem lastIndex_none {name : Str} {hs : List Header} : ∀ n, (∀ h ∈ hs, nameEq name h = false) → lastIndex name hs n = none := by
  intro n h
  induction n with
  | zero => rfl
  | succ n ih =>
    unfold lastIndex
    cases hg : hs[n]? with
    | none => exact ih
    | some x =>
      have := h x (List.mem_of_getElem? hg)
      simp only [this, Bool.false_eq_true, if_false]; exact ih

theorem lastIndex_last {name : Str} {pre post : List Header} {h : Header} (hh : nameEq name h = true)
    (hp : ∀ x ∈ post, nameEq name x = false) :
    ∀ n, pre.length < n → n ≤ pre.length + 1 + post.length → lastIndex name (pre ++ h :: post) n = some pre.length := by
  intro n
  induction n with
  | zero => intro h1; omega
  | succ n ih =>
    intro h1 h2
    unfold lastIndex
    by_cases hn : n = pre.length
    · subst hn
      simp [hh]
    · have hlt : pre.length < n := by omega
      have hx : ∃ x, (pre ++ h :: post)[n]? = some x ∧ x ∈ post := by
        rw [List.getElem?_append_right (by omega)]
        obtain ⟨k, hk⟩ : ∃ k, n - pre.length = k + 1 := ⟨n - pre.length - 1, by omega⟩
        rw [hk, List.getElem?_cons_succ]
        have hkl : k < post.length := by omega
        exact ⟨post[k], by rw [List.getElem?_eq_getElem hkl], List.getElem_mem hkl⟩
      obtain ⟨x, hx1, hx2⟩ := hx
      rw [hx1]
      simp only [hp x hx2, Bool.false_eq_true, if_false]
      exact ih hlt (by omega)

/-- Every list either has no matching entry or splits at the last one. -/
theorem last_match (name : Str) (hs : List Header) :
    (∀ h ∈ hs, nameEq name h = false) ∨
    ∃ pre h post, hs = pre ++ h :: post ∧ nameEq name h = true ∧ ∀ x ∈ post, nameEq name x = false := by
  induction hs with
  | nil => left; simp
  | cons a t ih =>
    rcases ih with h | ⟨pre, h, post, rfl, h2, h3⟩
    · cases ha : nameEq name a with
      | true => exact Or.inr ⟨[], a, t, rfl, ha, h⟩
      | false =>
        left
        intro x hx
        rcases List.mem_cons.1 hx with rfl | hx
        · exact ha
        · exact h x hx
    · exact Or.inr ⟨a :: pre, h, post, rfl, h2, h3⟩

theorem replaceIn_none {hs : List Header} {name : Str} (h : ∀ x ∈ hs, nameEq name x = false) (v : Str) :
    replaceIn hs name v = (none, hs ++ [(name, v)]) := by
  unfold replaceIn; rw [lastIndex_none _ h]

theorem replaceIn_some {pre post : List Header} {h : Header} {name : Str} (hh : nameEq name h = true)
    (hp : ∀ x ∈ post, nameEq name x = false) (v : Str) :
    replaceIn (pre ++ h :: post) name v = (some h.2, pre ++ (h.1, v) :: post) := by
  unfold replaceIn
  rw [lastIndex_last hh hp _ (by simp) (by simp; omega)]
  simp

theorem removeIn_none {hs : List Header} {name : Str} (h : ∀ x ∈ hs, nameEq name x = false) :
    removeIn hs name = (false, hs) := by
  unfold removeIn; rw [lastIndex_none _ h]

theorem removeIn_some {pre post : List Header} {h : Header} {name : Str} (hh : nameEq name h = true)
    (hp : ∀ x ∈ post, nameEq name x = false) :
    removeIn (pre ++ h :: post) name = (true, pre ++ post) := by
  unfold removeIn
  rw [lastIndex_last hh hp _ (by simp) (by simp; omega)]
  simp only
  rw [List.eraseIdx_append_of_length_le (Nat.le_refl _)]
  simp

theorem findHeader_none {name : Str} {hs : List Header} : findHeader name hs = none ↔ ∀ h ∈ hs, nameEq name h = false := by
  induction hs with
  | nil => simp [findHeader]
  | cons a t ih =>
    unfold findHeader
    cases ha : nameEq name a with
    | true => simp [ha]
    | false => simp [ha, ih]

theorem findHeader_append (name : Str) (a b : List Header) :
    findHeader name (a ++ b) = (findHeader name a).or (findHeader name b) := by
  induction a with
  | nil => simp [findHeader]
  | cons x t ih =>
    simp only [List.cons_append, findHeader]
    split
    · rfl
    · exact ih

theorem nameEq_self (name v : Str) : nameEq name (name, v) = true := by simp [nameEq]

theorem nameEq_congr {n m : Str} (h : PyUni.lower n = PyUni.lower m) (x : Header) : nameEq n x = nameEq m x := by
  unfold nameEq; rw [h]

theorem findHeader_congr {n m : Str} (h : PyUni.lower n = PyUni.lower m) (hs : List Header) : findHeader n hs = findHeader m hs := by
  induction hs with
  | nil => rfl
  | cons a t ih => simp only [findHeader, nameEq_congr h a, ih]

/-- Matching entries of another name are not touched. -/
theorem nameEq_other {n m : Str} (h : PyUni.lower n ≠ PyUni.lower m) {x : Header} (hx : nameEq n x = true) : nameEq m x = false := by
  simp only [nameEq, beq_iff_eq] at hx
  simp only [nameEq, beq_eq_false_iff_ne]
  rw [hx]; exact h

/-- Replacing keeps all lookups of other names. -/
theorem findHeader_replace_other {n m : Str} (h : PyUni.lower n ≠ PyUni.lower m) (hs : List Header) (v : Str) :
    findHeader m (replaceIn hs n v).2 = findHeader m hs := by
  rcases last_match n hs with h0 | ⟨pre, x, post, rfl, h1, h2⟩
  · rw [replaceIn_none h0, findHeader_append]
    have : findHeader m [(n, v)] = none := by
      rw [findHeader_none]; intro y hy
      rw [List.mem_singleton] at hy; subst hy
      exact nameEq_other h (nameEq_self n v)
    rw [this, Option.or_none]
  · rw [replaceIn_some h1 h2, findHeader_append, findHeader_append]
    congr 1
    have e1 : nameEq m (x.1, v) = false := by
      have : nameEq n (x.1, v) = true := h1
      exact nameEq_other h this
    simp only [findHeader, e1, nameEq_other h h1, Bool.false_eq_true, if_false]

/-- Removing keeps all lookups of other names. -/
theorem findHeader_remove_other {n m : Str} (h : PyUni.lower n ≠ PyUni.lower m) (hs : List Header) :
    findHeader m (removeIn hs n).2 = findHeader m hs := by
  rcases last_match n hs with h0 | ⟨pre, x, post, rfl, h1, h2⟩
  · rw [removeIn_none h0]
  · rw [removeIn_some h1 h2, findHeader_append, findHeader_append]
    congr 1
    simp only [findHeader, nameEq_other h h1, Bool.false_eq_true, if_false]

/-- With at most one matching entry, replacing sets the value. -/
theorem findHeader_replace_self {n : Str} {hs : List Header} (hu : (hs.filter (nameEq n)).length ≤ 1) (v : Str) :
    findHeader n (replaceIn hs n v).2 = some v := by
  rcases last_match n hs with h0 | ⟨pre, x, post, rfl, h1, h2⟩
  · rw [replaceIn_none h0, findHeader_append, findHeader_none.2 h0]
    simp [findHeader, nameEq_self]
  · have hpre : ∀ y ∈ pre, nameEq n y = false := by
      intro y hy
      cases hyn : nameEq n y with
      | false => rfl
      | true =>
        have : 0 < (pre.filter (nameEq n)).length := List.length_pos_iff.2 (by
          intro h0
          have := List.mem_filter.2 ⟨hy, hyn⟩
          rw [h0] at this; cases this)
        simp only [List.filter_append, List.filter_cons, h1, if_true, List.length_append, List.length_cons] at hu
        omega
    rw [replaceIn_some h1 h2, findHeader_append, findHeader_none.2 hpre]
    have : nameEq n (x.1, v) = true := h1
    simp [findHeader, this]

theorem findHeader_remove_self {n : Str} {hs : List Header} (hu : (hs.filter (nameEq n)).length ≤ 1) :
    findHeader n (removeIn hs n).2 = none := by
  rcases last_match n hs with h0 | ⟨pre, x, post, rfl, h1, h2⟩
  · rw [removeIn_none h0]; exact findHeader_none.2 h0
  · rw [removeIn_some h1 h2, findHeader_none]
    intro y hy
    rcases List.mem_append.1 hy with hy | hy
    · cases hyn : nameEq n y with
      | false => rfl
      | true =>
        have : 0 < (pre.filter (nameEq n)).length := List.length_pos_iff.2 (by
          intro h0
          have := List.mem_filter.2 ⟨hy, hyn⟩
          rw [h0] at this; cases this)
        simp only [List.filter_append, List.filter_cons, h1, if_true, List.length_append, List.length_cons] at hu
        omega
    · exact h2 y hy

/-- Replacing does not change how often another name occurs. -/
theorem filter_replace_other {n m : Str} (h : PyUni.lower n ≠ PyUni.lower m) (hs : List Header) (v : Str) :
    (replaceIn hs n v).2.filter (nameEq m) = hs.filter (nameEq m) := by
  rcases last_match n hs with h0 | ⟨pre, x, post, rfl, h1, h2⟩
  · rw [replaceIn_none h0]
    simp [List.filter_append, nameEq_other h (nameEq_self n v)]
  · rw [replaceIn_some h1 h2]
    have e1 : nameEq m (x.1, v) = false := nameEq_other h (show nameEq n (x.1, v) = true from h1)
    simp [List.filter_append, List.filter_cons, e1, nameEq_other h h1]

end Warcio.StatusAndHeaders
