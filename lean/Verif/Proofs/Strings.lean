import Verif.Py.Basic

/-! # Stripping and splitting -/

namespace Warcio

section
variable {α : Type} (p : α → Bool)

theorem dropWhile_nil_iff {s : List α} : s.dropWhile p = [] ↔ ∀ x ∈ s, p x = true := by
  induction s with
  | nil => simp
  | cons x xs ih =>
    rw [List.dropWhile_cons]
    cases h : p x <;> simp [h, ih]

theorem mem_takeWhile {s : List α} {x : α} (h : x ∈ s.takeWhile p) : p x = true := by
  induction s with
  | nil => simp at h
  | cons y ys ih =>
    rw [List.takeWhile_cons] at h
    split at h
    · rename_i hy
      rcases List.mem_cons.1 h with rfl | h
      · exact hy
      · exact ih h
    · simp at h

theorem rdropWhile_append_all {a b : List α} (h : ∀ x ∈ b, p x = true) : rdropWhile p (a ++ b) = rdropWhile p a := by
  unfold rdropWhile
  rw [List.reverse_append, List.dropWhile_append_of_pos]
  intro x hx; exact h x (List.mem_reverse.1 hx)

theorem rdropWhile_append_ne {a b : List α} (h : rdropWhile p b ≠ []) : rdropWhile p (a ++ b) = a ++ rdropWhile p b := by
  unfold rdropWhile at h ⊢
  rw [List.reverse_append]
  have : b.reverse.dropWhile p ≠ [] := by intro h0; rw [h0] at h; exact h rfl
  generalize b.reverse = c at *
  induction c with
  | nil => simp at this
  | cons x xs ih =>
    rw [List.cons_append, List.dropWhile_cons, List.dropWhile_cons]
    rw [List.dropWhile_cons] at this
    split
    · rename_i hx; rw [if_pos hx] at this; exact ih (by simpa [hx] using h) this
    · simp

theorem rdropWhile_eq_nil {s : List α} : rdropWhile p s = [] ↔ ∀ x ∈ s, p x = true := by
  unfold rdropWhile
  rw [List.reverse_eq_nil_iff, dropWhile_nil_iff]
  simp

theorem rdropWhile_prefix (s : List α) : rdropWhile p s <+: s := by
  unfold rdropWhile
  have h := List.dropWhile_suffix (p := p) (l := s.reverse)
  have := List.reverse_prefix.2 h
  rwa [List.reverse_reverse] at this

theorem rdropWhile_spec (s : List α) : ∃ t, s = rdropWhile p s ++ t ∧ ∀ x ∈ t, p x = true := by
  unfold rdropWhile
  refine ⟨(s.reverse.takeWhile p).reverse, ?_, ?_⟩
  · rw [← List.reverse_append, List.takeWhile_append_dropWhile, List.reverse_reverse]
  · intro x hx
    exact mem_takeWhile p (List.mem_reverse.1 hx)

theorem rdropWhile_idem (s : List α) : rdropWhile p (rdropWhile p s) = rdropWhile p s := by
  unfold rdropWhile
  rw [List.reverse_reverse]
  congr 1
  generalize s.reverse = c
  induction c with
  | nil => rfl
  | cons x xs ih =>
    rw [List.dropWhile_cons]
    split
    · exact ih
    · rename_i h; rw [List.dropWhile_cons, if_neg h]

/-- No trailing element satisfies `p`. -/
theorem rdropWhile_concat {s : List α} {x : α} (h : p x = false) : rdropWhile p (s ++ [x]) = s ++ [x] := by
  unfold rdropWhile
  simp [h]

theorem rdropWhile_self_iff {s : List α} : rdropWhile p s = s ↔ ∀ a x, s = a ++ [x] → p x = false := by
  constructor
  · intro h a x hs
    subst hs
    cases hp : p x with
    | false => rfl
    | true =>
      rw [rdropWhile_append_all p (b := [x]) (by simpa using hp)] at h
      have := (rdropWhile_prefix p a).length_le
      rw [h] at this; simp at this; omega
  · intro h
    rcases List.eq_nil_or_concat s with rfl | ⟨a, x, rfl⟩
    · rfl
    · rw [List.concat_eq_append]; exact rdropWhile_concat p (h a x (by simp))

theorem rdropWhile_append_self {a b : List α} (hb : rdropWhile p b = b) (hne : b ≠ []) : rdropWhile p (a ++ b) = a ++ b := by
  rw [rdropWhile_append_ne p (by rw [hb]; exact hne), hb]

end

theorem mem_rdropWhile {α : Type} {p : α → Bool} {s : List α} {x : α} (h : x ∈ rdropWhile p s) : x ∈ s :=
  (rdropWhile_prefix p s).subset h

theorem mem_dropWhile {α : Type} {p : α → Bool} {s : List α} {x : α} (h : x ∈ s.dropWhile p) : x ∈ s :=
  (List.dropWhile_suffix p).subset h

theorem dropWhile_idem {α : Type} (p : α → Bool) (s : List α) : (s.dropWhile p).dropWhile p = s.dropWhile p := by
  induction s with
  | nil => rfl
  | cons x xs ih =>
    rw [List.dropWhile_cons]
    split
    · exact ih
    · rename_i h; rw [List.dropWhile_cons, if_neg h]

/-- `lstrip` of what has no trailing whitespace has none. -/
theorem rdropWhile_dropWhile {α : Type} (p : α → Bool) {s : List α} (h : rdropWhile p s = s) :
    rdropWhile p (s.dropWhile p) = s.dropWhile p := by
  rw [rdropWhile_self_iff] at h ⊢
  intro a x hs
  have : s = s.takeWhile p ++ (a ++ [x]) := by rw [← hs, List.takeWhile_append_dropWhile]
  exact h (s.takeWhile p ++ a) x (by rw [List.append_assoc]; exact this)

/-- `rstrip` keeps the front stripped. -/
theorem dropWhile_rdropWhile {α : Type} (p : α → Bool) {s : List α} (h : s.dropWhile p = s) :
    (rdropWhile p s).dropWhile p = rdropWhile p s := by
  cases s with
  | nil => rfl
  | cons x xs =>
    have hx : p x = false := by
      cases hp : p x with
      | false => rfl
      | true =>
        rw [List.dropWhile_cons, if_pos hp] at h
        have := (List.dropWhile_suffix p (l := xs)).length_le
        rw [h] at this; simp at this; omega
    cases hr : rdropWhile p (x :: xs) with
    | nil => rfl
    | cons y ys =>
      have hpre := rdropWhile_prefix p (x :: xs)
      rw [hr, List.cons_prefix_cons] at hpre
      rw [List.dropWhile_cons, if_neg (by rw [hpre.1, hx]; simp)]

theorem rstrip_strip (s : Str) : rstrip (strip s) = strip s := rdropWhile_idem _ _
theorem lstrip_strip (s : Str) : lstrip (strip s) = strip s := dropWhile_rdropWhile _ (dropWhile_idem _ _)
theorem strip_of {s : Str} (h1 : lstrip s = s) (h2 : rstrip s = s) : strip s = s := by unfold strip; rw [h1, h2]
theorem strip_strip (s : Str) : strip (strip s) = strip s := strip_of (lstrip_strip s) (rstrip_strip s)
theorem strip_blank (s : Str) : strip (' ' :: s) = strip s := rfl

section
variable {α : Type} [DecidableEq α]

theorem split1_append {c : α} {a b : List α} (h : c ∉ a) : split1 c (a ++ c :: b) = (a, some b) := by
  induction a with
  | nil => simp [split1]
  | cons x xs ih =>
    have hx : x ≠ c := fun e => h (e ▸ List.mem_cons_self)
    have := ih (fun hm => h (List.mem_cons_of_mem _ hm))
    simp [split1, hx, this]

theorem split1_none {c : α} {a : List α} (h : c ∉ a) : split1 c a = (a, none) := by
  induction a with
  | nil => rfl
  | cons x xs ih =>
    have hx : x ≠ c := fun e => h (e ▸ List.mem_cons_self)
    have := ih (fun hm => h (List.mem_cons_of_mem _ hm))
    simp [split1, hx, this]

theorem split1_some {c : α} {s a b : List α} (h : split1 c s = (a, some b)) : s = a ++ c :: b ∧ c ∉ a := by
  induction s generalizing a with
  | nil => simp [split1] at h
  | cons x xs ih =>
    unfold split1 at h
    split at h
    · rename_i hx
      simp only [Prod.mk.injEq, Option.some.injEq] at h
      obtain ⟨rfl, rfl⟩ := h
      subst hx; simp
    · rename_i hx
      simp only [Prod.mk.injEq] at h
      obtain ⟨rfl, h2⟩ := h
      obtain ⟨h3, h4⟩ := ih (a := (split1 c xs).1) (by rw [← h2])
      refine ⟨by rw [List.cons_append, ← h3], ?_⟩
      simp only [List.mem_cons, not_or]
      exact ⟨fun e => hx e.symm, h4⟩

theorem split1_none_inv {c : α} {s a : List α} (h : split1 c s = (a, none)) : s = a ∧ c ∉ s := by
  by_cases hc : c ∈ s
  · obtain ⟨x, y, rfl⟩ := List.append_of_mem hc
    exfalso
    have : ∀ x y : List α, (split1 c (x ++ c :: y)).2 ≠ none := by
      intro x y
      induction x with
      | nil => simp [split1]
      | cons z zs ih => simp only [List.cons_append, split1]; split <;> simp [ih]
    exact this x y (by rw [h])
  · rw [split1_none hc] at h
    simp only [Prod.mk.injEq, and_true] at h
    exact ⟨h, hc⟩

end
end Warcio
