import Verif.Py.Stream
import Verif.Proofs.Lines

/-!
# Laws of streams

A *view* `V : σ → Bytes → Prop` says which bytes a stream state will still deliver.
-/

namespace Warcio

/-- `read(n)` with `n > 0` delivers a prefix of what is left, at most `n` bytes, and nothing
only at the end; `tell` advances accordingly.  This is all a raw file, pipe or socket
guarantees. -/
structure ShortRead {σ : Type} [PyStream σ] (V : σ → Bytes → Prop) : Prop where
  read : ∀ {s rem}, V s rem → ∀ n : Nat, 0 < n → ∃ p rem' s', rem = p ++ rem' ∧ p.length ≤ n ∧
    (p = [] → rem = []) ∧ PyStream.read s (some (n : Int)) = (.ok p, s') ∧ V s' rem' ∧
    PyStream.tell s' = PyStream.tell s + len p
  bound : ∀ {s rem}, V s rem → rem.length ≤ PyStream.bound s

/-- The same without the position. -/
structure Short {σ : Type} [PyStream σ] (V : σ → Bytes → Prop) : Prop where
  read : ∀ {s rem}, V s rem → ∀ n : Nat, 0 < n → ∃ p rem' s', rem = p ++ rem' ∧ p.length ≤ n ∧
    (p = [] → rem = []) ∧ PyStream.read s (some (n : Int)) = (.ok p, s') ∧ V s' rem'
  bound : ∀ {s rem}, V s rem → rem.length ≤ PyStream.bound s

theorem ShortRead.short {σ : Type} [PyStream σ] {V : σ → Bytes → Prop} (h : ShortRead V) : Short V where
  read := by
    intro s rem hs n hn
    obtain ⟨p, rem', s', h1, h2, h3, h4, h5, _⟩ := h.read hs n hn
    exact ⟨p, rem', s', h1, h2, h3, h4, h5⟩
  bound := h.bound

instance {σ : Type} [PyStream σ] {V : σ → Bytes → Prop} : Coe (ShortRead V) (Short V) := ⟨ShortRead.short⟩

/-- `read` delivers exactly what is asked for and left; `readline` without length delivers
exactly the next line; `readline(n)` delivers part of the next line, at most `n` bytes, and
nothing only at the end. -/
structure ExactRead {σ : Type} [PyStream σ] (V : σ → Bytes → Prop) : Prop where
  read_some : ∀ {s rem}, V s rem → ∀ n : Nat, ∃ s',
    PyStream.read s (some (n : Int)) = (.ok (rem.take n), s') ∧ V s' (rem.drop n)
  read_none : ∀ {s rem}, V s rem → ∃ s', PyStream.read s none = (.ok rem, s') ∧ V s' []
  readline_none : ∀ {s rem}, V s rem → ∃ s',
    PyStream.readline s none = (.ok (takeLine rem), s') ∧ V s' (dropLine rem)
  readline_some : ∀ {s rem}, V s rem → ∀ n : Nat, ∃ k s', k ≤ (takeLine rem).length ∧ k ≤ n ∧
    (0 < n → k = 0 → rem = []) ∧
    PyStream.readline s (some (n : Int)) = (.ok (rem.take k), s') ∧ V s' (rem.drop k)
  bound : ∀ {s rem}, V s rem → rem.length ≤ PyStream.bound s

/-- `read(n)` delivers exactly what is asked for and left. -/
structure Gets {σ : Type} [PyStream σ] (V : σ → Bytes → Prop) : Prop where
  read_some : ∀ {s rem}, V s rem → ∀ n : Nat, ∃ s',
    PyStream.read s (some (n : Int)) = (.ok (rem.take n), s') ∧ V s' (rem.drop n)
  bound : ∀ {s rem}, V s rem → rem.length ≤ PyStream.bound s

theorem ExactRead.gets {σ : Type} [PyStream σ] {V : σ → Bytes → Prop} (h : ExactRead V) : Gets V := ⟨h.read_some, h.bound⟩

theorem Gets.short {σ : Type} [PyStream σ] {V : σ → Bytes → Prop} (h : Gets V) : Short V where
  read := by
    intro s rem hs n hn
    obtain ⟨s', h1, h2⟩ := h.read_some hs n
    refine ⟨rem.take n, rem.drop n, s', by simp, by simp; omega, ?_, h1, h2⟩
    intro h0
    rcases List.take_eq_nil_iff.1 h0 with h | h
    · omega
    · exact h
  bound := h.bound

/-- `readline(n)` is exact for lines of at most `m` bytes. -/
def LineLaw {σ : Type} [PyStream σ] (W : σ → Bytes → Prop) (m : Nat) : Prop :=
  ∀ {s rem}, W s rem → (10 : UInt8) ∈ rem → (takeLine rem).length ≤ m → ∀ n : Nat, ∃ s',
    PyStream.readline s (some (n : Int)) = (.ok ((takeLine rem).take n), s') ∧ W s' (rem.drop ((takeLine rem).take n).length)

/-- `readline(n)` delivers the next line up to `n` bytes, exactly. -/
def ExactLine {σ : Type} [PyStream σ] (V : σ → Bytes → Prop) : Prop :=
  ∀ {s rem}, V s rem → ∀ n : Nat, ∃ s',
    PyStream.readline s (some (n : Int)) = (.ok ((takeLine rem).take n), s') ∧
    V s' (rem.drop ((takeLine rem).take n).length)

/-- The view of a file: everything after the position. -/
def FileObj.View (f : FileObj) (rem : Bytes) : Prop := f.rest = rem

theorem FileObj.rest_advance (f : FileObj) (n : Nat) :
    FileObj.rest { f with pos := f.pos + (f.rest.take n).length } = f.rest.drop n := by
  simp only [FileObj.rest, List.length_take, List.length_drop]
  rw [List.drop_drop]
  by_cases h : n ≤ f.content.length - f.pos
  · rw [Nat.min_eq_left h]
  · rw [Nat.min_eq_right (by omega)]
    rw [List.drop_of_length_le (by omega), List.drop_of_length_le (by omega)]

theorem FileObj.shortRead : ShortRead FileObj.View where
  read := by
    intro f rem hV n hn
    subst hV
    have hn' : ¬ ((n : Int) < 0) := by omega
    have hn0 : ¬ ((n : Int) = 0) := by omega
    simp only [PyStream.read, FileObj.read, hn', hn0, if_false, PyStream.tell]
    cases hc : f.caps with
    | nil =>
      refine ⟨f.rest.take n, f.rest.drop n, _, by simp, by simp; omega, ?_, rfl, ?_, ?_⟩
      · intro h; cases hr : f.rest with
        | nil => rfl
        | cons x xs => rw [hr] at h; cases n with
          | zero => omega
          | succ n => simp at h
      · simpa [FileObj.View, FileObj.rest] using f.rest_advance n
      · simp [len]
    | cons c cs =>
      refine ⟨f.rest.take (max 1 (min n c)), f.rest.drop (max 1 (min n c)), _, by simp, ?_, ?_, rfl, ?_, ?_⟩
      · simp; omega
      · intro h; cases hr : f.rest with
        | nil => rfl
        | cons x xs =>
          rw [hr] at h
          obtain ⟨k, hk⟩ : ∃ k, max 1 (min n c) = k + 1 := ⟨max 1 (min n c) - 1, by omega⟩
          rw [hk] at h; simp at h
      · simpa [FileObj.View, FileObj.rest] using f.rest_advance (max 1 (min n c))
      · simp [len]
  bound := by
    intro f rem h
    simp only [FileObj.View] at h
    simp [PyStream.bound, h]

/-- `UnseekableYetTellable` keeps the law and counts from zero. -/
theorem UnseekableYetTellable.shortRead {σ} [PyStream σ] {V : σ → Bytes → Prop} (h : ShortRead V) :
    ShortRead (fun (u : UnseekableYetTellable σ) rem => V u.fh rem) where
  read := by
    intro u rem hV n hn
    obtain ⟨p, rem', s', h1, h2, h3, h4, h5, _⟩ := h.read hV n hn
    refine ⟨p, rem', ⟨s', u.offset + len p⟩, h1, h2, h3, ?_, h5, ?_⟩
    · simp [PyStream.read, h4]
    · simp [PyStream.tell]
  bound := by intro u rem hV; exact h.bound hV

/-- Position and remaining data always add up. -/
theorem ShortRead.withTell {σ} [PyStream σ] {V : σ → Bytes → Prop} (h : ShortRead V) (T : Int) :
    ShortRead (fun s rem => V s rem ∧ PyStream.tell s + len rem = T) where
  read := by
    rintro s rem ⟨hV, hT⟩ n hn
    obtain ⟨p, rem', s', h1, h2, h3, h4, h5, h6⟩ := h.read hV n hn
    refine ⟨p, rem', s', h1, h2, h3, h4, ⟨h5, ?_⟩, h6⟩
    rw [h6, ← hT, h1]; simp [len]; omega
  bound := by rintro s rem ⟨hV, _⟩; exact h.bound hV

/-- `BytesIO` is exact. -/
theorem Bytes.exactRead : ExactRead (fun (s rem : Bytes) => s = rem) where
  read_some := by
    intro s rem h n; subst h
    have hn' : ¬ ((n : Int) < 0) := by omega
    exact ⟨_, by simp [PyStream.read, askLen, hn'], rfl⟩
  read_none := by
    intro s rem h; subst h
    exact ⟨_, by simp only [PyStream.read, askLen, List.take_length, List.drop_length], rfl⟩
  readline_none := by
    intro s rem h; subst h
    exact ⟨s.drop (takeLine s).length, by simp only [PyStream.readline, askLen, List.take_length],
      drop_takeLine_length s⟩
  readline_some := by
    intro s rem h n; subst h
    have hn' : ¬ ((n : Int) < 0) := by omega
    refine ⟨min n (takeLine s).length, _, by omega, by omega, ?_, ?_, rfl⟩
    · intro hn hk
      have : (takeLine s).length = 0 := by omega
      exact takeLine_eq_nil.1 (List.length_eq_zero_iff.1 this)
    · have e : (takeLine s).take n = s.take (min n (takeLine s).length) := by
        conv => lhs; rw [← take_takeLine_length s]
        rw [List.take_take]
      simp only [PyStream.readline, askLen, hn', if_false, Int.toNat_natCast, e]
      congr 1
      rw [List.length_take, Nat.min_eq_left]
      have := takeLine_length_le s; omega
  bound := by intro s rem h; subst h; exact Nat.le_refl _

theorem Bytes.exactLine : ExactLine (fun (s rem : Bytes) => s = rem) := by
  intro s rem h n; subst h
  have hn' : ¬ ((n : Int) < 0) := by omega
  exact ⟨_, by simp only [PyStream.readline, askLen, hn', if_false, Int.toNat_natCast], rfl⟩

end Warcio
