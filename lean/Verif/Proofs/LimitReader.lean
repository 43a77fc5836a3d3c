import Verif.Model.LimitReader
import Verif.Proofs.Stream
import Verif.Spec.Streams

/-! # Proofs about `LimitReader` and call histories -/

namespace Warcio

set_option linter.unusedSectionVars false

variable {σ : Type} [PyStream σ]

/-- A stream whose reads hand out leading bytes of what is left, never more than asked. -/
structure Bounded (V : σ → Bytes → Prop) : Prop where
  read : ∀ {s rem}, V s rem → ∀ n : Nat, ∃ p rem' s', rem = p ++ rem' ∧ p.length ≤ n ∧
    PyStream.read s (some (n : Int)) = (.ok p, s') ∧ V s' rem'
  readline : ∀ {s rem}, V s rem → ∀ n : Nat, ∃ p rem' s', rem = p ++ rem' ∧ p.length ≤ n ∧
    PyStream.readline s (some (n : Int)) = (.ok p, s') ∧ V s' rem'

theorem ExactRead.bounded {V : σ → Bytes → Prop} (h : ExactRead V) : Bounded V where
  read := by
    intro s rem hs n
    obtain ⟨s', h1, h2⟩ := h.read_some hs n
    exact ⟨_, _, s', (List.take_append_drop n rem).symm, by simp; omega, h1, h2⟩
  readline := by
    intro s rem hs n
    obtain ⟨k, s', h1, h2, h3, h4, h5⟩ := h.readline_some hs n
    exact ⟨_, _, s', (List.take_append_drop k rem).symm, by simp; omega, h4, h5⟩

theorem FileObj.bounded : Bounded FileObj.View where
  read := by
    intro f rem hV n
    by_cases hn : n = 0
    · subst hn
      exact ⟨[], rem, f, rfl, by simp, by simp [PyStream.read, FileObj.read], hV⟩
    · obtain ⟨p, rem', s', h1, h2, _, h4, h5, _⟩ := FileObj.shortRead.read hV n (by omega)
      exact ⟨p, rem', s', h1, h2, h4, h5⟩
  readline := by
    intro f rem hV n
    subst hV
    have hn' : ¬ ((n : Int) < 0) := by omega
    refine ⟨(takeLine f.rest).take n, f.rest.drop ((takeLine f.rest).take n).length,
      { f with pos := f.pos + ((takeLine f.rest).take n).length }, ?_, by simp; omega, ?_, ?_⟩
    · have : f.rest.take ((takeLine f.rest).take n).length = (takeLine f.rest).take n := by
        rw [List.length_take]
        conv => rhs; rw [← take_takeLine_length f.rest, List.take_take]
      exact (List.take_append_drop _ f.rest).symm.trans (by rw [this])
    · simp only [PyStream.readline, FileObj.readline, askLen, hn', if_false, Int.toNat_natCast]
    · show FileObj.rest _ = _
      simp only [FileObj.rest, List.drop_drop]

namespace LimitReader

/-- A limited stream: at most `limit` of the bytes left in the wrapped stream. -/
def Lim (V : σ → Bytes → Prop) (r : LimitReader σ) (rem : Bytes) : Prop :=
  ∃ srem, V r.stream srem ∧ 0 ≤ r.limit ∧ rem = srem.take r.limit.toNat

/-- One call on a limited stream. -/
theorem call_spec {V : σ → Bytes → Prop} (hV : Bounded V) {r : LimitReader σ} {srem : Bytes}
    (hs : V r.stream srem) (hl : 0 ≤ r.limit) {c : Call} (hc : c.nonneg) :
    ∃ p srem' r', c.run r = (.ok p, r') ∧ srem = p ++ srem' ∧ V r'.stream srem' ∧
      r'.limit = r.limit - len p ∧ 0 ≤ r'.limit ∧ r'.origLimit = r.origLimit := by
  have hcl : 0 ≤ r.clampLen c.arg ∧ r.clampLen c.arg ≤ r.limit := by
    unfold clampLen
    cases h : c.arg with
    | none => simp [hl]
    | some n => have := hc n h; simp only; omega
  by_cases h0 : r.clampLen c.arg = 0
  · refine ⟨[], srem, r, ?_, rfl, hs, by simp [len], hl, rfl⟩
    cases c <;> simp only [Call.arg] at h0 <;>
      simp [Call.run, PyStream.read, PyStream.readline, LimitReader.read, LimitReader.readline, h0]
  · obtain ⟨m, hm⟩ : ∃ m : Nat, r.clampLen c.arg = (m : Int) := ⟨_, (Int.toNat_of_nonneg hcl.1).symm⟩
    cases c with
    | read n =>
      simp only [Call.arg] at h0 hm hcl
      obtain ⟨p, rem', s', h1, h2, h3, h4⟩ := hV.read hs m
      refine ⟨p, rem', { r with stream := s', limit := r.limit - len p }, ?_, h1, h4, rfl, ?_, rfl⟩
      · rw [hm] at h0
        simp only [Call.run, PyStream.read, LimitReader.read, hm, h0, if_false, h3]
      · simp only [len]; omega
    | readline n =>
      simp only [Call.arg] at h0 hm hcl
      obtain ⟨p, rem', s', h1, h2, h3, h4⟩ := hV.readline hs m
      refine ⟨p, rem', { r with stream := s', limit := r.limit - len p }, ?_, h1, h4, rfl, ?_, rfl⟩
      · rw [hm] at h0
        simp only [Call.run, PyStream.readline, LimitReader.readline, hm, h0, if_false, h3]
      · simp only [len]; omega

/-- A history of calls on a limited stream. -/
theorem calls_spec {V : σ → Bytes → Prop} (hV : Bounded V) : ∀ (cs : List Call) {r : LimitReader σ}
    {srem : Bytes}, V r.stream srem → 0 ≤ r.limit → (∀ c ∈ cs, c.nonneg) →
    ∃ (ps : List Bytes) (srem' : Bytes) (r' : LimitReader σ), runCalls r cs = (ps.map .ok, r') ∧ srem = ps.flatten ++ srem' ∧ V r'.stream srem' ∧
      r'.limit = r.limit - len ps.flatten ∧ 0 ≤ r'.limit ∧ r'.origLimit = r.origLimit := by
  intro cs
  induction cs with
  | nil => intro r srem hs hl _; exact ⟨[], srem, r, rfl, rfl, hs, by simp [len], hl, rfl⟩
  | cons c cs ih =>
    intro r srem hs hl hc
    obtain ⟨p, srem1, r1, h1, h2, h3, h4, h5, h6⟩ := call_spec hV hs hl (hc c (by simp))
    obtain ⟨ps, srem2, r2, k1, k2, k3, k4, k5, k6⟩ := ih h3 h5 (fun c' hc' => hc c' (by simp [hc']))
    refine ⟨p :: ps, srem2, r2, ?_, ?_, k3, ?_, k5, by rw [k6, h6]⟩
    · simp [runCalls, h1, k1]
    · rw [h2, k2]; simp
    · rw [k4, h4]; simp [len]; omega

/-- Over an exact stream `read` is exact up to the limit. -/
theorem read_exact {V : σ → Bytes → Prop} (hV : ExactRead V) {r : LimitReader σ} {rem : Bytes}
    (h : Lim V r rem) (n : Option Int) (hn : ∀ m, n = some m → 0 ≤ m) :
    ∃ r', r.read n = (.ok ((Call.read n).expect rem), r') ∧
      Lim V r' (rem.drop ((Call.read n).expect rem).length) := by
  obtain ⟨srem, hs, hl, hrem⟩ := h
  have hcl : 0 ≤ r.clampLen n ∧ r.clampLen n ≤ r.limit := by
    unfold clampLen
    cases h : n with
    | none => simp [hl]
    | some k => have := hn k h; simp only; omega
  have hex : (Call.read n).expect rem = srem.take (r.clampLen n).toNat := by
    unfold clampLen
    cases h : n with
    | none => simp [Call.expect, hrem]
    | some k =>
      have := hn k h
      simp only [Call.expect, hrem, List.take_take]
      congr 1; omega
  rw [hex]
  have hdrop : rem.drop (srem.take (r.clampLen n).toNat).length =
      (srem.drop (r.clampLen n).toNat).take (r.limit - len (srem.take (r.clampLen n).toNat)).toNat := by
    rw [hrem]
    have e : ∀ a b : Nat, a ≤ b → (srem.take b).drop (srem.take a).length = (srem.drop a).take (b - (srem.take a).length) := by
      intro a b hab
      rw [List.drop_take]
      congr 1
      by_cases h : a ≤ srem.length
      · rw [List.length_take, Nat.min_eq_left h]
      · rw [List.length_take, Nat.min_eq_right (by omega)]
        rw [List.drop_of_length_le (by omega), List.drop_of_length_le (by omega)]
    rw [e _ _ (by omega)]
    congr 1
    simp only [len]; omega
  by_cases h0 : r.clampLen n = 0
  · refine ⟨r, by simp [LimitReader.read, h0], ?_⟩
    simp only [h0, Int.toNat_zero, List.take_zero, List.length_nil, List.drop_zero]
    exact ⟨srem, hs, hl, hrem⟩
  · obtain ⟨m, hm⟩ : ∃ m : Nat, r.clampLen n = (m : Int) := ⟨_, (Int.toNat_of_nonneg hcl.1).symm⟩
    obtain ⟨s', h1, h2⟩ := hV.read_some hs m
    rw [hdrop]
    rw [hm] at h0 hcl ⊢
    refine ⟨{ r with stream := s', limit := r.limit - len (srem.take m) }, ?_, ?_⟩
    · simp only [LimitReader.read, hm, h0, if_false, h1, Int.toNat_natCast]
    · refine ⟨srem.drop m, h2, ?_, ?_⟩
      · simp only [len, List.length_take]; omega
      · simp

end LimitReader
end Warcio
