import Verif.Model.RecordLoader
import Verif.Proofs.LimitReader
import Verif.Proofs.Digest
import Verif.Proofs.HeaderParse
import Verif.Proofs.Utf8

/-!
# Proofs about the stream of a record

`RawStream.View W raw b t`: the record stream still delivers `b`, and behind it the archive
stream holds `t`.
-/

set_option linter.unusedSectionVars false

namespace Warcio

variable {σ : Type} [PyStream σ] {W : σ → Bytes → Prop}

/-- A limited stream that still delivers `b`; the wrapped stream then holds `t`. -/
structure LimitReader.View (W : σ → Bytes → Prop) (r : LimitReader σ) (b t : Bytes) : Prop where
  stream : W r.stream (b ++ t)
  le : len b ≤ r.limit
  short : len b < r.limit → t = []

/-- One call. -/
theorem LimitReader.View.call (hW : ExactRead W) {r : LimitReader σ} {b t : Bytes} (h : r.View W b t) {c : Call} (hc : c.nonneg) :
    ∃ p b' r', c.run r = (.ok p, r') ∧ b = p ++ b' ∧ r'.View W b' t ∧ r'.tell = r.tell + len p ∧
      (p = [] → b = [] ∨ c.arg = some 0) ∧ (∀ n, c = .read n → p = c.expect b) := by
  have hl : 0 ≤ r.limit := by have := h.le; simp only [len] at this; omega
  have hcl : 0 ≤ r.clampLen c.arg ∧ r.clampLen c.arg ≤ r.limit := by
    unfold clampLen
    cases hh : c.arg with
    | none => simp [hl]
    | some n => have := hc n hh; simp only; omega
  have hexp : ∀ n, c = .read n → c.expect b = b.take (r.clampLen c.arg).toNat := by
    intro n hn
    subst hn
    have := h.le
    simp only [len] at this
    cases n with
    | none =>
      simp only [Call.expect, Call.arg, clampLen]
      rw [List.take_of_length_le (by omega)]
    | some n =>
      have h1 := hc n rfl
      simp only [Call.expect, Call.arg, clampLen]
      by_cases h2 : n ≤ r.limit
      · rw [Int.min_eq_left h2]
      · rw [Int.min_eq_right (by omega)]
        rw [List.take_of_length_le (by omega), List.take_of_length_le (by omega)]
  by_cases h0 : r.clampLen c.arg = 0
  · refine ⟨[], b, r, ?_, rfl, h, by simp [len], ?_, ?_⟩
    · cases c <;> simp only [Call.arg] at h0 <;>
        simp [Call.run, PyStream.read, PyStream.readline, LimitReader.read, LimitReader.readline, h0]
    · intro _
      unfold clampLen at h0
      cases hh : c.arg with
      | none =>
        rw [hh] at h0
        left
        have := h.le; simp only [len] at this
        exact List.length_eq_zero_iff.1 (by simp only at h0; omega)
      | some n =>
        rw [hh] at h0
        simp only at h0
        have := h.le; simp only [len] at this
        by_cases hn : n = 0
        · right; rw [hn]
        · left; exact List.length_eq_zero_iff.1 (by omega)
    · intro n hn; rw [hexp n hn, h0]; rfl
  · obtain ⟨m, hm⟩ : ∃ m : Nat, r.clampLen c.arg = (m : Int) := ⟨_, (Int.toNat_of_nonneg hcl.1).symm⟩
    have key : ∀ k : Nat, (k : Int) ≤ r.limit → ∀ s', W s' ((b ++ t).drop k) →
        (b ++ t).take k = b.take k ∧ b = b.take k ++ b.drop k ∧
        LimitReader.View W { r with stream := s', limit := r.limit - len (b.take k) } (b.drop k) t := by
      intro k hk s' hs'
      have hle := h.le
      simp only [len] at hle
      refine ⟨?_, (List.take_append_drop _ _).symm, ?_, ?_, ?_⟩
      · by_cases hkb : k ≤ b.length
        · rw [List.take_append_of_le_length hkb]
        · rw [h.short (by simp only [len]; omega)]; simp
      · by_cases hkb : k ≤ b.length
        · rw [List.drop_append_of_le_length hkb] at hs'; exact hs'
        · rw [h.short (by simp only [len]; omega)] at hs' ⊢; simpa using hs'
      · simp only [len, List.length_drop, List.length_take]; omega
      · intro hh
        simp only [len, List.length_drop, List.length_take] at hh
        exact h.short (by simp only [len]; omega)
    cases c with
    | read n =>
      simp only [Call.arg] at h0 hm hcl
      obtain ⟨s', h1, h2⟩ := hW.read_some h.stream m
      obtain ⟨k1, k2, k3⟩ := key m (by omega) s' h2
      refine ⟨b.take m, b.drop m, _, ?_, k2, k3, ?_, ?_, ?_⟩
      · rw [hm] at h0
        simp only [Call.run, PyStream.read, LimitReader.read, hm, h0, if_false, h1, k1]
      · simp only [LimitReader.tell]; omega
      · intro hp
        have hmp : 0 < m := by omega
        cases b with
        | nil => exact .inl rfl
        | cons x xs => cases m with
          | zero => omega
          | succ m => simp at hp
      · intro n' hn; rw [hexp n' hn]; simp only [Call.arg, hm]; rfl
    | readline n =>
      simp only [Call.arg] at h0 hm hcl
      obtain ⟨k, s', h1, h2, h3, h4, h5⟩ := hW.readline_some h.stream m
      obtain ⟨k1, k2, k3⟩ := key k (by omega) s' h5
      refine ⟨b.take k, b.drop k, _, ?_, k2, k3, ?_, ?_, ?_⟩
      · rw [hm] at h0
        simp only [Call.run, PyStream.readline, LimitReader.readline, hm, h0, if_false, h4, k1]
      · simp only [LimitReader.tell]; omega
      · intro hp
        left
        cases b with
        | nil => rfl
        | cons x xs => cases k with
          | zero => have := h3 (by omega) rfl; simp at this
          | succ m => simp at hp
      · intro n' hn; cases hn

/-- A limit around a limit that is the same. -/
theorem LimitReader.nested (outer : LimitReader (LimitReader σ)) (h : outer.limit = outer.stream.limit) (c : Call) :
    c.run outer = ((c.run outer.stream).1,
      { outer with stream := (c.run outer.stream).2, limit := (c.run outer.stream).2.limit }) := by
  obtain ⟨inner, limit, orig⟩ := outer
  simp only at h
  subst h
  have hcl : ∀ a : Option Int, inner.clampLen (some (inner.clampLen a)) = inner.clampLen a := by
    intro a
    cases a with
    | none => simp [clampLen]
    | some n => simp only [clampLen]; omega
  cases c with
  | read n =>
    have e : (⟨inner, inner.limit, orig⟩ : LimitReader (LimitReader σ)).clampLen n = inner.clampLen n := by cases n <;> rfl
    simp only [Call.run, PyStream.read, LimitReader.read, e, hcl]
    by_cases h0 : inner.clampLen n = 0
    · simp only [h0, if_true]
    · simp only [h0, if_false]
      split <;> rename_i hr <;> (split at hr <;> cases hr <;> simp)
  | readline n =>
    have e : (⟨inner, inner.limit, orig⟩ : LimitReader (LimitReader σ)).clampLen n = inner.clampLen n := by cases n <;> rfl
    simp only [Call.run, PyStream.readline, LimitReader.readline, e, hcl]
    by_cases h0 : inner.clampLen n = 0
    · simp only [h0, if_true]
    · simp only [h0, if_false]
      split <;> rename_i hr <;> (split at hr <;> cases hr <;> simp)

namespace RawStream

variable [Hashlib]

/-- The record stream still delivers `b`; the archive stream then holds `t`. -/
def View (W : σ → Bytes → Prop) : RawStream σ → Bytes → Bytes → Prop
  | .bare s, b, t => W s b ∧ t = []
  | .limited r, b, t => r.View W b t
  | .verifying d, b, t => DigestReader.Tame d ∧ d.lim.limit = d.lim.stream.limit ∧ d.lim.origLimit = d.lim.stream.origLimit ∧
      d.lim.stream.View W b t

/-- Whether the length of the block is known. -/
def isLimited : RawStream σ → Bool
  | .bare _ => false
  | _ => true

theorem View.under {raw : RawStream σ} {b t : Bytes} (h : raw.View W b t) : W raw.under (b ++ t) := by
  cases raw with
  | bare s => obtain ⟨h1, rfl⟩ := h; simpa [RawStream.under] using h1
  | limited r => exact h.stream
  | verifying d => exact h.2.2.2.stream

theorem View.bound (hW : ExactRead W) {raw : RawStream σ} {b t : Bytes} (h : raw.View W b t) : b.length ≤ PyStream.bound raw := by
  have h1 := hW.bound h.under
  have : PyStream.bound raw = PyStream.bound raw.under := by cases raw <;> rfl
  rw [this]
  simp at h1; omega

/-- One call on a record's stream. -/
theorem View.call (hW : ExactRead W) {raw : RawStream σ} {b t : Bytes} (h : raw.View W b t) {c : Call} (hc : c.nonneg) :
    ∃ p b' raw', c.run raw = (.ok p, raw') ∧ b = p ++ b' ∧ View W raw' b' t ∧ raw'.isLimited = raw.isLimited ∧
      (raw.isLimited = true → PyStream.tell raw' = PyStream.tell raw + len p) ∧
      (p = [] → b = [] ∨ c.arg = some 0) ∧ (∀ n, c = .read n → p = c.expect b) := by
  cases raw with
  | bare s =>
    obtain ⟨h1, rfl⟩ := h
    cases c with
    | read n =>
      cases n with
      | none =>
        obtain ⟨s', k1, k2⟩ := hW.read_none h1
        exact ⟨b, [], .bare s', by simp [Call.run, PyStream.read, k1], by simp, ⟨k2, rfl⟩, rfl, (fun h => nomatch h), fun h => .inl h,
          (fun n hn => by cases hn; rfl)⟩
      | some n =>
        obtain ⟨m, rfl⟩ : ∃ m : Nat, n = (m : Int) := ⟨n.toNat, (Int.toNat_of_nonneg (hc n rfl)).symm⟩
        obtain ⟨s', k1, k2⟩ := hW.read_some h1 m
        refine ⟨b.take m, b.drop m, .bare s', by simp [Call.run, PyStream.read, k1], by simp, ⟨k2, rfl⟩, rfl, (fun h => nomatch h), ?_,
          (fun n hn => by cases hn; rfl)⟩
        intro hp
        cases b with
        | nil => exact .inl rfl
        | cons x xs => cases m with
          | zero => exact .inr rfl
          | succ m => simp at hp
    | readline n =>
      cases n with
      | none =>
        obtain ⟨s', k1, k2⟩ := hW.readline_none h1
        exact ⟨takeLine b, dropLine b, .bare s', by simp [Call.run, PyStream.readline, k1], (takeLine_append_dropLine b).symm, ⟨k2, rfl⟩, rfl,
          (fun h => nomatch h), fun h => .inl (takeLine_eq_nil.1 h), (fun n hn => by cases hn)⟩
      | some n =>
        obtain ⟨m, rfl⟩ : ∃ m : Nat, n = (m : Int) := ⟨n.toNat, (Int.toNat_of_nonneg (hc n rfl)).symm⟩
        obtain ⟨k, s', _, _, k0, k1, k2⟩ := hW.readline_some h1 m
        refine ⟨b.take k, b.drop k, .bare s', by simp [Call.run, PyStream.readline, k1], by simp, ⟨k2, rfl⟩, rfl, (fun h => nomatch h), ?_,
          (fun n hn => by cases hn)⟩
        intro hp
        by_cases hm : m = 0
        · right; simp [Call.arg, hm]
        · left
          cases b with
          | nil => rfl
          | cons x xs => cases k with
            | zero => have := k0 (by omega) rfl; simp at this
            | succ m => simp at hp
  | limited r =>
    obtain ⟨p, b', r', k1, k2, k3, k4, k5, k6⟩ := LimitReader.View.call hW h hc
    refine ⟨p, b', .limited r', ?_, k2, k3, rfl, fun _ => k4, k5, k6⟩
    cases c <;> simp only [Call.run] at k1 <;> simp [Call.run, PyStream.read, PyStream.readline] <;>
      simp only [PyStream.read, PyStream.readline] at k1 <;> rw [k1] <;> simp
  | verifying d =>
    obtain ⟨h1, h2, h2', h3⟩ := h
    obtain ⟨p, b', r', k1, k2, k3, k4, k5, k6⟩ := LimitReader.View.call hW h3 hc
    obtain ⟨t1, t2, t3⟩ := DigestReader.tame_call h1 c
    have hn := LimitReader.nested d.lim h2 c
    rw [k1] at hn
    simp only at hn
    rw [hn] at t1 t2
    have horig : r'.origLimit = d.lim.stream.origLimit := by
      simp only [LimitReader.tell] at k4
      have e : ∀ (r : LimitReader σ), (c.run r).2.origLimit = r.origLimit := by
        intro r
        cases c <;> simp only [Call.run, PyStream.read, PyStream.readline, LimitReader.read, LimitReader.readline] <;>
          (split <;> first | rfl | (split <;> rfl))
      have := e d.lim.stream
      rw [k1] at this; exact this
    refine ⟨p, b', .verifying (c.run d).2, ?_, k2, ⟨t3, by rw [t2], by rw [t2]; simp only [h2', horig], by rw [t2]; exact k3⟩, rfl, ?_, k5, k6⟩
    · cases c <;> simp only [Call.run, PyStream.read, PyStream.readline] at t1 ⊢ <;> rw [← t1]
    · intro _
      show (c.run d).2.lim.tell = d.lim.tell + len p
      rw [t2]
      simp only [LimitReader.tell] at k4 ⊢
      omega

/-- `begin_payload` changes nothing that is read. -/
theorem View.begin {raw : RawStream σ} {b t : Bytes} (h : raw.View W b t) :
    ∃ raw', Loader.beginPayload raw = (.ok (), raw') ∧ View W raw' b t ∧ raw'.isLimited = raw.isLimited := by
  cases raw with
  | bare s => exact ⟨_, rfl, h, rfl⟩
  | limited s => exact ⟨_, rfl, h, rfl⟩
  | verifying d =>
    obtain ⟨h1, h2, h2', h3⟩ := h
    obtain ⟨t1, t2⟩ := DigestReader.tame_begin h1
    refine ⟨.verifying d.beginPayload.2, ?_, ⟨t2, by rw [t1]; exact h2, by rw [t1]; exact h2', by rw [t1]; exact h3⟩, rfl⟩
    simp only [Loader.beginPayload]
    have : d.beginPayload.1 = .ok () := by
      unfold DigestReader.beginPayload
      simp only
      split
      · obtain ⟨c, hc⟩ := DigestReader.Tame.active (r := { d with payloadOn := true }) ⟨h1.kind, h1.block, h1.payload, h1.blockDig, h1.payDig⟩
        simp only at hc
        rw [hc]
        simp only
        rcases DigestChecker.verdict_cases d.checker c (.payloadFailed (d.payloadDigest.getD [])) with ⟨⟨g1, _⟩, _⟩ | ⟨_, c1, g2, g3, _⟩
        · exact absurd g1 h1.kind
        · rw [g2]
      · rfl
    rw [← this]

end RawStream
end Warcio

namespace Warcio

set_option linter.unusedSectionVars false

/-- `readline()` returns leading bytes of what is left, and nothing only at the end. -/
structure ShortLine {τ : Type} [PyStream τ] (U : τ → Bytes → Prop) : Prop where
  readline_none : ∀ {s rem}, U s rem → ∃ p rem' s', rem = p ++ rem' ∧ (p = [] → rem = []) ∧
    PyStream.readline s none = (.ok p, s') ∧ U s' rem'
  bound : ∀ {s rem}, U s rem → rem.length ≤ PyStream.bound s

section
variable {τ : Type} [PyStream τ] {U : τ → Bytes → Prop}

namespace HeaderParser

theorem nextLine_short (hU : ShortLine U) {s : τ} {rem : Bytes} (h : U s rem) (t : Int) :
    ∃ p rem' s' l t', nextLine s t = (.ok (l, t'), s') ∧ rem = p ++ rem' ∧ U s' rem' ∧ (l ≠ [] → p ≠ []) := by
  obtain ⟨p, rem', s', h1, h2, h3, h4⟩ := hU.readline_none h
  refine ⟨p, rem', s', rstrip (decodeHeader p), t + len (decodeHeader p), by unfold nextLine; rw [h3], h1, h4, ?_⟩
  rintro hl rfl; exact hl rfl

theorem contLoop_short (hU : ShortLine U) : ∀ (fuel : Nat) (v : Option Str) (n : Str) (t : Int) (s : τ) (rem : Bytes),
    U s rem → rem.length + 2 ≤ fuel →
    ∃ p rem' s' v' n' t', contLoop fuel v n t s = (.ok (v', n', t'), s') ∧ rem = p ++ rem' ∧ U s' rem' ∧
      (n = [] → n' = []) := by
  intro fuel
  induction fuel with
  | zero => intro v n t s rem _ hf; omega
  | succ fuel ih =>
    intro v n t s rem h hf
    unfold contLoop
    by_cases hc : isContinuation n = true
    · rw [if_pos hc]
      obtain ⟨p, rem1, s1, l, t1, k1, k2, k3, k4⟩ := nextLine_short hU h t
      rw [k1]
      simp only
      by_cases hl : l = []
      · obtain ⟨fuel, rfl⟩ : ∃ k, fuel = k + 1 := ⟨fuel - 1, by omega⟩
        unfold contLoop
        have : isContinuation l = false := by rw [hl]; rfl
        rw [if_neg (by simp [this])]
        exact ⟨p, rem1, s1, _, _, _, rfl, k2, k3, fun _ => hl⟩
      · have hp := List.length_pos_iff.2 (k4 hl)
        have hlen := congrArg List.length k2
        rw [List.length_append] at hlen
        obtain ⟨p2, rem2, s2, v', n', t', m1, m2, m3, _⟩ := ih (v.map (· ++ n)) l t1 s1 rem1 k3 (by omega)
        refine ⟨p ++ p2, rem2, s2, v', n', t', m1, by rw [k2, m2, List.append_assoc], m3, ?_⟩
        intro hn; rw [hn] at hc; cases hc
    · rw [if_neg hc]
      exact ⟨[], rem, s, _, _, _, rfl, rfl, h, id⟩

theorem headerLoop_short (hU : ShortLine U) : ∀ (fuel : Nat) (n : Str) (t : Int) (hs : List Header) (s : τ) (rem : Bytes),
    U s rem → rem.length + (if n = [] then 1 else 2) ≤ fuel →
    ∃ p rem' s' r, headerLoop fuel n t hs s = (.ok r, s') ∧ rem = p ++ rem' ∧ U s' rem' := by
  intro fuel
  induction fuel with
  | zero => intro n t hs s rem _ hf; split at hf <;> omega
  | succ fuel ih =>
    intro n t hs s rem h hf
    unfold headerLoop
    by_cases hn : n = []
    · rw [if_pos (by simpa using hn)]
      exact ⟨[], rem, s, _, rfl, rfl, h⟩
    · rw [if_neg (by simpa using hn)]
      rw [if_neg hn] at hf
      obtain ⟨p, rem1, s1, l, t1, k1, k2, k3, k4⟩ := nextLine_short hU h t
      rw [k1]
      simp only
      have hb := hU.bound k3
      obtain ⟨p2, rem2, s2, v', n', t', m1, m2, m3, m4⟩ := contLoop_short hU (PyStream.bound s1 + 2) (splitHeader n).2 l t1 s1 rem1 k3 (by omega)
      rw [m1]
      have hlen := congrArg List.length k2
      have hlen2 := congrArg List.length m2
      rw [List.length_append] at hlen hlen2
      have hf' : rem2.length + (if n' = [] then 1 else 2) ≤ fuel := by
        by_cases hl : l = []
        · rw [if_pos (m4 hl)]; omega
        · have := List.length_pos_iff.2 (k4 hl)
          split <;> omega
      cases v' with
      | none =>
        obtain ⟨p3, rem3, s3, r, q1, q2, q3⟩ := ih n' t' hs s2 rem2 m3 hf'
        exact ⟨p ++ p2 ++ p3, rem3, s3, r, q1, by rw [k2, m2, q2]; simp, q3⟩
      | some v =>
        obtain ⟨p3, rem3, s3, r, q1, q2, q3⟩ := ih n' t' (hs ++ [((splitHeader n).1, v)]) s2 rem2 m3 hf'
        exact ⟨p ++ p2 ++ p3, rem3, s3, r, q1, by rw [k2, m2, q2]; simp, q3⟩

theorem parse_empty [PyUni] (hU : ShortLine U) (c : HeaderParser) {s : τ} (h : U s []) : (c.parse s none).1 = .error .eofError := by
  obtain ⟨p, rem1, s1, k1, k2, k3, k4⟩ := hU.readline_none h
  obtain ⟨rfl, -⟩ := List.append_eq_nil_iff.1 k1.symm
  unfold parse
  rw [k3]
  rfl

/-- Parsing from a stream that may cut lines short. -/
theorem parse_short [PyUni] (hU : ShortLine U) (c : HeaderParser) {s : τ} {rem : Bytes} (h : U s rem) :
    ∃ x p rem' s', c.parse s none = (x, s') ∧ rem = p ++ rem' ∧ U s' rem' ∧
      ((∃ h, x = .ok h) ∨ (rem = [] ∧ x = .error .eofError) ∨ (c.verify = true ∧ ∃ l, x = .error (.statusParser l))) := by
  obtain ⟨p, rem1, s1, k1, k2, k3, k4⟩ := hU.readline_none h
  unfold parse
  rw [k3]
  simp only
  unfold parseFrom
  by_cases hp : decodeHeader p = []
  · rw [if_pos (by simpa using hp)]
    have := k2 (decodeHeader_eq_nil.1 hp)
    exact ⟨_, p, rem1, s1, rfl, k1, k4, .inr (.inl ⟨this, rfl⟩)⟩
  · rw [if_neg (by simpa using hp)]
    by_cases hr : (rstrip (decodeHeader p)).isEmpty = true
    · rw [if_pos hr]
      exact ⟨_, p, rem1, s1, rfl, k1, k4, .inl ⟨_, rfl⟩⟩
    · rw [if_neg hr]
      cases hps : c.protocolStatus (decodeHeader p) (rstrip (decodeHeader p)) with
      | error e =>
        refine ⟨_, p, rem1, s1, rfl, k1, k4, .inr (.inr ?_)⟩
        unfold protocolStatus at hps
        split at hps
        · rename_i hv
          split at hps
          · cases hps
          · cases hps; exact ⟨hv, _, rfl⟩
        · cases hps
      | ok ps =>
        simp only
        obtain ⟨p2, rem2, s2, l, t1, q1, q2, q3, q4⟩ := nextLine_short hU k4 (len (decodeHeader p))
        rw [q1]
        simp only
        have hb := hU.bound q3
        obtain ⟨p3, rem3, s3, r, m1, m2, m3⟩ := headerLoop_short hU (PyStream.bound s2 + 2) l t1 [] s2 rem2 q3 (by split <;> omega)
        rw [m1]
        exact ⟨_, p ++ p2 ++ p3, rem3, s3, rfl, by rw [k1, q2, m2]; simp, m3, .inl ⟨_, rfl⟩⟩

end HeaderParser
end

section
variable {σ : Type} [PyStream σ] {W : σ → Bytes → Prop} [Hashlib]

/-- The view of a record's stream that also keeps track of its position. -/
def RawStream.At (W : σ → Bytes → Prop) (t : Bytes) (lim : Bool) (T : Int) (raw : RawStream σ) (b : Bytes) : Prop :=
  raw.View W b t ∧ raw.isLimited = lim ∧ (lim = true → PyStream.tell raw + len b = T)

theorem RawStream.shortLine (hW : ExactRead W) (t : Bytes) (lim : Bool) (T : Int) : ShortLine (RawStream.At W t lim T) where
  readline_none := by
    rintro raw b ⟨h1, h2, h3⟩
    obtain ⟨p, b', raw', k1, k2, k3, k4, k5, k6, _⟩ := h1.call hW (c := .readline none) (by intro n hn; cases hn)
    refine ⟨p, b', raw', k2, ?_, k1, k3, by rw [k4, h2], ?_⟩
    · intro hp
      rcases k6 hp with h | h
      · exact h
      · cases h
    · intro hl
      rw [k5 (by rw [h2]; exact hl), ← h3 hl, k2]
      simp only [len, List.length_append]; omega
  bound := by rintro raw b ⟨h1, _⟩; exact h1.bound hW

/-- Over a stream with exact `readline(n)` the lines of the block are read exactly. -/
theorem RawStream.lineRead (hW : ExactRead W) (hX : ExactLine W) (t : Bytes) : LineRead (fun (raw : RawStream σ) b => raw.View W b t) where
  readline_none := by
    intro raw b h
    have limCase : ∀ (r : LimitReader σ), r.View W b t → ∃ r', PyStream.readline r none = (.ok (takeLine b), r') := by
      intro r hr
      have hle := hr.le
      simp only [len] at hle
      have e : (takeLine (b ++ t)).take r.limit.toNat = takeLine b := by
        rw [takeLine_append]
        split
        · have := takeLine_length_le b
          rw [List.take_of_length_le (by omega)]
        · rename_i hn
          rw [takeLine_of_no_nl hn]
          by_cases hh : len b < r.limit
          · rw [hr.short hh]; simp only [takeLine, List.append_nil]
            rw [List.take_of_length_le (by omega)]
          · simp only [len] at hh
            have : r.limit.toNat = b.length := by omega
            rw [this]; simp
      by_cases h0 : r.limit = 0
      · have : b = [] := List.length_eq_zero_iff.1 (by omega)
        subst this
        exact ⟨r, by simp [PyStream.readline, LimitReader.readline, LimitReader.clampLen, h0, takeLine]⟩
      · obtain ⟨m, hm⟩ : ∃ m : Nat, r.limit = (m : Int) := ⟨_, (Int.toNat_of_nonneg (by omega)).symm⟩
        obtain ⟨s', k1, _⟩ := hX hr.stream m
        rw [hm, Int.toNat_natCast] at e
        refine ⟨{ r with stream := s', limit := r.limit - len (takeLine b) }, ?_⟩
        rw [hm] at h0
        simp only [PyStream.readline, LimitReader.readline, LimitReader.clampLen, hm, h0, if_false, k1, e]
    obtain ⟨p, b', raw', k1, k2, k3, k4, k5, k6, _⟩ := h.call hW (c := .readline none) (by intro n hn; cases hn)
    suffices hp : p = takeLine b by
      refine ⟨raw', by rw [← hp]; exact k1, ?_⟩
      have : b' = dropLine b := by
        have := takeLine_append_dropLine b
        rw [← hp] at this
        conv at this => rhs; rw [k2]
        exact (List.append_cancel_left this).symm
      rw [← this]; exact k3
    cases raw with
    | bare s =>
      obtain ⟨h1, rfl⟩ := h
      obtain ⟨s', m1, _⟩ := hW.readline_none h1
      simp only [Call.run, PyStream.readline] at k1
      rw [m1] at k1
      cases k1; rfl
    | limited r =>
      obtain ⟨r', m1⟩ := limCase r h
      simp only [Call.run, PyStream.readline] at k1
      simp only [PyStream.readline] at m1
      rw [m1] at k1
      cases k1; rfl
    | verifying d =>
      obtain ⟨h1, h2, h2', h3⟩ := h
      obtain ⟨r', m1⟩ := limCase _ h3
      obtain ⟨t1, _, _⟩ := DigestReader.tame_call h1 (.readline none)
      have hn := LimitReader.nested d.lim h2 (.readline none)
      rw [hn] at t1
      have m1' : (Call.readline none).run d.lim.stream = (.ok (takeLine b), r') := m1
      rw [m1'] at t1
      simp only [Call.run, PyStream.readline] at k1 t1
      generalize DigestReader.readline d none = q at k1 t1
      obtain ⟨q1, q2⟩ := q
      simp only at t1 k1
      cases k1
      cases t1
      rfl
  bound := by intro raw b h; exact h.bound hW

end
end Warcio

namespace Warcio

variable {σ : Type} [PyStream σ] {W : σ → Bytes → Prop}

theorem lineLaw_zero : LineLaw W 0 := by
  intro s rem _ hm h0
  have : takeLine rem = [] := List.length_eq_zero_iff.1 (by omega)
  rw [takeLine_eq_nil] at this
  rw [this] at hm; cases hm

theorem LimitReader.View.line (hW : ExactRead W) {m : Nat} (hX : LineLaw W m) {r : LimitReader σ} {b t : Bytes} (h : r.View W b t)
    (hb : b = [] ∨ ((10 : UInt8) ∈ takeLine b ∧ (takeLine b).length ≤ m)) :
    ∃ r', PyStream.readline r none = (.ok (takeLine b), r') ∧ r'.View W (dropLine b) t := by
  have hl := h.le
  simp only [len] at hl
  rcases hb with rfl | ⟨h1, h2⟩
  · obtain ⟨p, b', r', k1, k2, k3, _⟩ := h.call hW (c := .readline none) (by intro n hn; cases hn)
    have : p = [] ∧ b' = [] := List.append_eq_nil_iff.1 k2.symm
    obtain ⟨rfl, rfl⟩ := this
    exact ⟨r', k1, k3⟩
  · have hm : (10 : UInt8) ∈ b := mem_nl_takeLine.1 h1
    have e1 : takeLine (b ++ t) = takeLine b := by rw [takeLine_append, if_pos hm]
    have h3 := takeLine_length_le b
    have h4 : 0 < (takeLine b).length := List.length_pos_of_mem h1
    obtain ⟨n, hn⟩ : ∃ n : Nat, r.limit = (n : Int) := ⟨r.limit.toNat, by omega⟩
    obtain ⟨s', k1, k2⟩ := hX h.stream (by simp [hm]) (by rw [e1]; exact h2) n
    rw [e1, List.take_of_length_le (by omega)] at k1 k2
    refine ⟨{ r with stream := s', limit := r.limit - len (takeLine b) }, ?_, ?_, ?_, ?_⟩
    · have hc : r.clampLen none = (n : Int) := hn
      simp only [PyStream.readline, LimitReader.readline]
      rw [hc, if_neg (by omega)]
      rw [k1]
    · have : (b ++ t).drop (takeLine b).length = dropLine b ++ t := by
        rw [List.drop_append_of_le_length h3, drop_takeLine_length]
      rw [this] at k2
      exact k2
    · have := congrArg List.length (takeLine_append_dropLine b)
      simp only [List.length_append] at this
      simp only [len]; omega
    · intro hlt
      have := congrArg List.length (takeLine_append_dropLine b)
      simp only [List.length_append] at this
      simp only [len] at hlt
      exact h.short (by simp only [len]; omega)

/-- `readline()` on a record's stream, for lines that are short enough. -/
theorem RawStream.View.line [Hashlib] (hW : ExactRead W) {m : Nat} (hX : LineLaw W m) {raw : RawStream σ} {b t : Bytes} (h : raw.View W b t)
    (hb : b = [] ∨ ((10 : UInt8) ∈ takeLine b ∧ (takeLine b).length ≤ m)) :
    ∃ raw', PyStream.readline raw none = (.ok (takeLine b), raw') ∧ raw'.View W (dropLine b) t := by
  obtain ⟨p, b', raw', k1, k2, k3, _⟩ := h.call hW (c := .readline none) (by intro n hn; cases hn)
  have hp : p = takeLine b := by
    cases raw with
    | bare s =>
      obtain ⟨s', q1, _⟩ := hW.readline_none h.1
      simp only [Call.run, PyStream.readline] at k1 q1
      rw [q1] at k1
      simp only [Prod.mk.injEq, Except.ok.injEq] at k1
      exact k1.1.symm
    | limited r =>
      obtain ⟨r', q1, _⟩ := LimitReader.View.line hW hX h hb
      simp only [Call.run, PyStream.readline] at k1 q1
      rw [q1] at k1
      simp only [Prod.mk.injEq, Except.ok.injEq] at k1
      exact k1.1.symm
    | verifying d =>
      obtain ⟨g1, g2, g3, g4⟩ := h
      obtain ⟨r', q1, _⟩ := LimitReader.View.line hW hX g4 hb
      obtain ⟨t1, t2, t3⟩ := DigestReader.tame_call g1 (.readline none)
      rw [LimitReader.nested d.lim g2 (.readline none)] at t1
      simp only [Call.run, PyStream.readline] at k1 q1 t1
      rw [q1] at t1
      simp only [t1, Prod.mk.injEq, Except.ok.injEq] at k1
      exact k1.1.symm
  subst hp
  refine ⟨raw', k1, ?_⟩
  have : b' = dropLine b := by
    have := (takeLine_append_dropLine b).trans k2
    exact (List.append_cancel_left this).symm
  rw [← this]; exact k3

theorem LimitReader.View.lineSome {m : Nat} (hX : LineLaw W m) {r : LimitReader σ} {b t : Bytes} (h : r.View W b t) (h1 : (10 : UInt8) ∈ b) (h2 : (takeLine b).length ≤ m)
    {n : Int} (hn : 0 ≤ n) : (PyStream.readline r (some n)).1 = .ok ((takeLine b).take n.toNat) := by
  have hl := h.le
  simp only [len] at hl
  have e1 : takeLine (b ++ t) = takeLine b := by rw [takeLine_append, if_pos h1]
  have h3 := takeLine_length_le b
  have hcl : r.clampLen (some n) = min n r.limit := rfl
  simp only [PyStream.readline, LimitReader.readline]
  rw [hcl]
  by_cases h0 : min n r.limit = 0
  · rw [if_pos h0]
    have hb : 0 < b.length := List.length_pos_of_mem h1
    have : n = 0 := by omega
    subst this
    rfl
  · rw [if_neg h0]
    obtain ⟨k, hk⟩ : ∃ k : Nat, min n r.limit = (k : Int) := ⟨(min n r.limit).toNat, by omega⟩
    obtain ⟨s', k1, -⟩ := hX h.stream (by simp [h1]) (by rw [e1]; exact h2) k
    rw [e1] at k1
    rw [hk, k1]
    dsimp only
    congr 1
    by_cases hnl : n ≤ r.limit
    · have : k = n.toNat := by omega
      rw [this]
    · rw [List.take_of_length_le (by omega), List.take_of_length_le (by omega)]

/-- `readline` on a record's stream, for lines that are short enough. -/
theorem RawStream.View.lineAny [Hashlib] (hW : ExactRead W) {m : Nat} (hX : LineLaw W m) {raw raw' : RawStream σ} {b t p : Bytes} (h : raw.View W b t) (h1 : (10 : UInt8) ∈ b)
    (h2 : (takeLine b).length ≤ m) {n : Option Int} (hn : (Call.readline n).nonneg) (hc : (Call.readline n).run raw = (.ok p, raw')) : p = (Call.readline n).expect b := by
  cases n with
  | none =>
    obtain ⟨raw2, w1, _⟩ := h.line hW hX (.inr ⟨mem_nl_takeLine.2 h1, h2⟩)
    simp only [Call.run] at hc
    rw [w1] at hc
    simp only [Prod.mk.injEq, Except.ok.injEq] at hc
    exact hc.1.symm
  | some n =>
    have hn0 : 0 ≤ n := hn n rfl
    show p = (takeLine b).take n.toNat
    cases raw with
    | bare s =>
      have hb := h.1
      have ht := h.2
      subst ht
      obtain ⟨k, rfl⟩ : ∃ k : Nat, n = (k : Int) := ⟨n.toNat, by omega⟩
      obtain ⟨s', q1, _⟩ := hX hb h1 h2 k
      simp only [Call.run, PyStream.readline] at hc q1
      rw [q1] at hc
      simp only [Prod.mk.injEq, Except.ok.injEq] at hc
      exact hc.1.symm
    | limited r =>
      have q1 := LimitReader.View.lineSome hX h h1 h2 hn0
      simp only [Call.run, PyStream.readline] at hc q1
      generalize hg : r.readline (some n) = x at hc q1
      obtain ⟨x, r'⟩ := x
      simp only at q1
      subst q1
      simp only [Prod.mk.injEq, Except.ok.injEq] at hc
      exact hc.1.symm
    | verifying d =>
      obtain ⟨g1, g2, g3, g4⟩ := h
      have q1 := LimitReader.View.lineSome hX g4 h1 h2 hn0
      obtain ⟨t1, t2, t3⟩ := DigestReader.tame_call g1 (.readline (some n))
      rw [LimitReader.nested d.lim g2 (.readline (some n))] at t1
      simp only [Call.run, PyStream.readline] at hc q1 t1
      generalize hg : d.lim.stream.readline (some n) = x at q1 t1
      obtain ⟨x, r'⟩ := x
      simp only at q1
      subst q1
      simp only [t1, Prod.mk.injEq, Except.ok.injEq] at hc
      exact hc.1.symm

/-- Parsing headers from a record's stream. -/
theorem RawStream.blockRead [Hashlib] (hW : ExactRead W) {m : Nat} (hX : LineLaw W m) (t : Bytes) :
    BlockRead (fun (raw : RawStream σ) b => raw.View W b t) (fun raw b => raw.View W b t ∧ HeadWithin m b) where
  readline_none := by
    rintro raw b ⟨h, hb⟩
    have hb' : b = [] ∨ ((10 : UInt8) ∈ takeLine b ∧ (takeLine b).length ≤ m) := by
      cases hb with
      | eof => exact .inl rfl
      | blank h1 h2 => exact .inr ⟨h1, h2⟩
      | line h1 h2 => exact .inr ⟨h1, h2⟩
    obtain ⟨raw', k1, k2⟩ := h.line hW hX hb'
    refine ⟨raw', k1, k2, fun hne => ⟨k2, ?_⟩⟩
    cases hb with
    | eof => exact .eof
    | blank _ _ h3 => exact absurd h3 hne
    | line _ _ h3 => exact h3
  weak h := h.1
  bound h := RawStream.View.bound hW h

end Warcio
