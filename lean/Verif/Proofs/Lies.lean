import Verif.Spec.Parts
import Verif.Proofs.IterPlain
import Verif.Proofs.ErrsIter

/-!
# Reading from any uncompressed file

Like `RawStream.View`, but for streams that check digests and may raise.
-/

set_option linter.unusedSectionVars false

namespace Warcio

open Loader

/-- Errors that do not look like the end of the file. -/
def Odd (e : PyErr) : Prop := e ≠ .eofError ∧ e ≠ .stopIteration

theorem DigErr.odd {k : CheckKind} {e : PyErr} (h : DigErr k e) : Odd e := by
  rcases h with (rfl | rfl) | ⟨_, rfl⟩ <;> exact ⟨(fun h => by cases h), (fun h => by cases h)⟩

section
variable {σ : Type} [PyStream σ] [Hashlib] {W : σ → Bytes → Prop} {q : Prop}

theorem DigestReader.finish_lim (r : DigestReader σ) : r.finish.2.lim = r.lim := (DigestReader.finish_calm r).2

/-- A verifying reader reads what a limited one reads; the digests may raise then. -/
theorem DigestReader.update_lim (r : DigestReader σ) (b : Bytes) : (r.update b).2.lim = { r.lim with limit := r.lim.limit - len b } ∧
    ((r.update b).1 = .ok b ∨ ∃ e, (r.update b).1 = .error e ∧ Odd e) := by
  have hg := DigestReader.update_gives r b
  refine ⟨?_, ?_⟩
  · unfold DigestReader.update
    dsimp only
    split
    · generalize hx : DigestReader.finish _ = x
      have := congrArg (fun y => y.2.lim) hx
      rw [DigestReader.finish_lim] at this
      obtain ⟨x, r'⟩ := x
      cases x <;> exact this.symm
    · rfl
  · cases hx : (r.update b).1 with
    | error e => exact .inr ⟨e, rfl, (hg.2 e hx).odd⟩
    | ok b' =>
      left
      unfold DigestReader.update at hx
      dsimp only at hx
      split at hx
      · generalize DigestReader.finish _ = x at hx
        obtain ⟨x, r'⟩ := x
        cases x with
        | ok u => exact hx.symm
        | error e => cases hx
      · exact hx.symm

theorem DigestReader.call_lim (d : DigestReader σ) (c : Call) {p : Bytes} {l : LimitReader σ} (h : c.run d.lim = (.ok p, l)) :
    (c.run d).2.lim = l ∧ ((c.run d).1 = .ok p ∨ ∃ e, (c.run d).1 = .error e ∧ Odd e) := by
  cases c with
  | read n =>
    simp only [Call.run, PyStream.read, LimitReader.read, DigestReader.read] at h ⊢
    by_cases h0 : d.lim.clampLen n = 0
    · simp only [h0, if_true] at h ⊢
      cases h
      exact ⟨rfl, .inl rfl⟩
    · simp only [h0, if_false] at h ⊢
      generalize PyStream.read d.lim.stream (some (d.lim.clampLen n)) = x at h ⊢
      obtain ⟨x, s⟩ := x
      cases x with
      | error e => cases h
      | ok b =>
        cases h
        exact DigestReader.update_lim _ _
  | readline n =>
    simp only [Call.run, PyStream.readline, LimitReader.readline, DigestReader.readline] at h ⊢
    by_cases h0 : d.lim.clampLen n = 0
    · simp only [h0, if_true] at h ⊢
      cases h
      exact ⟨rfl, .inl rfl⟩
    · simp only [h0, if_false] at h ⊢
      generalize PyStream.readline d.lim.stream (some (d.lim.clampLen n)) = x at h ⊢
      obtain ⟨x, s⟩ := x
      cases x with
      | error e => cases h
      | ok b =>
        cases h
        exact DigestReader.update_lim _ _

namespace RawStream

/-- The record stream still holds `b`, and behind it is `t`.  Digests may be checked only if `q`. -/
def Lies (W : σ → Bytes → Prop) (q : Prop) : RawStream σ → Bytes → Bytes → Prop
  | .bare s, b, t => W s b ∧ t = []
  | .limited r, b, t => r.View W b t
  | .verifying d, b, t => q ∧ d.lim.limit = d.lim.stream.limit ∧ d.lim.stream.View W b t

theorem Lies.under {raw : RawStream σ} {b t : Bytes} (h : raw.Lies W q b t) : W raw.under (b ++ t) := by
  cases raw with
  | bare s => obtain ⟨h1, rfl⟩ := h; simpa [RawStream.under] using h1
  | limited r => exact h.stream
  | verifying d => exact h.2.2.stream

theorem Lies.bound (hW : ExactRead W) {raw : RawStream σ} {b t : Bytes} (h : raw.Lies W q b t) : b.length ≤ PyStream.bound raw := by
  have h1 := hW.bound h.under
  have : PyStream.bound raw = PyStream.bound raw.under := by cases raw <;> rfl
  rw [this]
  simp at h1; omega

/-- The bare and the limited streams are those of `View`. -/
theorem Lies.call (hW : ExactRead W) {raw : RawStream σ} {b t : Bytes} (h : raw.Lies W q b t) {c : Call} (hc : c.nonneg) :
    ∃ p b' raw' x, c.run raw = (x, raw') ∧ b = p ++ b' ∧ raw'.Lies W q b' t ∧
      ((x = .ok p ∧ (p = [] → b = [] ∨ c.arg = some 0) ∧ (∀ n, c = .read n → p = c.expect b)) ∨ (q ∧ ∃ e, x = .error e ∧ Odd e)) := by
  cases raw with
  | bare s =>
    have hv : (RawStream.bare s).View W b t := h
    obtain ⟨p, b', raw', k1, k2, k3, k4, _, k5, k6⟩ := hv.call hW hc
    refine ⟨p, b', raw', _, k1, k2, ?_, .inl ⟨rfl, k5, k6⟩⟩
    cases raw' with
    | bare s => exact k3
    | limited r => exact k3
    | verifying d => cases k4
  | limited r =>
    obtain ⟨p, b', r', k1, k2, k3, k4, k5, k6⟩ := LimitReader.View.call hW h hc
    refine ⟨p, b', .limited r', .ok p, ?_, k2, k3, .inl ⟨rfl, k5, k6⟩⟩
    cases c <;> simp only [Call.run] at k1 <;> simp [Call.run, PyStream.read, PyStream.readline] <;>
      simp only [PyStream.read, PyStream.readline] at k1 <;> rw [k1] <;> simp
  | verifying d =>
    obtain ⟨hq, h2, h3⟩ := h
    obtain ⟨p, b', r', k1, k2, k3, k4, k5, k6⟩ := LimitReader.View.call hW h3 hc
    have hn := LimitReader.nested d.lim h2 c
    rw [k1] at hn
    obtain ⟨t1, t2⟩ := DigestReader.call_lim d c hn
    refine ⟨p, b', .verifying (c.run d).2, (c.run d).1, ?_, k2, ⟨hq, by rw [t1], by rw [t1]; exact k3⟩, ?_⟩
    · cases c <;> rfl
    · rcases t2 with t2 | t2
      · exact .inl ⟨t2, k5, k6⟩
      · exact .inr ⟨hq, t2⟩

theorem Lies.setUnder {raw : RawStream σ} (h : raw.Lies W q [] []) {s : σ} (hs : W s []) : (raw.setUnder s).Lies W q [] [] := by
  cases raw with
  | bare s => exact ⟨hs, rfl⟩
  | limited r => exact ⟨hs, h.le, fun _ => rfl⟩
  | verifying d => exact ⟨h.1, h.2.1, hs, h.2.2.le, fun _ => rfl⟩

/-- Reading does not change the verdict. -/
theorem Lies.checkerAt {raw raw' : RawStream σ} {b p b' t : Bytes} (h : raw.Lies W q b t) {c : Call} (hc : c.nonneg)
    (hr : c.run raw = (.ok p, raw')) (hb : b = p ++ b') : raw'.checkerAt b' = raw.checkerAt b := by
  by_cases hv : ∃ d, raw = .verifying d
  · obtain ⟨d, rfl⟩ := hv
    by_cases hl : len b < d.lim.limit
    · obtain ⟨d', rfl, hr'⟩ := run_verifying hr
      have h1 := DigestReader.run_limit hr'
      subst hb
      show (if len b' < d'.lim.limit then d'.checker else _) = (if len (p ++ b') < d.lim.limit then d.checker else _)
      simp only [len, List.length_append] at h1 hl ⊢
      rw [if_pos (by omega), if_pos (by omega), DigestReader.run_short hr' (by simp only [len]; omega)]
    · have hf : (RawStream.verifying d).Full b := by
        rintro d' hd
        cases hd
        obtain ⟨_, h1, h3⟩ := h
        have := h3.le
        omega
      rw [hf.checkerAt_eq, (hf.call hr hb).checkerAt_eq, hf.endingAt hc hr hb]
  · have h1 : ∀ d, raw ≠ .verifying d := fun d hd => hv ⟨d, hd⟩
    have h2 := run_other hr h1
    cases raw with
    | verifying d => exact absurd rfl (h1 d)
    | bare s => cases raw' with
      | verifying d => exact absurd rfl (h2 d)
      | bare s => rfl
      | limited s => rfl
    | limited s => cases raw' with
      | verifying d => exact absurd rfl (h2 d)
      | bare s => rfl
      | limited s => rfl

/-- Nothing of the block is left. -/
def Idle : RawStream σ → Prop
  | .bare _ => False
  | .limited r => r.limit = 0
  | .verifying d => d.lim.limit = 0

theorem Lies.idle {raw : RawStream σ} {t : Bytes} (h : raw.Lies W q [] t) (ht : t ≠ []) : raw.Idle := by
  cases raw with
  | bare s => exact ht h.2
  | limited r =>
    have h1 := h.le
    have h2 := h.short
    simp only [len, List.length_nil] at h1 h2
    show r.limit = 0
    by_cases h3 : r.limit = 0
    · exact h3
    · exact absurd (h2 (by omega)) ht
  | verifying d =>
    obtain ⟨_, h1, h3⟩ := h
    have h4 := h3.le
    have h2 := h3.short
    simp only [len, List.length_nil] at h4 h2
    show d.lim.limit = 0
    rw [h1]
    by_cases h3 : d.lim.stream.limit = 0
    · exact h3
    · exact absurd (h2 (by omega)) ht

theorem Idle.setUnder {raw : RawStream σ} (h : raw.Idle) (s : σ) : (raw.setUnder s).Idle := by
  cases raw <;> exact h

theorem Idle.call {raw : RawStream σ} (h : raw.Idle) {c : Call} (hc : c.nonneg) : c.run raw = (.ok [], raw) := by
  have key : ∀ {τ : Type} (r : LimitReader τ), r.limit = 0 → r.clampLen c.arg = 0 := by
    intro τ r h
    unfold LimitReader.clampLen
    cases hh : c.arg with
    | none => exact h
    | some n => have := hc n hh; simp only; omega
  cases raw with
  | bare s => exact h.elim
  | limited r =>
    have := key r h
    cases c <;> simp only [Call.arg] at this <;>
      simp [Call.run, PyStream.read, PyStream.readline, LimitReader.read, LimitReader.readline, this]
  | verifying d =>
    have := key d.lim h
    cases c <;> simp only [Call.arg] at this <;>
      simp [Call.run, PyStream.read, PyStream.readline, DigestReader.read, DigestReader.readline, this]

end RawStream
end

/-! ## Header blocks -/

section
variable {σ : Type} [PyStream σ] [Hashlib] [PyUni] {W : σ → Bytes → Prop} {q : Prop}

theorem odd_fuel : Odd .outOfFuel := ⟨(fun h => by cases h), (fun h => by cases h)⟩

/-- Some of `b` is left. -/
def RawStream.LeftOf (W : σ → Bytes → Prop) (q : Prop) (b t : Bytes) (raw : RawStream σ) : Prop := ∃ p b', b = p ++ b' ∧ raw.Lies W q b' t

theorem leftOf_lines (hW : ExactRead W) (b t : Bytes) : Lines0 (RawStream σ) (RawStream.LeftOf W q b t) Odd := by
  rintro raw ⟨p, b', rfl, h⟩
  obtain ⟨p1, b1, raw1, x, k1, rfl, k3, k4⟩ := h.call hW (c := .readline none) (fun _ h => by cases h)
  have k1 : PyStream.readline raw none = (x, raw1) := k1
  rw [k1]
  refine ⟨⟨p ++ p1, b1, by simp, k3⟩, ?_⟩
  rintro e (rfl : x = .error e)
  rcases k4 with ⟨k4, _⟩ | ⟨_, e', k4, k5⟩
  · cases k4
  · cases k4; exact k5

namespace HeaderParser

theorem parseFrom_eof {K : RawStream σ → Prop} (h : Lines0 (RawStream σ) K Odd) (c : HeaderParser) (full : Str) (s : RawStream σ) (hs : K s)
    (he : (c.parseFrom full s).1 = .error .eofError) : full = [] := by
  unfold parseFrom at he
  split at he
  · rename_i h0; simpa using h0
  · split at he
    · cases he
    · cases hp : c.protocolStatus full (rstrip full) with
      | error e =>
        rw [hp] at he
        unfold protocolStatus at hp
        split at hp
        · split at hp
          · cases hp
          · cases hp; cases he
        · cases hp
      | ok ps =>
        rw [hp] at he
        dsimp only at he
        have h1 := nextLine_gives h s (len full) hs
        generalize nextLine s (len full) = x at *
        obtain ⟨x, s1⟩ := x
        cases x with
        | error e => cases he; exact absurd rfl (h1.2 _ rfl).1
        | ok b =>
          obtain ⟨line, total⟩ := b
          dsimp only at he
          have h2 := headerLoop_gives odd_fuel h (PyStream.bound s1 + 2) line total [] s1 h1.1
          generalize headerLoop (PyStream.bound s1 + 2) line total [] s1 = x at *
          obtain ⟨x, s2⟩ := x
          cases x with
          | error e => cases he; exact absurd rfl (h2.2 _ rfl).1
          | ok b => cases he

/-- Parsing a header block at the front of a record stream. -/
theorem parse_lies (hW : ExactRead W) (c : HeaderParser) {raw raw' : RawStream σ} {b t : Bytes} (h : raw.Lies W q b t) {x : Except PyErr StatusAndHeaders}
    (hp : c.parse raw none = (x, raw')) : raw'.LeftOf W q b t ∧
      ∀ e, x = .error e → (e = .eofError ∧ b = []) ∨ (Odd e ∧ (q ∨ (c.verify = true ∧ ∃ l, e = .statusParser l))) := by
  by_cases hq : q
  · have hL := leftOf_lines (q := q) hW b t
    have hg := parse_gives odd_fuel hL c raw none ⟨[], b, rfl, h⟩
    rw [hp] at hg
    refine ⟨hg.1, ?_⟩
    intro e hx
    rcases hg.2 e hx with h1 | h1 | ⟨_, l, h1⟩
    · exact .inr ⟨h1, .inl hq⟩
    · left
      refine ⟨h1, ?_⟩
      subst h1
      obtain ⟨p1, b1, raw1, y, k1, rfl, k3, k4⟩ := h.call hW (c := .readline none) (fun _ h => by cases h)
      have k1 : PyStream.readline raw none = (y, raw1) := k1
      unfold parse at hp
      dsimp only at hp
      rw [k1] at hp
      rcases k4 with ⟨rfl, k4, _⟩ | ⟨_, e', rfl, k5⟩
      · dsimp only at hp
        have := parseFrom_eof hL c (decodeHeader p1) raw1 ⟨p1, b1, rfl, k3⟩ (by rw [hp]; exact hx)
        exact (k4 (decodeHeader_eq_nil.1 this)).resolve_right (fun h => by cases h)
      · cases hp; cases hx; exact absurd rfl k5.1
    · subst h1
      exact .inr ⟨⟨(fun h => by cases h), (fun h => by cases h)⟩, .inl hq⟩
  · have hU : ShortLine (fun (raw : RawStream σ) b => raw.Lies W q b t) := by
      refine ⟨?_, fun h => h.bound hW⟩
      intro raw b h1
      obtain ⟨p1, b1, raw1, y, k1, k2, k3, k4⟩ := h1.call hW (c := .readline none) (fun _ h => by cases h)
      rcases k4 with ⟨rfl, k4, _⟩ | ⟨k4, _⟩
      · exact ⟨p1, b1, raw1, k2, (fun h0 => (k4 h0).resolve_right (fun h => by cases h)), k1, k3⟩
      · exact absurd k4 hq
    obtain ⟨y, p, b', raw1, k1, k2, k3, k4⟩ := parse_short hU c h
    rw [hp] at k1
    cases k1
    refine ⟨⟨p, b', k2, k3⟩, ?_⟩
    rintro e rfl
    rcases k4 with ⟨_, k4⟩ | ⟨k4, k5⟩ | ⟨k4, l, k5⟩
    · cases k4
    · cases k5; exact .inl ⟨rfl, k4⟩
    · cases k5; exact .inr ⟨⟨(fun h => by cases h), (fun h => by cases h)⟩, .inr ⟨k4, l, rfl⟩⟩

end HeaderParser

namespace Loader

/-- The HTTP headers of a record. -/
theorem http_lies (hW : ExactRead W) {v : Bool} {a u : Option Str} {n : Option Int} {raw raw' : RawStream σ} {b t : Bytes} (h : raw.Lies W q b t)
    {x : Except PyErr (Option StatusAndHeaders)} (hp : loadHttpHeaders v a u n raw = (x, raw')) : raw'.LeftOf W q b t ∧
      (¬ HttpType a → raw' = raw ∧ x = .ok none) ∧ ∀ e, x = .error e → (e = .eofError ∧ b = [] ∧ HttpRecord a u ∧ a ≠ some (lit "revisit") ∧ n ≠ some 0) ∨
        (Odd e ∧ (q ∨ (v = true ∧ ∃ l, e = .statusParser l) ∨ (e = .attributeError ∧ HttpType a ∧ u = none ∧ n ≠ some 0))) := by
  have h0 : raw.LeftOf W q b t := ⟨[], b, rfl, h⟩
  unfold loadHttpHeaders at hp
  split at hp
  · cases hp; exact ⟨h0, (fun _ => ⟨rfl, rfl⟩), fun _ h => by cases h⟩
  · rename_i hn
    split at hp
    · cases hp; exact ⟨h0, (fun _ => ⟨rfl, rfl⟩), fun _ h => by cases h⟩
    · rename_i ty
      split at hp
      · cases hp; exact ⟨h0, (fun _ => ⟨rfl, rfl⟩), fun _ h => by cases h⟩
      · rename_i ht
        have ht' : HttpType (some ty) := (httpRecords_iff ty).1 (by simpa using ht)
        split at hp
        · cases hp
          exact ⟨h0, (fun h => absurd ht' h), fun e h => by cases h; exact .inr ⟨⟨(fun h => by cases h), (fun h => by cases h)⟩, .inr (.inr ⟨rfl, ht', rfl, hn⟩)⟩⟩
        · rename_i uri
          split at hp
          · cases hp; exact ⟨h0, (fun _ => ⟨rfl, rfl⟩), fun _ h => by cases h⟩
          · rename_i hs
            have hs' : HttpRecord (some ty) (some uri) := ⟨ht', uri, rfl, (httpSchemes_iff uri).1 (by simpa using hs)⟩
            split at hp
            · rename_i hreq
              cases hx : (httpReqParser v).parse raw none with
              | mk y raw1 =>
              obtain ⟨m1, m2⟩ := HeaderParser.parse_lies hW (httpReqParser v) h hx
              rw [hx] at hp
              cases y with
              | ok hd => cases hp; exact ⟨m1, (fun h => absurd ht' h), fun _ h => by cases h⟩
              | error e0 =>
                cases hp
                refine ⟨m1, (fun h => absurd ht' h), ?_⟩
                rintro e he
                cases he
                rcases m2 e0 rfl with ⟨rfl, m3⟩ | ⟨m3, m4⟩
                · exact .inl ⟨rfl, m3, hs', (fun h0 => by rw [Option.some.injEq, hreq] at h0; exact absurd h0 (by decide)), hn⟩
                · exact .inr ⟨m3, m4.imp id .inl⟩
            · cases hx : (httpParser v).parse raw none with
              | mk y raw1 =>
              obtain ⟨m1, m2⟩ := HeaderParser.parse_lies hW (httpParser v) h hx
              rw [hx] at hp
              cases y with
              | ok hd => cases hp; exact ⟨m1, (fun h => absurd ht' h), fun _ h => by cases h⟩
              | error e0 =>
                dsimp only at hp
                split at hp
                · cases hp; exact ⟨m1, (fun h => absurd ht' h), fun _ h => by cases h⟩
                · rename_i hrev
                  cases hp
                  refine ⟨m1, (fun h => absurd ht' h), ?_⟩
                  rintro e he
                  cases he
                  rcases m2 e0 rfl with ⟨rfl, m3⟩ | ⟨m3, m4⟩
                  · exact .inl ⟨rfl, m3, hs', (fun h0 => hrev ⟨Option.some.inj h0, rfl⟩), hn⟩
                  · exact .inr ⟨m3, m4.imp id .inl⟩

/-- The stream of a record. -/
theorem wrap_lies (o : LoadOpts) (f : Fields) {n : Option Int} (hl : ∀ m, n = some m → 0 ≤ m) {s : σ} {data : Bytes} (hs : W s data) :
    (∀ e, wrap o f n s = .error e → Odd e ∧ o.checkDigests.isSome = true) ∧
    (∀ raw, wrap o f n s = .ok raw → raw.Lies W (o.checkDigests.isSome = true) (blockOf n data).1 (blockOf n data).2) := by
  unfold wrap
  cases n with
  | none => exact ⟨(fun e h => by cases h), (fun raw h => by cases h; exact ⟨hs, rfl⟩)⟩
  | some n =>
    have hn := hl n rfl
    have hv : (LimitReader.mk' s n).View W (blockOf (some n) data).1 (blockOf (some n) data).2 := by
      refine ⟨?_, ?_, ?_⟩
      · simp only [blockOf, LimitReader.mk', List.take_append_drop]; exact hs
      · simp only [blockOf, LimitReader.mk', len, List.length_take]; omega
      · simp only [blockOf, LimitReader.mk', len, List.length_take]
        intro h; exact List.drop_of_length_le (by omega)
    simp only [LimitReader.wrapStream, if_pos hn]
    split
    · rename_i hcd
      have hq : o.checkDigests.isSome = true := by simp only [Bool.and_eq_true] at hcd; exact hcd.1
      split
      · rename_i d hd
        refine ⟨(fun e h => by cases h), ?_⟩
        rintro raw ⟨⟩
        unfold DigestReader.new at hd
        dsimp only at hd
        split at hd
        · cases hd
        · split at hd
          · cases hd
          · cases hd; exact ⟨hq, rfl, hv⟩
      · rename_i e hd
        exact ⟨(fun e' h => by cases h; exact ⟨((DigestReader.new_gives).1 e hd).odd, hq⟩), (fun raw h => by cases h)⟩
    · exact ⟨(fun e h => by cases h), (fun raw h => by cases h; exact hv)⟩

theorem beginPayload_lies {raw : RawStream σ} {b t : Bytes} (h : raw.Lies W q b t) :
    (beginPayload raw).2.Lies W q b t ∧ ∀ e, (beginPayload raw).1 = .error e → Odd e ∧ q := by
  unfold beginPayload
  split
  · rename_i d
    have h1 := (DigestReader.beginPayload_calm d).2
    have h2 := DigestReader.beginPayload_gives d
    refine ⟨⟨h.1, by rw [h1]; exact h.2.1, by rw [h1]; exact h.2.2⟩, fun e he => ⟨(h2.2 e he).odd, h.1⟩⟩
  · exact ⟨h, fun _ h => by cases h⟩

theorem readBlock_suffix : ∀ ls : List Bytes, (readBlock ls).2.1 <:+ ls
  | [] => List.suffix_rfl
  | l :: ls => by
    unfold readBlock
    split
    · exact List.suffix_cons _ _
    · exact (readBlock_suffix ls).trans (List.suffix_cons _ _)

/-- What detection does to the lines. -/
theorem detectLines_facts (o : LoadOpts) (full : Str) (ls : List Bytes) :
    (detectLines o full ls).2 <:+ ls ∧ ∀ e, (detectLines o full ls).1 = .error e → (full = [] ∧ e = .eofError) ∨ (full ≠ [] ∧ Odd e) := by
  have hskip : ∀ f : Str, (arcSkip f ls).2 <:+ ls := by
    intro f
    unfold arcSkip
    split
    · exact (List.tail_suffix _).trans (List.tail_suffix _)
    · exact List.suffix_rfl
  have harc : (detectArcLines o full ls).2 <:+ ls ∧ ∀ e, (detectArcLines o full ls).1 = .error e → (full = [] ∧ e = .eofError) ∨ (full ≠ [] ∧ Odd e) := by
    unfold detectArcLines arcLines
    by_cases h0 : full = []
    · rw [if_pos h0]
      exact ⟨List.suffix_rfl, fun e h => by cases h; exact .inl ⟨h0, rfl⟩⟩
    · rw [if_neg h0]
      dsimp only
      by_cases hp : (rsplitN ' ' 4 (rstrip full)).length ≠ 5
      · rw [if_pos hp]
        refine ⟨hskip _, fun e h => ?_⟩
        dsimp only at h
        split at h <;> cases h <;> exact .inr ⟨h0, (fun h => by cases h), (fun h => by cases h)⟩
      · rw [if_neg hp]
        obtain ⟨hs, hh⟩ := arcHeaders_ok o (rstrip full) (rsplitN ' ' 4 (rstrip full))
        rw [hh]
        exact ⟨hskip _, fun e h => by cases h⟩
  unfold detectLines
  split
  · exact harc
  · unfold HeaderParser.parseLines
    by_cases h0 : full = []
    · rw [if_pos h0]
      exact ⟨List.suffix_rfl, fun e h => by cases h; exact .inl ⟨h0, rfl⟩⟩
    · rw [if_neg h0]
      by_cases h1 : rstrip full = []
      · rw [if_pos h1]; exact ⟨List.suffix_rfl, fun e h => by cases h⟩
      · rw [if_neg h1]
        cases hp : warcParser.protocolStatus full (rstrip full) with
        | error e =>
          have : e = .statusParser full := by
            unfold HeaderParser.protocolStatus at hp
            split at hp
            · split at hp
              · cases hp
              · cases hp; rfl
            · cases hp
          subst this
          dsimp only
          split
          · exact ⟨List.suffix_rfl, fun e h => by cases h; exact .inr ⟨h0, (fun h => by cases h), (fun h => by cases h)⟩⟩
          · exact harc
        | ok ps =>
          exact ⟨readBlock_suffix ls, fun e h => by cases h⟩

end Loader
end
end Warcio
