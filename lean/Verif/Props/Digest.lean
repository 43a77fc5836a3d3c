import Verif.Proofs.Digest
import Verif.Toy

/-!
# Properties C19–C25: digest verification

Specification used: the RFC 4648 encodings (`Verif/Spec/Rfc4648.lean`) and `Outcome`, `overall`
(`Verif/Spec/Digest.lean`).  The hash functions are a parameter (`Hashlib`).
-/

namespace Warcio.Props

open Warcio Rfc4648 DigestReader

section
variable [Hashlib]

/-! ## C19 -/

/-- C19: the right digest verifies in base32, base16 of either case, base64 and URL-safe
base64.  Partial: `Encodes` leaves out base16 for digests of less than 17 bytes and base64 for
less than 11 (see `C19_md5_hex`). -/
theorem C19_encodings_partial (algo v : Str) (f : Bytes → Bytes) (data : Bytes) (dg : Digester) (ha : ':' ∉ algo)
    (hf : Hashlib.hash algo = some f) (hd : Digester.new algo = .ok dg) (h : Encodes v (f data)) :
    compareDigest (some (dg.update data)) (some (algo ++ ':' :: v)) = .ok (some true) := by
  simp only [Digester.new, hf, Except.ok.injEq] at hd
  subst hd
  show compareDigest (some { algo := algo, data := data }) _ = _
  rw [compareDigest_eq ha hf ha, toB32_encodes h rfl]
  simp [Except.map]

omit [Hashlib] in
theorem sixteen {α} : ∀ (d : List α), d.length = 16 → ∃ a1 a2 a3 a4 a5 a6 a7 a8 a9 b1 b2 b3 b4 b5 b6 b7,
    d = [a1, a2, a3, a4, a5, a6, a7, a8, a9, b1, b2, b3, b4, b5, b6, b7]
  | [a1, a2, a3, a4, a5, a6, a7, a8, a9, b1, b2, b3, b4, b5, b6, b7], _ =>
    ⟨a1, a2, a3, a4, a5, a6, a7, a8, a9, b1, b2, b3, b4, b5, b6, b7, rfl⟩

/-- C19 fails for MD5: a digest of 16 bytes has 32 characters in base16 and also in base32,
so base16 is taken for base32, and no correct hexadecimal MD5 ever verifies. -/
theorem C19_md5_hex (algo v : Str) (f : Bytes → Bytes) (data : Bytes) (ha : ':' ∉ algo)
    (hf : Hashlib.hash algo = some f) (h16 : (f data).length = 16) (hv : v.map Char.toUpper = base16 (f data)) :
    compareDigest (some { algo := algo, data := data }) (some (algo ++ ':' :: v)) = .ok (some false) := by
  have hl : v.length = 32 := by
    have := congrArg List.length hv
    rw [List.length_map, base16_length] at this; omega
  rw [compareDigest_eq ha hf ha]
  have e : toB32 (base32 (f data)).length v = .ok v := by
    unfold toB32
    rw [if_pos]; rw [base32_length]; omega
  rw [e]
  simp only [Except.map, Except.ok.injEq, Option.some.injEq, beq_eq_false_iff_ne, ne_eq]
  intro hb
  have hmem : '=' ∈ base32 (f data) := by
    obtain ⟨a1, a2, a3, a4, a5, a6, a7, a8, a9, b1, b2, b3, b4, b5, b6, b7, e⟩ := sixteen _ h16
    rw [e, ← b32encode_eq]
    simp [b32encode]
  rw [hb] at hmem
  have h2 := (b16decode_iff v (f data)).2 hv
  have hp : b16Pairs v = some (f data) := (b16Pairs_iff v (f data)).2 hv
  have key : ∀ (v : Str) (d : Bytes), b16Pairs v = some d → ∀ c ∈ v, (b16Val c).isSome = true := by
    intro v
    induction v using pairs_induct with
    | h0 => intro d _ c hc; cases hc
    | h1 c => intro d h; simp [b16Pairs] at h
    | h2 x y t ih =>
      intro d h c hc
      simp only [b16Pairs] at h
      split at h
      · rename_i p q l k1 k2 k3
        simp only [List.mem_cons] at hc
        rcases hc with rfl | rfl | hc
        · rw [k1]; rfl
        · rw [k2]; rfl
        · exact ih _ k3 c hc
      · cases h
  exact absurd (key v _ hp _ hmem) (by decide)

/-! ## C20 -/

/-- C20: another digest of the same length does not verify, in whatever encoding. -/
theorem C20_different_rejected (algo v : Str) (f : Bytes → Bytes) (data x : Bytes) (dg : Digester) (ha : ':' ∉ algo)
    (hf : Hashlib.hash algo = some f) (hd : Digester.new algo = .ok dg) (h : Encodes v x) (hl : x.length = (f data).length)
    (hne : x ≠ f data) :
    compareDigest (some (dg.update data)) (some (algo ++ ':' :: v)) = .ok (some false) := by
  simp only [Digester.new, hf, Except.ok.injEq] at hd
  subst hd
  show compareDigest (some { algo := algo, data := data }) _ = _
  rw [compareDigest_eq ha hf ha, toB32_encodes h hl]
  have : ¬ base32 (f data) = base32 x := fun h => hne (base32_inj h).symm
  simp [Except.map, this]

/-- C20 for arbitrary text: what verifies is the base32 text, a longer text that is the
base16 text up to case, or a shorter text that `b64decode` turns into the digest. -/
theorem C20_accepted_only (algo v : Str) (f : Bytes → Bytes) (data : Bytes) (dg : Digester) (ha : ':' ∉ algo)
    (hf : Hashlib.hash algo = some f) (hd : Digester.new algo = .ok dg) :
    compareDigest (some (dg.update data)) (some (algo ++ ':' :: v)) = .ok (some true) ↔
      (v = base32 (f data) ∨ ((base32 (f data)).length < v.length ∧ v.map Char.toUpper = base16 (f data)) ∨
        (v.length < (base32 (f data)).length ∧ b64Wrapper v = .ok (f data))) := by
  simp only [Digester.new, hf, Except.ok.injEq] at hd
  subst hd
  show compareDigest (some { algo := algo, data := data }) _ = _ ↔ _
  rw [compareDigest_eq ha hf ha]
  unfold toB32
  by_cases h1 : v.length = (base32 (f data)).length
  · rw [if_pos h1]
    simp only [Except.map, Except.ok.injEq, Option.some.injEq, beq_iff_eq]
    constructor
    · exact fun h => .inl h.symm
    · rintro (h | ⟨h, _⟩ | ⟨h, _⟩)
      · exact h.symm
      · omega
      · omega
  · rw [if_neg h1]
    have hne : v ≠ base32 (f data) := fun h => h1 (by rw [h])
    by_cases h2 : (base32 (f data)).length < v.length
    · rw [if_pos h2, ← b16decode_iff]
      cases hb : b16decode v with
      | error e =>
        simp only [Except.map, hne, false_or, h2, true_and]
        constructor
        · intro h; cases h
        · rintro (h | ⟨h, _⟩)
          · cases h
          · omega
      | ok b =>
        simp only [Except.map, Except.ok.injEq, Option.some.injEq, beq_iff_eq, b32encode_eq, hne, false_or, h2, true_and]
        constructor
        · exact fun h => .inl (base32_inj h.symm)
        · rintro (h | ⟨h, _⟩)
          · rw [h]
          · omega
    · rw [if_neg h2]
      cases hb : b64Wrapper v with
      | error e => simp [Except.map, hne, h2]
      | ok b =>
        simp only [Except.map, Except.ok.injEq, Option.some.injEq, beq_iff_eq, b32encode_eq, hne, false_or, h2, false_and]
        constructor
        · exact fun h => ⟨by omega, base32_inj h.symm⟩
        · rintro ⟨_, h⟩; rw [h]

/-! ## C21 -/

variable {σ : Type} [PyStream σ]

/-- C21.  A record of `L > 0` bytes is read by any calls, `begin_payload`, and any more calls;
a reader that only limits (no digests) would return `ps1` and then `ps2`.  When these make up
the whole block, the verifying reader returns the same and its verdict is the one that the
digest headers call for, of the block `ps1 ++ ps2` and of the payload `ps2`.  Partial: blocks
of length 0 (see `C21_empty_block`); headers whose text is no encoding of a digest of the
right length have no `Outcome` (see `C21_malformed`); no negative lengths. -/
theorem C21_verdict_partial {V : σ → Bytes → Prop} (hV : Bounded V) (s : σ) (data : Bytes) (hs : V s data) (L : Nat) (hL : 0 < L)
    (k : CheckKind) (hk : k ≠ .raise) (rt ph bh sg : Option Str) (cs1 cs2 : List Call)
    (hc1 : ∀ c ∈ cs1, c.nonneg) (hc2 : ∀ c ∈ cs2, c.nonneg) (ps1 ps2 : List Bytes) (l1 l2 : LimitReader σ)
    (h1 : runCalls (LimitReader.mk' s L) cs1 = (ps1.map .ok, l1)) (h2 : runCalls l1 cs2 = (ps2.map .ok, l2))
    (hall : (ps1 ++ ps2).flatten.length = L) (ob op : Option Bool)
    (hob : Outcome (ps1 ++ ps2).flatten (lookedAt rt sg bh ph).1 ob) (hop : Outcome ps2.flatten (lookedAt rt sg bh ph).2 op) :
    ∃ r r', (DigestReader.new s L { kind := k } rt ph bh sg).1 = .ok r ∧
      r.session cs1 cs2 = (ps1.map .ok, .ok (), ps2.map .ok, r') ∧ r'.checker.passed = overall ob op := by
  rw [lookedAt_eq] at hob hop
  obtain ⟨cb, b1, b2, b3⟩ := outcome_compare hob
  obtain ⟨cp, p1, p2, p3⟩ := outcome_compare hop
  rcases new_cases s L k rt ph bh sg with ⟨h, _⟩ | ⟨_, c, hn, hck, hcp⟩
  · exact absurd h hk
  · refine ⟨{ lim := LimitReader.mk' s L, checker := c, payloadDigest := effPayload rt ph sg, blockDigest := effBlock rt bh, payloadDigester := digOf (effPayload rt ph sg) [], blockDigester := digOf (effBlock rt bh) [] }, ?_⟩
    obtain ⟨e1, e2, _, e3⟩ := session_spec (r := { lim := LimitReader.mk' s L, checker := c, payloadDigest := effPayload rt ph sg, blockDigest := effBlock rt bh, payloadDigester := digOf (effPayload rt ph sg) [], blockDigester := digOf (effBlock rt bh) [] })
      hV hs L cs1 cs2 hc1 hc2 rfl hck rfl rfl rfl rfl rfl hcp h1 h2 (fun _ => b1) (fun _ => p1)
    rcases e3 with ⟨g, _⟩ | ⟨_, _, r', g2, _, g3⟩ | ⟨_, g, _⟩
    · rw [e1, hall.symm] at g; simp [len] at g
    · refine ⟨r', hn, g2, ?_⟩
      rw [g3, if_neg (by omega), b2, p2]
      exact overall_merge b3 p3
    · exact absurd g hk

/-- C21 while the record is not read to its end: no verdict yet, except that an unknown
algorithm was noticed at once. -/
theorem C21_unfinished {V : σ → Bytes → Prop} (hV : Bounded V) (s : σ) (data : Bytes) (hs : V s data) (L : Nat)
    (k : CheckKind) (hk : k ≠ .raise) (rt ph bh sg : Option Str) (cs1 cs2 : List Call)
    (hc1 : ∀ c ∈ cs1, c.nonneg) (hc2 : ∀ c ∈ cs2, c.nonneg) (ps1 ps2 : List Bytes) (l1 l2 : LimitReader σ)
    (h1 : runCalls (LimitReader.mk' s L) cs1 = (ps1.map .ok, l1)) (h2 : runCalls l1 cs2 = (ps2.map .ok, l2))
    (hall : (ps1 ++ ps2).flatten.length < L) (ob op : Option Bool)
    (hob : Outcome (ps1 ++ ps2).flatten (lookedAt rt sg bh ph).1 ob) (hop : Outcome ps2.flatten (lookedAt rt sg bh ph).2 op) :
    ∃ r r', (DigestReader.new s L { kind := k } rt ph bh sg).1 = .ok r ∧
      r.session cs1 cs2 = (ps1.map .ok, .ok (), ps2.map .ok, r') ∧
      r'.checker.passed ≠ some true ∧ (r'.checker.passed = some false → overall ob op = some false) := by
  rw [lookedAt_eq] at hob hop
  obtain ⟨cb, b1, b2, b3⟩ := outcome_compare hob
  obtain ⟨cp, p1, p2, p3⟩ := outcome_compare hop
  rcases new_cases s L k rt ph bh sg with ⟨h, _⟩ | ⟨_, c, hn, hck, hcp⟩
  · exact absurd h hk
  · refine ⟨{ lim := LimitReader.mk' s L, checker := c, payloadDigest := effPayload rt ph sg, blockDigest := effBlock rt bh, payloadDigester := digOf (effPayload rt ph sg) [], blockDigester := digOf (effBlock rt bh) [] }, ?_⟩
    obtain ⟨e1, e2, _, e3⟩ := session_spec (r := { lim := LimitReader.mk' s L, checker := c, payloadDigest := effPayload rt ph sg, blockDigest := effBlock rt bh, payloadDigester := digOf (effPayload rt ph sg) [], blockDigester := digOf (effBlock rt bh) [] })
      hV hs L cs1 cs2 hc1 hc2 rfl hck rfl rfl rfl rfl rfl hcp h1 h2 (fun _ => b1) (fun _ => p1)
    have hpos : 0 < l2.limit := by rw [e1]; simp only [len]; omega
    rcases e3 with ⟨_, r', g2, _, g3⟩ | ⟨g, _⟩ | ⟨g, _⟩
    · refine ⟨r', hn, g2, ?_, ?_⟩
      · rw [g3]; split <;> simp
      · rw [g3, b2, p2]
        simp only [overall]
        cases unknownAlgo (effBlock rt bh) <;> cases unknownAlgo (effPayload rt ph sg) <;> simp
    · omega
    · omega

/-- C21 fails for an empty block: its block digest is never looked at. -/
theorem C21_empty_block (s : σ) (k : CheckKind) (hk : k ≠ .raise) (algo v : Str) (ha : ':' ∉ algo) (hf : (Hashlib.hash algo).isSome = true)
    (cs1 cs2 : List Call) (hc1 : ∀ c ∈ cs1, c.nonneg) (hc2 : ∀ c ∈ cs2, c.nonneg) :
    ∃ r, (DigestReader.new s 0 { kind := k } none none (some (algo ++ ':' :: v)) none).1 = .ok r ∧
      (r.session cs1 cs2).2.2.2.checker.passed = none := by
  have hu : unknownAlgo (some (algo ++ ':' :: v)) = false := by
    obtain ⟨f, hf⟩ := Option.isSome_iff_exists.1 hf
    simp [unknownAlgo, digOf, split1_append ha, hf]
  rcases new_cases s 0 k none none (some (algo ++ ':' :: v)) none with ⟨h, _⟩ | ⟨_, c, hn, hck, hcp⟩
  · exact absurd h hk
  · refine ⟨_, hn, ?_⟩
    have e0 : effBlock none (some (algo ++ ':' :: v)) = some (algo ++ ':' :: v) := rfl
    have e1 : effPayload none none none = none := rfl
    rw [e0, e1, hu] at hcp
    simp only [session]
    rw [closed_calls rfl cs1 hc1]
    simp only
    rw [closed_calls (by rw [begin_lim]; rfl) cs2 hc2]
    simp only [beginPayload, LimitReader.mk', if_true, e1, activePayload, digOf, compareDigest, DigestChecker.verdict]
    exact hcp

end

open Toy in
/-- The hypotheses of C19 are met by a hexadecimal digest in lower case. -/
example : compareDigest (some { algo := lit "sha1", data := [1, 2] })
    (some (lit "sha1:0203030303030303030303030303030303030303")) = .ok (some true) := by decide +kernel

open Toy in
example :
    compareDigest (some { algo := lit "sha1", data := [255, 0] }) (some (lit "sha1:Av////////////////////////8=")) = .ok (some true) ∧
    compareDigest (some { algo := lit "sha1", data := [255, 0] }) (some (lit "sha1:Av________________________8=")) = .ok (some true) ∧
    compareDigest (some { algo := lit "sha1", data := [255, 0] }) (some (lit "sha1:AL777777777777777777777777777777")) = .ok (some true) := by decide +kernel

open Toy in
/-- The hypotheses of C20 are met by two toy digests that differ in one byte. -/
example : compareDigest (some { algo := lit "sha1", data := [1, 2] })
    (some (lit "sha1:0203030303030303030303030303030303030304")) = .ok (some false) := by decide +kernel

open Toy in
/-- C21 fails for a digest header that is no encoding of a digest: the call that reaches the
end of the record raises `binascii.Error` instead of giving a verdict. -/
theorem C21_malformed :
    ((DigestReader.new ({ content := [1, 2] } : FileObj) 2 { kind := .log } none none (some (lit "sha1:A")) none).1.map
      (fun r => (r.session [.read none] []).1)) = .ok [.error .binascii] := by decide +kernel

open Toy in
/-- The hypotheses of C21 are met: both digests match, the record is read in three calls. -/
example : ((DigestReader.new ({ content := [1, 2, 10, 5], caps := [1] } : FileObj) 3 { kind := .log } none
      (some (lit "sha1:010a0a0a0a0a0a0a0a0a0a0a0a0a0a0a0a0a0a0a")) (some (lit "sha1:030d0d0d0d0d0d0d0d0d0d0d0d0d0d0d0d0d0d0d")) none).1.map
    (fun r => (r.session [.read (some 7), .read (some 1)] [.readline none]).2.2.2.checker.passed)) = .ok (some true) := by
  decide +kernel

open Toy in
example : Outcome [10] (some (lit "sha1:010a0a0a0a0a0a0a0a0a0a0a0a0a0a0a0a0a0a0a")) (some true) :=
  .good (lit "sha1") _ _ (by decide) rfl (.b16 _ _ (by decide) (by decide +kernel))

/-! ## C22 -/

section
variable [Hashlib] {σ : Type} [PyStream σ]

/-- C22: with checks on (and not `'raise'`) every call returns what a reader without checks
returns, over any stream and for any arguments, exceptions of the stream included.  Partial:
digest headers that are no encoding of a digest make the last call raise instead (see
`C22_malformed`). -/
theorem C22_same_bytes_partial (s : σ) (L : Int) (k : CheckKind) (hk : k ≠ .raise) (rt ph bh sg : Option Str)
    (hb : ∀ data, ∃ o, Outcome data (lookedAt rt sg bh ph).1 o) (hp : ∀ data, ∃ o, Outcome data (lookedAt rt sg bh ph).2 o)
    (ops : List VOp) :
    ∃ r, (DigestReader.new s L { kind := k } rt ph bh sg).1 = .ok r ∧
      (r.runOps ops).1 = (runCalls (LimitReader.mk' s L) (callsOf ops)).1 ∧
      PyStream.tell (r.runOps ops).2 = PyStream.tell (runCalls (LimitReader.mk' s L) (callsOf ops)).2 := by
  rw [lookedAt_eq] at hb hp
  rcases new_cases s L k rt ph bh sg with ⟨h, _⟩ | ⟨_, c, hn, hck, hcp⟩
  · exact absurd h hk
  · refine ⟨_, hn, ?_⟩
    have ht : Tame ({ lim := LimitReader.mk' s L, checker := c, payloadDigest := effPayload rt ph sg, blockDigest := effBlock rt bh, payloadDigester := digOf (effPayload rt ph sg) [], blockDigester := digOf (effBlock rt bh) [] } : DigestReader σ) := by
      refine ⟨by rw [hck]; exact hk, ?_, ?_, ⟨[], rfl⟩, ⟨[], rfl⟩⟩
      · intro b
        obtain ⟨o, ho⟩ := hb b
        obtain ⟨c, hc, _⟩ := outcome_compare ho
        exact ⟨c, hc⟩
      · intro b
        obtain ⟨o, ho⟩ := hp b
        obtain ⟨c, hc, _⟩ := outcome_compare ho
        exact ⟨c, hc⟩
    obtain ⟨h1, h2⟩ := tame_ops ops ht
    refine ⟨h1, ?_⟩
    show LimitReader.tell _ = LimitReader.tell _
    rw [h2]

end

open Toy in
/-- C22 fails for a malformed digest header. -/
theorem C22_malformed :
    ((DigestReader.new ({ content := [1, 2] } : FileObj) 2 { kind := .log } none none (some (lit "sha1:A")) none).1.map
      (fun r => (r.runOps [.beginPayload, .call (.read none)]).1)) = .ok [.error .binascii] ∧
    (runCalls (LimitReader.mk' ({ content := [1, 2] } : FileObj) 2) [.read none]).1 = [.ok [1, 2]] := by decide +kernel

open Toy in
/-- The hypotheses of C22 are met by a header with a wrong digest. -/
example : ∀ data, ∃ o, Outcome data (lookedAt none none (some (lit "sha1" ++ ':' :: lit "010a0a0a0a0a0a0a0a0a0a0a0a0a0a0a0a0a0a0a")) none).1 o := by
  intro data
  have henc : Encodes (lit "010a0a0a0a0a0a0a0a0a0a0a0a0a0a0a0a0a0a0a") (1 :: List.replicate 19 10) :=
    .b16 _ _ (by decide) (by decide +kernel)
  have hh : Hashlib.hash (lit "sha1") = some (fun d : Bytes => UInt8.ofNat d.length :: List.replicate 19 (d.foldl (· + ·) 0)) := if_pos rfl
  by_cases h : (1 :: List.replicate 19 10 : Bytes) = UInt8.ofNat data.length :: List.replicate 19 (data.foldl (· + ·) 0)
  · refine ⟨_, .good (lit "sha1") _ _ (by decide) hh ?_⟩
    rw [h] at henc
    exact henc
  · exact ⟨_, .bad (lit "sha1") _ _ _ (by decide) hh henc (by simp only [List.length_cons, List.length_replicate]) h⟩

/-! ## C23 -/

section
variable [Hashlib] {σ : Type} [PyStream σ]

/-- C23: a record is reported as passed only after all `L` bytes of its block were there and
were read — for every kind of check, any digest headers (malformed ones too), any mixture of
calls and `begin_payload`, and whether or not calls raise. -/
theorem C23_pass_needs_all {V : σ → Bytes → Prop} (hV : Bounded V) (s : σ) (data : Bytes) (hs : V s data) (L : Nat)
    (k : CheckKind) (rt ph bh sg : Option Str) (r : DigestReader σ)
    (hn : (DigestReader.new s L { kind := k } rt ph bh sg).1 = .ok r) (ops : List VOp) (hc : ∀ c ∈ callsOf ops, c.nonneg)
    (hp : (r.runOps ops).2.checker.passed = some true) :
    L ≤ data.length ∧ PyStream.tell (r.runOps ops).2 = (L : Int) ∧ V (r.runOps ops).2.lim.stream (data.drop L) := by
  rcases new_cases s L k rt ph bh sg with ⟨_, _, h⟩ | ⟨_, c, hn', hck, hcp⟩
  · rw [hn] at h; cases h
  · rw [hn] at hn'
    cases hn'
    have hlate : PassLate ({ lim := LimitReader.mk' s L, checker := c, payloadDigest := effPayload rt ph sg, blockDigest := effBlock rt bh, payloadDigester := digOf (effPayload rt ph sg) [], blockDigester := digOf (effBlock rt bh) [] } : DigestReader σ) := by
      intro h
      simp only [hcp] at h
      split at h <;> cases h
    obtain ⟨p, srem', g1, g2, g3, g4, g5, g6⟩ := passLate_ops hV ops (srem := data) hs (by simp [LimitReader.mk']) hlate hc
    have h0 := g6 hp
    rw [h0] at g3
    simp only [LimitReader.mk', len] at g3
    have hpl : p.length = L := by omega
    refine ⟨by rw [g2]; simp; omega, ?_, ?_⟩
    · show LimitReader.tell _ = _
      unfold LimitReader.tell
      rw [h0, g5]; simp [LimitReader.mk']
    · rw [g2, List.drop_left' hpl]; exact g1

/-- C23 for a file that is cut off before the end of the block: never a pass. -/
theorem C23_truncated (f : FileObj) (L : Nat) (hcut : f.rest.length < L) (k : CheckKind) (rt ph bh sg : Option Str)
    (r : DigestReader FileObj) (hn : (DigestReader.new f L { kind := k } rt ph bh sg).1 = .ok r) (ops : List VOp)
    (hc : ∀ c ∈ callsOf ops, c.nonneg) : (r.runOps ops).2.checker.passed ≠ some true := by
  intro hp
  have := (C23_pass_needs_all FileObj.bounded f f.rest rfl L k rt ph bh sg r hn ops hc hp).1
  omega

/-! ## C24 -/

/-- C24: of a revisit record no digest is ever looked at: no verdict, no problem, no
exception of the checker, for any digest headers and any operations. -/
theorem C24_revisit (s : σ) (L : Int) (c : DigestChecker) (ph bh sg : Option Str) (ops : List VOp) :
    ∃ r, (DigestReader.new s L c (some (lit "revisit")) ph bh sg).1 = .ok r ∧ (r.runOps ops).2.checker = c := by
  have : (DigestReader.new s L c (some (lit "revisit")) ph bh sg).1 =
      .ok { lim := LimitReader.mk' s L, checker := c, payloadDigest := none, blockDigest := none, payloadDigester := none, blockDigester := none } := by
    cases h : sg.isSome <;> simp [DigestReader.new, makeDigester, h]
  exact ⟨_, this, silent_ops ops rfl rfl⟩

omit [PyStream σ] in
/-- C24: the payload digest of a segment makes no difference: the reader is the one made
without it. -/
theorem C24_segment (s : σ) (L : Int) (c : DigestChecker) (rt ph bh : Option Str) (n : Str) :
    DigestReader.new s L c rt ph bh (some n) = DigestReader.new s L c rt none bh (some n) := by
  simp [DigestReader.new]

/-- C24: with no block digest, a segment gets no verdict, whatever its payload digest. -/
theorem C24_segment_verdict (s : σ) (L : Int) (c : DigestChecker) (rt ph : Option Str) (n : Str) (ops : List VOp) :
    ∃ r, (DigestReader.new s L c rt ph none (some n)).1 = .ok r ∧ (r.runOps ops).2.checker = c := by
  have : (DigestReader.new s L c rt ph none (some n)).1 =
      .ok { lim := LimitReader.mk' s L, checker := c, payloadDigest := none, blockDigest := none, payloadDigester := none, blockDigester := none } := by
    simp [DigestReader.new, makeDigester]
  exact ⟨_, this, silent_ops ops rfl rfl⟩

/-! ## C25 -/

/-- C25, first half: with `'raise'`, when a declared digest does not match (or names an unknown
algorithm), making the reader or one of the calls raises `ArchiveLoadFailed`, if the record is
read to its end.  Partial: as for C21, `L > 0`, and `Outcome` leaves out malformed headers. -/
theorem C25_raises_partial {V : σ → Bytes → Prop} (hV : Bounded V) (s : σ) (data : Bytes) (hs : V s data) (L : Nat) (hL : 0 < L)
    (rt ph bh sg : Option Str) (cs1 cs2 : List Call)
    (hc1 : ∀ c ∈ cs1, c.nonneg) (hc2 : ∀ c ∈ cs2, c.nonneg) (ps1 ps2 : List Bytes) (l1 l2 : LimitReader σ)
    (h1 : runCalls (LimitReader.mk' s L) cs1 = (ps1.map .ok, l1)) (h2 : runCalls l1 cs2 = (ps2.map .ok, l2))
    (hall : (ps1 ++ ps2).flatten.length = L) (ob op : Option Bool)
    (hob : Outcome (ps1 ++ ps2).flatten (lookedAt rt sg bh ph).1 ob) (hop : Outcome ps2.flatten (lookedAt rt sg bh ph).2 op)
    (hbad : ob = some false ∨ op = some false) :
    (DigestReader.new s L { kind := .raise } rt ph bh sg).1 = .error .digestFailed ∨
    ∃ r, (DigestReader.new s L { kind := .raise } rt ph bh sg).1 = .ok r ∧
      (.error .digestFailed ∈ (r.session cs1 cs2).1 ∨ (r.session cs1 cs2).2.1 = .error .digestFailed ∨
        .error .digestFailed ∈ (r.session cs1 cs2).2.2.1) := by
  rw [lookedAt_eq] at hob hop
  obtain ⟨cb, b1, b2, b3⟩ := outcome_compare hob
  obtain ⟨cp, p1, p2, p3⟩ := outcome_compare hop
  rcases new_cases s L .raise rt ph bh sg with ⟨_, _, h⟩ | ⟨hk, c, hn, hck, hcp⟩
  · exact .inl h
  · right
    refine ⟨_, hn, ?_⟩
    obtain ⟨e1, e2, _, e3⟩ := session_spec (r := { lim := LimitReader.mk' s L, checker := c, payloadDigest := effPayload rt ph sg, blockDigest := effBlock rt bh, payloadDigester := digOf (effPayload rt ph sg) [], blockDigester := digOf (effBlock rt bh) [] })
      hV hs L cs1 cs2 hc1 hc2 rfl hck rfl rfl rfl rfl rfl hcp h1 h2 (fun _ => b1) (fun _ => p1)
    obtain ⟨u1, u2⟩ := hk rfl
    rw [u1] at b2
    rw [u2] at p2
    simp only [Bool.false_eq_true, if_false] at b2 p2
    subst b2 p2
    rcases e3 with ⟨g, _⟩ | ⟨_, g, _⟩ | ⟨_, _, _, g, _⟩
    · rw [e1, hall.symm] at g; simp [len] at g
    · obtain ⟨g1, g2⟩ := g rfl
      rcases hbad with h | h
      · exact absurd h (g1 (by omega))
      · exact absurd h g2
    · exact g

/-- C25, second half: with `'raise'`, when the declared digests match, nothing raises, however
far and in whatever way the record is read. -/
theorem C25_no_raise {V : σ → Bytes → Prop} (hV : Bounded V) (s : σ) (data : Bytes) (hs : V s data) (L : Nat)
    (rt ph bh sg : Option Str) (cs1 cs2 : List Call)
    (hc1 : ∀ c ∈ cs1, c.nonneg) (hc2 : ∀ c ∈ cs2, c.nonneg) (ps1 ps2 : List Bytes) (l1 l2 : LimitReader σ)
    (h1 : runCalls (LimitReader.mk' s L) cs1 = (ps1.map .ok, l1)) (h2 : runCalls l1 cs2 = (ps2.map .ok, l2)) (ob op : Option Bool)
    (hob : Outcome (data.take L) (lookedAt rt sg bh ph).1 ob)
    (hop : Outcome ((data.take L).drop ps1.flatten.length) (lookedAt rt sg bh ph).2 op)
    (hgood : ob ≠ some false ∧ op ≠ some false) :
    ∃ r r', (DigestReader.new s L { kind := .raise } rt ph bh sg).1 = .ok r ∧
      r.session cs1 cs2 = (ps1.map .ok, .ok (), ps2.map .ok, r') := by
  rw [lookedAt_eq] at hob hop
  obtain ⟨cb, b1, b2, b3⟩ := outcome_compare hob
  obtain ⟨cp, p1, p2, p3⟩ := outcome_compare hop
  rcases new_cases s L .raise rt ph bh sg with ⟨_, h, _⟩ | ⟨hk, c, hn, hck, hcp⟩
  · rcases h with h | h
    · rw [h] at b2; exact absurd b2 hgood.1
    · rw [h] at p2; exact absurd p2 hgood.2
  · refine ⟨{ lim := LimitReader.mk' s L, checker := c, payloadDigest := effPayload rt ph sg, blockDigest := effBlock rt bh, payloadDigester := digOf (effPayload rt ph sg) [], blockDigester := digOf (effBlock rt bh) [] }, ?_⟩
    obtain ⟨u1, u2⟩ := hk rfl
    rw [u1] at b2
    rw [u2] at p2
    simp only [Bool.false_eq_true, if_false] at b2 p2
    subst b2 p2
    -- what has been read when the limit is reached is the whole block
    have hall : l2.limit = 0 → (ps1 ++ ps2).flatten = data.take L ∧ ps2.flatten = (data.take L).drop ps1.flatten.length := by
      intro h0
      obtain ⟨qs1, t1, m1, k1, k2, k3, k4, k5, _⟩ := LimitReader.calls_spec hV cs1 (r := LimitReader.mk' s L) hs (by simp [LimitReader.mk']) hc1
      rw [h1] at k1
      simp only [Prod.mk.injEq] at k1
      obtain ⟨k1, rfl⟩ := k1
      obtain rfl := map_ok_inj k1
      obtain ⟨qs2, t2, m2, n1, n2, n3, n4, n5, _⟩ := LimitReader.calls_spec hV cs2 k3 k5 hc2
      rw [h2] at n1
      simp only [Prod.mk.injEq] at n1
      obtain ⟨n1, rfl⟩ := n1
      obtain rfl := map_ok_inj n1
      have hlen : (ps1 ++ ps2).flatten.length = L := by
        simp only [LimitReader.mk', len] at k4 n4
        rw [List.flatten_append, List.length_append]; omega
      have hd : data = (ps1 ++ ps2).flatten ++ t2 := by rw [k2, n2]; simp
      have ht : data.take L = (ps1 ++ ps2).flatten := by rw [hd, List.take_left' hlen]
      refine ⟨ht.symm, ?_⟩
      rw [ht, List.flatten_append, List.drop_left]
    obtain ⟨e1, e2, _, e3⟩ := session_spec (r := { lim := LimitReader.mk' s L, checker := c, payloadDigest := effPayload rt ph sg, blockDigest := effBlock rt bh, payloadDigester := digOf (effPayload rt ph sg) [], blockDigester := digOf (effBlock rt bh) [] })
      hV hs L cs1 cs2 hc1 hc2 rfl hck rfl rfl rfl rfl rfl hcp h1 h2 (fun h => by rw [(hall h).1]; exact b1) (fun h => by rw [(hall h).2]; exact p1)
    rcases e3 with ⟨_, r', g, _⟩ | ⟨_, _, r', g, _⟩ | ⟨_, _, g, _⟩
    · exact ⟨r', hn, g⟩
    · exact ⟨r', hn, g⟩
    · rcases g with ⟨_, g⟩ | g
      · exact absurd g hgood.1
      · exact absurd g hgood.2

end

open Toy in
/-- The hypotheses of C25 are met by a wrong payload digest, which raises at the last call. -/
example : ((DigestReader.new ({ content := [1, 2, 10, 5] } : FileObj) 3 { kind := .raise } none
      (some (lit "sha1:020a0a0a0a0a0a0a0a0a0a0a0a0a0a0a0a0a0a0a")) (some (lit "sha1:030d0d0d0d0d0d0d0d0d0d0d0d0d0d0d0d0d0d0d")) none).1.map
    (fun r => ((r.session [.read (some 2)] [.readline none]).1, (r.session [.read (some 2)] [.readline none]).2.2.1))) =
      .ok ([.ok [1, 2]], [.error .digestFailed]) := by decide +kernel

open Toy in
/-- C24 at work: a revisit record with nonsense digests. -/
example : ((DigestReader.new ({ content := [1, 2] } : FileObj) 2 { kind := .raise } (some (lit "revisit"))
      (some (lit "nonsense")) (some (lit "sha1:A")) none).1.map (fun r => ((r.runOps [.call (.read none), .beginPayload]).1,
      (r.runOps [.call (.read none), .beginPayload]).2.checker.passed))) = .ok ([.ok [1, 2]], none) := by decide +kernel

open Toy in
/-- C23 at work: the block digest of what is there matches, but a byte is missing. -/
example : ((DigestReader.new ({ content := [1, 2] } : FileObj) 3 { kind := .log } none none
      (some (lit "sha1:0203030303030303030303030303030303030303")) none).1.map
      (fun r => (r.runOps [.call (.read none), .beginPayload, .call (.read none)]).2.checker.passed)) = .ok none := by decide +kernel

end Warcio.Props
