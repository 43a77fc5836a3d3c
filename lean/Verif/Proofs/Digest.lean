import Verif.Model.Digest
import Verif.Spec.Digest
import Verif.Proofs.Base64
import Verif.Proofs.Strings
import Verif.Proofs.LimitReader

/-! # Proofs about digest comparison and `DigestVerifyingReader` -/

namespace Warcio

open Rfc4648

set_option linter.unusedSectionVars false

/-! ## Comparing -/

theorem base32_length (d : Bytes) : (base32 d).length = 8 * ((d.length + 4) / 5) := by
  rw [← b32encode_eq, b32encode_length]

theorem base64_length (d : Bytes) : (base64 d).length = 4 * ((d.length + 2) / 3) := by
  rw [base64_eq, b64With_length]

theorem base64url_length (d : Bytes) : (base64url d).length = 4 * ((d.length + 2) / 3) := by
  rw [base64url_eq, b64With_length]

/-- An encoding of a digest of the expected length is turned into its base32 form. -/
theorem toB32_encodes {v : Str} {x d : Bytes} (h : Encodes v x) (hl : x.length = d.length) :
    toB32 (base32 d).length v = .ok (base32 x) := by
  unfold toB32
  rw [base32_length]
  cases h with
  | b32 => rw [if_pos (by rw [base32_length, hl])]
  | b16 v x h1 h2 =>
    have hv : v.length = 2 * x.length := by
      have := congrArg List.length h2
      rwa [List.length_map, base16_length] at this
    rw [if_neg (by omega), if_pos (by omega), (b16decode_iff v x).2 h2]
    simp only [b32encode_eq]
  | b64 x h1 =>
    rw [if_neg (by rw [base64_length]; omega), if_neg (by rw [base64_length]; omega), b64Wrapper_base64]
    simp only [b32encode_eq]
  | b64url x h1 =>
    rw [if_neg (by rw [base64url_length]; omega), if_neg (by rw [base64url_length]; omega), b64Wrapper_base64url]
    simp only [b32encode_eq]

theorem base32_inj {x d : Bytes} (h : base32 x = base32 d) : x = d := by
  rw [← b32encode_eq, ← b32encode_eq] at h
  exact b32encode_inj _ _ h

section
variable [Hashlib]

theorem parseDigest_append {algo v : Str} (h : ':' ∉ algo) : parseDigest (algo ++ ':' :: v) = .ok (algo, v) := by
  simp only [parseDigest, split1_append h]

theorem parseDigest_noColon {h : Str} (hc : ':' ∉ h) : parseDigest h = .error .valueError := by
  simp only [parseDigest, split1_none hc]

/-- Comparing a digest header with the digest of the data. -/
theorem compareDigest_eq {algo v : Str} {data : Bytes} {f : Bytes → Bytes} (ha : ':' ∉ algo) (hf : Hashlib.hash algo = some f)
    {algo' : Str} (ha' : ':' ∉ algo') :
    compareDigest (some { algo := algo, data := data }) (some (algo' ++ ':' :: v)) =
      (toB32 (base32 (f data)).length v).map (fun w => some (base32 (f data) == w)) := by
  have he : (algo' ++ ':' :: v).isEmpty = false := by cases algo' <;> rfl
  simp only [compareDigest, he, Digester.str, Digester.value, hf, b32encode_eq, parseDigest_append ha, parseDigest_append ha']
  cases toB32 (base32 (f data)).length v <;> rfl

/-- The digester a header gets, holding `data`. -/
def digOf (h : Option Str) (data : Bytes) : Option Digester :=
  match h with
  | none => none
  | some h =>
    match split1 ':' h with
    | (algo, some _) => (Hashlib.hash algo).map (fun _ => { algo := algo, data := data })
    | (_, none) => none

/-- The header names no algorithm that is known. -/
def unknownAlgo (h : Option Str) : Bool :=
  match h with
  | none => false
  | some h => !h.isEmpty && (digOf (some h) []).isNone

theorem digOf_update (h : Option Str) (data b : Bytes) : (digOf h data).map (·.update b) = digOf h (data ++ b) := by
  unfold digOf
  cases h with
  | none => rfl
  | some h =>
    simp only
    split
    · rename_i algo v hs
      cases Hashlib.hash algo <;> rfl
    · rfl

theorem digOf_isNone (h : Option Str) (data data' : Bytes) : (digOf h data).isNone = (digOf h data').isNone := by
  unfold digOf
  cases h with
  | none => rfl
  | some h =>
    simp only
    split
    · rename_i algo v hs
      cases Hashlib.hash algo <;> rfl
    · rfl

theorem outcome_compare {data : Bytes} {h : Option Str} {o : Option Bool} (ho : Outcome data h o) :
    ∃ c, compareDigest (digOf h data) h = .ok c ∧ o = (if unknownAlgo h then some false else c) ∧
      (unknownAlgo h = true → c = none) := by
  cases ho with
  | absent => exact ⟨none, rfl, rfl, fun _ => rfl⟩
  | empty => exact ⟨none, rfl, rfl, fun _ => rfl⟩
  | noColon h h1 h2 =>
    have : digOf (some h) data = none := by simp only [digOf, split1_none h2]
    refine ⟨none, by rw [this]; rfl, ?_, fun _ => rfl⟩
    have : digOf (some h) [] = none := by simp only [digOf, split1_none h2]
    cases h with
    | nil => exact absurd rfl h1
    | cons a t => simp [unknownAlgo, this]
  | unknown algo v h1 h2 =>
    have e : ∀ data, digOf (some (algo ++ ':' :: v)) data = none := by
      intro data; simp only [digOf, split1_append h1, h2, Option.map_none]
    refine ⟨none, by rw [e]; rfl, ?_, fun _ => rfl⟩
    have he : (algo ++ ':' :: v).isEmpty = false := by cases algo <;> rfl
    simp [unknownAlgo, e, he]
  | good algo v f h1 h2 h3 =>
    have e : ∀ data, digOf (some (algo ++ ':' :: v)) data = some { algo := algo, data := data } := by
      intro data; simp only [digOf, split1_append h1, h2, Option.map_some]
    have hu : unknownAlgo (some (algo ++ ':' :: v)) = false := by simp [unknownAlgo, e]
    refine ⟨some true, ?_, by rw [hu]; rfl, fun h => by rw [hu] at h; cases h⟩
    rw [e, compareDigest_eq h1 h2 h1, toB32_encodes h3 rfl]
    simp [Except.map]
  | bad algo v f x h1 h2 h3 h4 h5 =>
    have e : ∀ data, digOf (some (algo ++ ':' :: v)) data = some { algo := algo, data := data } := by
      intro data; simp only [digOf, split1_append h1, h2, Option.map_some]
    have hu : unknownAlgo (some (algo ++ ':' :: v)) = false := by simp [unknownAlgo, e]
    refine ⟨some false, ?_, by rw [hu]; rfl, fun h => by rw [hu] at h; cases h⟩
    rw [e, compareDigest_eq h1 h2 h1, toB32_encodes h3 h4]
    have : ¬ base32 (f data) = base32 x := fun h => h5 (base32_inj h).symm
    simp [Except.map, this]

/-! ## Verdicts -/

/-- How the outcome of a check changes `passed`. -/
def merge (p c : Option Bool) : Option Bool :=
  match c with
  | some false => some false
  | some true => if p = some false then p else some true
  | none => p

namespace DigestChecker

/-- A check either is taken into account or raises. -/
theorem verdict_cases (c : DigestChecker) (chk : Option Bool) (p : Problem) :
    ((c.kind = .raise ∧ chk = some false) ∧ (c.verdict chk p).1 = .error .digestFailed) ∨
    ((c.kind = .raise → chk ≠ some false) ∧ ∃ c', c.verdict chk p = (.ok (), c') ∧ c'.kind = c.kind ∧ c'.passed = merge c.passed chk) := by
  unfold verdict problem merge
  match chk with
  | none => exact .inr ⟨by simp, c, rfl, rfl, rfl⟩
  | some true =>
    refine .inr ⟨by simp, _, rfl, ?_, ?_⟩
    · split <;> rfl
    · simp only; split <;> simp_all
  | some false =>
    by_cases hk : c.kind = .raise
    · exact .inl ⟨⟨hk, rfl⟩, by simp [hk]⟩
    · exact .inr ⟨fun h => absurd h hk, { c with problems := c.problems ++ [p], passed := some false }, by simp [hk], rfl, rfl⟩

/-- Whatever happens, the kind stays and a pass comes only from a check that succeeded. -/
theorem verdict_state (c : DigestChecker) (chk : Option Bool) (p : Problem) :
    (c.verdict chk p).2.kind = c.kind ∧
    ((c.verdict chk p).2.passed = some true → c.passed = some true ∨ chk = some true) ∧
    (chk = none → (c.verdict chk p).2 = c) := by
  unfold verdict problem
  match chk with
  | none => exact ⟨rfl, .inl, fun _ => rfl⟩
  | some true =>
    refine ⟨?_, fun _ => .inr rfl, fun h => by cases h⟩
    simp only; split <;> rfl
  | some false =>
    refine ⟨?_, ?_, fun h => by cases h⟩ <;> simp only <;> split
    · rfl
    · rfl
    · exact .inl
    · intro h; cases h

end DigestChecker

namespace DigestReader

variable {σ : Type}

/-- The digests that are checked at all. -/
def effBlock (recType block : Option Str) : Option Str := if recType = some (lit "revisit") then none else block

/-- The digests that are checked at all. -/
def effPayload (recType payload segment : Option Str) : Option Str :=
  if segment.isSome then none else if recType = some (lit "revisit") then none else payload

theorem makeDigester_cases (c : DigestChecker) (h : Option Str) (p : Problem) :
    (unknownAlgo h = false ∧ makeDigester c h p = (.ok (digOf h []), c)) ∨
    (unknownAlgo h = true ∧ c.kind = .raise ∧ (makeDigester c h p).1 = .error .digestFailed) ∨
    (unknownAlgo h = true ∧ c.kind ≠ .raise ∧ ∃ c', makeDigester c h p = (.ok (digOf h []), c') ∧ c'.kind = c.kind ∧ c'.passed = some false) := by
  cases h with
  | none => exact .inl ⟨rfl, rfl⟩
  | some h =>
    by_cases he : h = []
    · subst he; exact .inl ⟨rfl, rfl⟩
    · have he' : h.isEmpty = false := by cases h with | nil => exact absurd rfl he | cons _ _ => rfl
      simp only [unknownAlgo, makeDigester, parseDigest, digOf, he', Digester.new]
      cases hs : split1 ':' h with
      | mk algo rest =>
        cases rest with
        | none =>
          right
          by_cases hk : c.kind = .raise
          · left; simp [DigestChecker.problem, hk]
          · right; simp [DigestChecker.problem, hk]
        | some v =>
          cases hh : Hashlib.hash algo with
          | none =>
            right
            by_cases hk : c.kind = .raise
            · left; simp [DigestChecker.problem, hk, hh]
            · right; simp [DigestChecker.problem, hk, hh]
          | some f => left; simp [hh]

/-- Making a verifying reader. -/
theorem new_cases (s : σ) (L : Int) (k : CheckKind) (rt ph bh sg : Option Str) :
    (k = .raise ∧ (unknownAlgo (effBlock rt bh) = true ∨ unknownAlgo (effPayload rt ph sg) = true) ∧
      (new s L { kind := k } rt ph bh sg).1 = .error .digestFailed) ∨
    ((k = .raise → unknownAlgo (effBlock rt bh) = false ∧ unknownAlgo (effPayload rt ph sg) = false) ∧
      ∃ c, (new s L { kind := k } rt ph bh sg).1 = .ok { lim := LimitReader.mk' s L, checker := c, payloadDigest := effPayload rt ph sg, blockDigest := effBlock rt bh, payloadDigester := digOf (effPayload rt ph sg) [], blockDigester := digOf (effBlock rt bh) [] } ∧
        c.kind = k ∧ c.passed = (if unknownAlgo (effBlock rt bh) || unknownAlgo (effPayload rt ph sg) then some false else none)) := by
  have e : new s L { kind := k } rt ph bh sg =
      match makeDigester { kind := k } (effBlock rt bh) .unknownBlockAlgo with
      | (.error e, c) => (.error e, c)
      | (.ok bd, c) =>
        match makeDigester c (effPayload rt ph sg) .unknownPayloadAlgo with
        | (.error e, c) => (.error e, c)
        | (.ok pd, c) =>
          (.ok { lim := LimitReader.mk' s L, checker := c, payloadDigest := effPayload rt ph sg, blockDigest := effBlock rt bh,
                 payloadDigester := pd, blockDigester := bd }, c) := rfl
  rw [e]
  rcases makeDigester_cases { kind := k } (effBlock rt bh) .unknownBlockAlgo with ⟨h1, h2⟩ | ⟨h1, h2, h3⟩ | ⟨h1, h2, c1, h3, h4, h5⟩
  · rw [h2]
    simp only
    rcases makeDigester_cases { kind := k } (effPayload rt ph sg) .unknownPayloadAlgo with ⟨g1, g2⟩ | ⟨g1, g2, g3⟩ | ⟨g1, g2, c2, g3, g4, g5⟩
    · right
      rw [g2]
      exact ⟨fun _ => ⟨h1, g1⟩, _, rfl, rfl, by simp [h1, g1]⟩
    · left
      refine ⟨g2, .inr g1, ?_⟩
      cases hm : makeDigester { kind := k } (effPayload rt ph sg) .unknownPayloadAlgo with
      | mk a b => rw [hm] at g3; simp only at g3; subst g3; rfl
    · right
      rw [g3]
      exact ⟨fun h => absurd h g2, _, rfl, g4, by simp [g1, g5]⟩
  · left
    refine ⟨h2, .inl h1, ?_⟩
    cases hm : makeDigester { kind := k } (effBlock rt bh) .unknownBlockAlgo with
    | mk a b => rw [hm] at h3; simp only at h3; subst h3; rfl
  · rw [h3]
    simp only
    simp only at h4
    rcases makeDigester_cases c1 (effPayload rt ph sg) .unknownPayloadAlgo with ⟨g1, g2⟩ | ⟨g1, g2, g3⟩ | ⟨g1, g2, c2, g3, g4, g5⟩
    · right
      rw [g2]
      exact ⟨fun h => absurd h h2, _, rfl, h4, by simp [h1, h5]⟩
    · exact absurd (h4.symm.trans g2) h2
    · right
      rw [g3]
      exact ⟨fun h => absurd h h2, _, rfl, g4.trans h4, by simp [h1, g5]⟩

/-! ## Reading -/

variable [PyStream σ]

/-- What a verifying reader does with the outcome of a call on the limited stream. -/
def afterCall (d : DigestReader σ) : Except PyErr Bytes × LimitReader σ → Except PyErr Bytes × DigestReader σ
  | (.ok b, l') => ({ d with lim := { l' with limit := d.lim.limit } } : DigestReader σ).update b
  | (.error e, l') => (.error e, { d with lim := l' })

theorem run_eq (c : Call) (d : DigestReader σ) :
    c.run d = if d.lim.clampLen c.arg = 0 then (.ok [], d) else d.afterCall (c.run d.lim) := by
  cases c with
  | read n =>
    simp only [Call.run, PyStream.read, Call.arg, read, LimitReader.read]
    split
    · rfl
    · cases hr : PyStream.read d.lim.stream (some (d.lim.clampLen n)) with
      | mk a s => cases a <;> rfl
  | readline n =>
    simp only [Call.run, PyStream.readline, Call.arg, readline, LimitReader.readline]
    split
    · rfl
    · cases hr : PyStream.readline d.lim.stream (some (d.lim.clampLen n)) with
      | mk a s => cases a <;> rfl

theorem lim_run_zero (c : Call) (l : LimitReader σ) (h : l.clampLen c.arg = 0) : c.run l = (.ok [], l) := by
  cases c <;> simp only [Call.arg] at h <;>
    simp [Call.run, PyStream.read, PyStream.readline, LimitReader.read, LimitReader.readline, h]

/-- The record is not yet read to its end: `b` of the block has been read, of it `p` since
`begin_payload`. -/
structure Open (k : CheckKind) (bh ph : Option Str) (q : Option Bool) (b p : Bytes) (on : Bool) (r : DigestReader σ) : Prop where
  kind : r.checker.kind = k
  blockDigest : r.blockDigest = bh
  payloadDigest : r.payloadDigest = ph
  blockDig : r.blockDigester = digOf bh b
  payDig : r.payloadDigester = digOf ph p
  payloadOn : r.payloadOn = on
  passed : r.checker.passed = q
  limit : 0 < r.lim.limit

/-- The record is read to its end. -/
structure Closed (k : CheckKind) (bh ph : Option Str) (q : Option Bool) (p : Bytes) (r : DigestReader σ) : Prop where
  kind : r.checker.kind = k
  blockDigest : r.blockDigest = bh
  payloadDigest : r.payloadDigest = ph
  payDig : r.payloadDigester = digOf ph p
  passed : r.checker.passed = q
  limit : r.lim.limit = 0

variable {k : CheckKind} {bh ph : Option Str} {q : Option Bool} {b p : Bytes} {on : Bool} {r : DigestReader σ}

theorem clamp_zero (l : LimitReader σ) (h : l.limit = 0) (c : Call) (hc : c.nonneg) : l.clampLen c.arg = 0 := by
  unfold LimitReader.clampLen
  cases h' : c.arg with
  | none => exact h
  | some n => have := hc n h'; simp only; omega

theorem closed_calls (hl : r.lim.limit = 0) : ∀ (cs : List Call), (∀ c ∈ cs, c.nonneg) →
    runCalls r cs = (cs.map (fun _ => .ok []), r) := by
  intro cs
  induction cs with
  | nil => intro _; rfl
  | cons c cs ih =>
    intro hc
    have h0 := clamp_zero r.lim hl c (hc c (by simp))
    have h1 : c.run r = (.ok [], r) := by rw [run_eq, if_pos h0]
    simp only [runCalls, h1, ih (fun c' hc' => hc c' (by simp [hc'])), List.map_cons]

theorem lim_closed_calls (l : LimitReader σ) (hl : l.limit = 0) : ∀ (cs : List Call), (∀ c ∈ cs, c.nonneg) →
    runCalls l cs = (cs.map (fun _ => .ok []), l) := by
  intro cs
  induction cs with
  | nil => intro _; rfl
  | cons c cs ih =>
    intro hc
    have h1 := lim_run_zero c l (clamp_zero l hl c (hc c (by simp)))
    simp only [runCalls, h1, ih (fun c' hc' => hc c' (by simp [hc'])), List.map_cons]

/-- The checks at the end of the record. -/
theorem finish_cases {cb cp : Option Bool} (hk : r.checker.kind = k) (hbd : r.blockDigest = bh) (hpd : r.payloadDigest = ph)
    (hp : r.payloadDigester = digOf ph p) (hq : r.checker.passed = q) (hl : r.lim.limit = 0)
    (h1 : compareDigest r.blockDigester bh = .ok cb)
    (h2 : compareDigest r.activePayload ph = .ok cp) :
    (∃ r', r.finish = (.ok (), r') ∧ r'.lim = r.lim ∧ Closed k bh ph (merge (merge q cb) cp) p r' ∧ (k = .raise → cb ≠ some false ∧ cp ≠ some false)) ∨
    (k = .raise ∧ (cb = some false ∨ cp = some false) ∧ ∃ r', r.finish = (.error .digestFailed, r') ∧ r'.lim = r.lim) := by
  unfold finish
  rw [hbd, h1]
  simp only
  rcases DigestChecker.verdict_cases r.checker cb (.blockFailed (bh.getD [])) with ⟨⟨g1, g2⟩, g3⟩ | ⟨g1, c1, g2, g3, g4⟩
  · right
    refine ⟨hk.symm.trans g1, .inl g2, ?_⟩
    cases hv : r.checker.verdict cb (.blockFailed (bh.getD [])) with
    | mk a c => rw [hv] at g3; simp only at g3; subst g3; exact ⟨_, rfl, rfl⟩
  · rw [g2]
    simp only [activePayload] at h2 ⊢
    rw [hpd, h2]
    simp only
    rcases DigestChecker.verdict_cases c1 cp (.payloadFailed (ph.getD [])) with ⟨⟨m1, m2⟩, m3⟩ | ⟨m1, c2, m2, m3, m4⟩
    · right
      refine ⟨hk.symm.trans (g3.symm.trans m1), .inr m2, ?_⟩
      cases hv : c1.verdict cp (.payloadFailed (ph.getD [])) with
      | mk a c => rw [hv] at m3; simp only at m3; subst m3; exact ⟨_, rfl, rfl⟩
    · left
      rw [m2]
      refine ⟨_, rfl, rfl, ⟨m3.trans (g3.trans hk), by first | rfl | exact hbd, by first | rfl | exact hpd, hp, by rw [m4, g4, hq], hl⟩, fun h => ⟨g1 (hk.trans h), m1 (g3.trans (hk.trans h))⟩⟩

/-- One call before the end of the record, given what the same call does on the limited
stream. -/
theorem open_call (ho : Open k bh ph q b p on r) {c : Call} {x : Bytes} {l' : LimitReader σ}
    (hrun : c.run r.lim = (.ok x, l')) (hl : l'.limit = r.lim.limit - len x) (h0 : 0 ≤ l'.limit) {cb cp : Option Bool}
    (hb : l'.limit = 0 → compareDigest (digOf bh (b ++ x)) bh = .ok cb)
    (hp : l'.limit = 0 → compareDigest (if on then digOf ph (p ++ x) else none) ph = .ok cp) :
    (0 < l'.limit ∧ ∃ r', c.run r = (.ok x, r') ∧ r'.lim = l' ∧ Open k bh ph q (b ++ x) (if on then p ++ x else p) on r') ∨
    (l'.limit = 0 ∧ (k = .raise → cb ≠ some false ∧ cp ≠ some false) ∧
      ∃ r', c.run r = (.ok x, r') ∧ r'.lim = l' ∧ Closed k bh ph (merge (merge q cb) cp) (if on then p ++ x else p) r') ∨
    (l'.limit = 0 ∧ k = .raise ∧ (cb = some false ∨ cp = some false) ∧ ∃ r', c.run r = (.error .digestFailed, r') ∧ r'.lim = l') := by
  by_cases hz : r.lim.clampLen c.arg = 0
  · have := lim_run_zero c r.lim hz
    rw [this] at hrun
    simp only [Prod.mk.injEq, Except.ok.injEq] at hrun
    obtain ⟨rfl, rfl⟩ := hrun
    left
    refine ⟨ho.limit, r, by rw [run_eq, if_pos hz], rfl, ?_⟩
    simpa using ho
  · rw [run_eq, if_neg hz, hrun]
    simp only [afterCall, update]
    have el : ({ stream := l'.stream, limit := r.lim.limit - len x, origLimit := l'.origLimit } : LimitReader σ) = l' := by rw [← hl]
    rw [el]
    have hpd : (if r.payloadOn = true then Option.map (fun x_1 => x_1.update x) r.payloadDigester else r.payloadDigester) =
        digOf ph (if on then p ++ x else p) := by
      rw [ho.payloadOn, ho.payDig, digOf_update]; cases on <;> rfl
    have hbd : Option.map (fun x_1 => x_1.update x) r.blockDigester = digOf bh (b ++ x) := by
      rw [ho.blockDig, digOf_update]
    rw [hpd, hbd]
    rw [← hl]
    by_cases hend : l'.limit = 0
    · right
      rw [if_pos hend]
      let r1 : DigestReader σ := { r with lim := l', payloadDigester := digOf ph (if on then p ++ x else p), blockDigester := digOf bh (b ++ x) }
      have ha : compareDigest r1.activePayload ph = .ok cp := by
        rw [← hp hend]
        simp only [activePayload, r1, ho.payloadOn]
        cases on <;> rfl
      rcases finish_cases (r := r1) (p := if on then p ++ x else p) ho.kind ho.blockDigest ho.payloadDigest rfl ho.passed hend (hb hend) ha with
        ⟨r', h1, h2, h3, h4⟩ | ⟨h1, h2, r', h3, h4⟩
      · left
        refine ⟨hend, h4, r', ?_, h2, h3⟩
        show (match r1.finish with | (.ok _, r) => _ | (.error e, r) => _) = _
        rw [h1]
      · right
        refine ⟨hend, h1, h2, r', ?_, h4⟩
        show (match r1.finish with | (.ok _, r) => _ | (.error e, r) => _) = _
        rw [h3]
    · left
      rw [if_neg hend]
      exact ⟨by omega, _, rfl, rfl, ⟨ho.kind, ho.blockDigest, ho.payloadDigest, rfl, rfl, ho.payloadOn, ho.passed, by show 0 < l'.limit; omega⟩⟩

/-- A history of calls before the end of the record. -/
theorem open_calls {V : σ → Bytes → Prop} (hV : Bounded V) : ∀ (cs : List Call) {r : DigestReader σ} {b p srem : Bytes},
    Open k bh ph q b p on r → V r.lim.stream srem → (∀ c ∈ cs, c.nonneg) →
    ∃ (ps : List Bytes) (l' : LimitReader σ), runCalls r.lim cs = (ps.map .ok, l') ∧ 0 ≤ l'.limit ∧ l'.limit = r.lim.limit - len ps.flatten ∧
      (∃ srem', V l'.stream srem' ∧ srem = ps.flatten ++ srem') ∧
      ∀ (cb cp : Option Bool), (l'.limit = 0 → compareDigest (digOf bh (b ++ ps.flatten)) bh = .ok cb) →
        (l'.limit = 0 → compareDigest (if on then digOf ph (p ++ ps.flatten) else none) ph = .ok cp) →
        (0 < l'.limit ∧ ∃ r', runCalls r cs = (ps.map .ok, r') ∧ r'.lim = l' ∧
          Open k bh ph q (b ++ ps.flatten) (if on then p ++ ps.flatten else p) on r') ∨
        (l'.limit = 0 ∧ (k = .raise → cb ≠ some false ∧ cp ≠ some false) ∧ ∃ r', runCalls r cs = (ps.map .ok, r') ∧ r'.lim = l' ∧
          Closed k bh ph (merge (merge q cb) cp) (if on then p ++ ps.flatten else p) r') ∨
        (l'.limit = 0 ∧ k = .raise ∧ (cb = some false ∨ cp = some false) ∧
          .error .digestFailed ∈ (runCalls r cs).1 ∧ (runCalls r cs).2.lim = l') := by
  intro cs
  induction cs with
  | nil =>
    intro r b p srem ho hs _
    refine ⟨[], r.lim, rfl, Int.le_of_lt ho.limit, by simp [len], ⟨srem, hs, rfl⟩, ?_⟩
    intro cb cp _ _
    left
    refine ⟨ho.limit, r, rfl, rfl, ?_⟩
    simpa using ho
  | cons c cs ih =>
    intro r b p srem ho hs hc
    obtain ⟨x, srem1, l1, h1, h2, h3, h4, h5, _⟩ := LimitReader.call_spec hV hs (Int.le_of_lt ho.limit) (hc c (by simp))
    have hc' : ∀ c' ∈ cs, c'.nonneg := fun c' hc' => hc c' (by simp [hc'])
    by_cases hend : l1.limit = 0
    · have hlc := lim_closed_calls l1 hend cs hc'
      have hmap : cs.map (fun _ => Except.ok (ε := PyErr) ([] : Bytes)) = (cs.map (fun _ => ([] : Bytes))).map .ok := by simp
      have hflat : (x :: cs.map (fun _ => ([] : Bytes))).flatten = x := by
        simp only [List.flatten_cons]
        have : (cs.map (fun _ => ([] : Bytes))).flatten = [] := by
          rw [List.flatten_eq_nil_iff]; simp
        rw [this, List.append_nil]
      refine ⟨x :: cs.map (fun _ => []), l1, ?_, h5, by rw [hflat]; exact h4, ⟨srem1, h3, by rw [hflat]; exact h2⟩, ?_⟩
      · simp only [runCalls, h1, hlc, List.map_cons, hmap]
      · rw [hflat]
        intro cb cp hb hp
        rcases open_call ho h1 h4 h5 hb hp with ⟨g, _⟩ | ⟨g1, g2, r', g3, g4, g5⟩ | ⟨g1, g2, g3, r', g4, g5⟩
        · omega
        · right; left
          refine ⟨g1, g2, r', ?_, g4, g5⟩
          simp only [runCalls, g3, closed_calls g5.limit cs hc', List.map_cons, hmap]
        · right; right
          refine ⟨g1, g2, g3, ?_, ?_⟩
          · simp only [runCalls, g4]; simp
          · simp only [runCalls, g4]
            rw [closed_calls (by rw [g5]; exact g1) cs hc']
            exact g5
    · have hpos : 0 < l1.limit := by omega
      rcases open_call (cb := none) (cp := none) ho h1 h4 h5 (fun h => absurd h hend) (fun h => absurd h hend) with ⟨_, r1, g1, g2, g3⟩ | ⟨g, _⟩ | ⟨g, _⟩
      · have hs1 : V r1.lim.stream srem1 := by rw [g2]; exact h3
        obtain ⟨ps, l', m1, m2, m3, ⟨srem', m4, m5⟩, m6⟩ := ih g3 hs1 hc'
        rw [g2] at m1 m3
        refine ⟨x :: ps, l', ?_, m2, ?_, ⟨srem', m4, by rw [h2, m5]; simp⟩, ?_⟩
        · simp only [runCalls, h1, m1, List.map_cons]
        · rw [m3, h4]; simp [len]; omega
        · intro cb cp hb hp
          have e1 : b ++ (x :: ps).flatten = b ++ x ++ ps.flatten := by simp
          have e2 : (if on then (if on then p ++ x else p) ++ ps.flatten else (if on then p ++ x else p)) =
              (if on then p ++ (x :: ps).flatten else p) := by cases on <;> simp
          have e3 : (if on then digOf ph ((if on then p ++ x else p) ++ ps.flatten) else none) =
              (if on then digOf ph (p ++ (x :: ps).flatten) else none) := by cases on <;> simp
          rw [e1] at hb ⊢
          have m7 := m6 cb cp hb (by rw [e3]; exact hp)
          rw [e2] at m7
          rcases m7 with ⟨n1, r', n2, n3, n4⟩ | ⟨n1, n2, r', n3, n4, n5⟩ | ⟨n1, n2, n3, n4, n5⟩
          · left
            exact ⟨n1, r', by simp only [runCalls, g1, n2, List.map_cons], n3, n4⟩
          · right; left
            exact ⟨n1, n2, r', by simp only [runCalls, g1, n3, List.map_cons], n4, n5⟩
          · right; right
            refine ⟨n1, n2, n3, ?_, ?_⟩
            · simp only [runCalls, g1]; exact List.mem_cons_of_mem _ n4
            · simp only [runCalls, g1]; exact n5
      · exact absurd g hend
      · exact absurd g hend

theorem open_begin (ho : Open k bh ph q b [] false r) :
    ∃ r', r.beginPayload = (.ok (), r') ∧ r'.lim = r.lim ∧ Open k bh ph q b [] true r' := by
  refine ⟨{ r with payloadOn := true }, ?_, rfl, ⟨ho.kind, ho.blockDigest, ho.payloadDigest, ho.blockDig, ho.payDig, rfl, ho.passed, ho.limit⟩⟩
  have : ¬ r.lim.limit = 0 := by have := ho.limit; omega
  simp only [beginPayload, this, if_false]

theorem closed_begin (hc : Closed k bh ph q [] r) {cp : Option Bool} (hp : compareDigest (digOf ph []) ph = .ok cp) :
    ((k = .raise → cp ≠ some false) ∧ ∃ r', r.beginPayload = (.ok (), r') ∧ r'.lim = r.lim ∧ r'.checker.passed = merge q cp) ∨
    (k = .raise ∧ cp = some false ∧ ∃ r', r.beginPayload = (.error .digestFailed, r') ∧ r'.lim = r.lim) := by
  unfold beginPayload
  simp only [hc.limit, if_true, activePayload]
  rw [hc.payDig, hc.payloadDigest, hp]
  simp only
  rcases DigestChecker.verdict_cases r.checker cp (.payloadFailed (ph.getD [])) with ⟨⟨g1, g2⟩, g3⟩ | ⟨g1, c1, g2, g3, g4⟩
  · right
    refine ⟨hc.kind.symm.trans g1, g2, ?_⟩
    cases hv : r.checker.verdict cp (.payloadFailed (ph.getD [])) with
    | mk a c => rw [hv] at g3; simp only at g3; subst g3; exact ⟨_, rfl, rfl⟩
  · left
    rw [g2]
    exact ⟨fun h => g1 (hc.kind.trans h), _, rfl, rfl, by rw [← hc.passed]; exact g4⟩

theorem begin_lim (r : DigestReader σ) : r.beginPayload.2.lim = r.lim := by
  unfold beginPayload
  simp only
  split
  · split
    · rfl
    · split <;> rfl
  · rfl

/-! ## A session: calls, `begin_payload`, calls -/

/-- Calls, then `begin_payload`, then calls. -/
def session (r : DigestReader σ) (cs1 cs2 : List Call) :
    List (Except PyErr Bytes) × Except PyErr Unit × List (Except PyErr Bytes) × DigestReader σ :=
  let (res1, r) := runCalls r cs1
  let (res, r) := r.beginPayload
  let (res2, r) := runCalls r cs2
  (res1, res, res2, r)

theorem flatten_nils (cs : List Call) : (cs.map (fun _ => ([] : Bytes))).flatten = [] := by
  rw [List.flatten_eq_nil_iff]; simp

theorem map_ok_inj {ps ps' : List Bytes} (h : ps.map (Except.ok (ε := PyErr)) = ps'.map .ok) : ps = ps' := by
  induction ps generalizing ps' with
  | nil => cases ps' with | nil => rfl | cons _ _ => cases h
  | cons a t ih =>
    cases ps' with
    | nil => cases h
    | cons b u =>
      simp only [List.map_cons, List.cons.injEq, Except.ok.injEq] at h
      rw [h.1, ih h.2]

theorem merge_none (q : Option Bool) : merge q none = q := rfl

theorem session_spec {V : σ → Bytes → Prop} (hV : Bounded V) {s : σ} {data : Bytes} (hs : V s data) (L : Nat)
    (cs1 cs2 : List Call) (hc1 : ∀ c ∈ cs1, c.nonneg) (hc2 : ∀ c ∈ cs2, c.nonneg) (hlim : r.lim = LimitReader.mk' s L)
    (hk : r.checker.kind = k) (hbd : r.blockDigest = bh) (hpd : r.payloadDigest = ph) (hb0 : r.blockDigester = digOf bh [])
    (hp0 : r.payloadDigester = digOf ph []) (hon : r.payloadOn = false) (hq : r.checker.passed = q)
    {ps1 ps2 : List Bytes} {l1 l2 : LimitReader σ} (h1 : runCalls (LimitReader.mk' s L) cs1 = (ps1.map .ok, l1))
    (h2 : runCalls l1 cs2 = (ps2.map .ok, l2)) {cb cp : Option Bool}
    (hcb : l2.limit = 0 → compareDigest (digOf bh (ps1 ++ ps2).flatten) bh = .ok cb)
    (hcp : l2.limit = 0 → compareDigest (digOf ph ps2.flatten) ph = .ok cp) :
    l2.limit = (L : Int) - len (ps1 ++ ps2).flatten ∧ 0 ≤ l2.limit ∧ (∃ t, data = (ps1 ++ ps2).flatten ++ t) ∧
    ((0 < l2.limit ∧ ∃ r', r.session cs1 cs2 = (ps1.map .ok, .ok (), ps2.map .ok, r') ∧ r'.lim = l2 ∧ r'.checker.passed = q) ∨
     (l2.limit = 0 ∧ (k = .raise → (L ≠ 0 → cb ≠ some false) ∧ cp ≠ some false) ∧
       ∃ r', r.session cs1 cs2 = (ps1.map .ok, .ok (), ps2.map .ok, r') ∧ r'.lim = l2 ∧
        r'.checker.passed = merge (if L = 0 then q else merge q cb) cp) ∨
     (l2.limit = 0 ∧ k = .raise ∧ ((L ≠ 0 ∧ cb = some false) ∨ cp = some false) ∧
       (.error .digestFailed ∈ (r.session cs1 cs2).1 ∨ (r.session cs1 cs2).2.1 = .error .digestFailed ∨
        .error .digestFailed ∈ (r.session cs1 cs2).2.2.1) ∧ (r.session cs1 cs2).2.2.2.lim = l2)) := by
  by_cases hL : L = 0
  · -- nothing to read
    subst hL
    have hl0 : (LimitReader.mk' s ((0 : Nat) : Int)).limit = 0 := rfl
    have e1 := lim_closed_calls _ hl0 cs1 hc1
    rw [h1] at e1
    simp only [Prod.mk.injEq] at e1
    have hps1 : ps1 = cs1.map (fun _ => []) := map_ok_inj (by rw [e1.1]; simp)
    obtain ⟨_, rfl⟩ := e1
    have e2 := lim_closed_calls _ hl0 cs2 hc2
    rw [h2] at e2
    simp only [Prod.mk.injEq] at e2
    have hps2 : ps2 = cs2.map (fun _ => []) := map_ok_inj (by rw [e2.1]; simp)
    obtain ⟨_, rfl⟩ := e2
    have f2 : ps2.flatten = [] := by rw [hps2, flatten_nils]
    have f1 : (ps1 ++ ps2).flatten = [] := by rw [List.flatten_append, f2, hps1, flatten_nils]; rfl
    rw [f1]
    refine ⟨by simp [LimitReader.mk', len], by simp [LimitReader.mk'], ⟨data, rfl⟩, ?_⟩
    have hcl : Closed k bh ph q [] r := ⟨hk, hbd, hpd, hp0, hq, by rw [hlim]; rfl⟩
    have hcp' := hcp rfl
    rw [f2] at hcp'
    have hrc1 : runCalls r cs1 = (ps1.map .ok, r) := by rw [closed_calls hcl.limit cs1 hc1, hps1]; simp
    rcases closed_begin hcl hcp' with ⟨g1, r', g2, g3, g4⟩ | ⟨g1, g2, r', g3, g4⟩
    · right; left
      refine ⟨rfl, fun h => ⟨fun h0 => absurd rfl h0, g1 h⟩, r', ?_, by rw [g3, hlim], g4⟩
      have : runCalls r' cs2 = (ps2.map .ok, r') := by rw [closed_calls (by rw [g3]; exact hcl.limit) cs2 hc2, hps2]; simp
      simp only [session, hrc1, g2, this]
    · right; right
      refine ⟨rfl, g1, .inr g2, .inr (.inl ?_), ?_⟩
      · simp only [session, hrc1, g3]
      · simp only [session, hrc1, g3]
        rw [closed_calls (by rw [g4]; exact hcl.limit) cs2 hc2, g4, hlim]
  · have hopen : Open k bh ph q [] [] false r := ⟨hk, hbd, hpd, hb0, hp0, hon, hq, by rw [hlim]; simp only [LimitReader.mk']; omega⟩
    have hs' : V r.lim.stream data := by rw [hlim]; exact hs
    obtain ⟨ps1', l1', m1, m2, m3, ⟨srem1, m4, m5⟩, m6⟩ := open_calls hV cs1 hopen hs' hc1
    rw [hlim, h1] at m1
    simp only [Prod.mk.injEq] at m1
    obtain ⟨m1, rfl⟩ := m1
    obtain rfl := map_ok_inj m1
    have hlL : r.lim.limit = L := by rw [hlim]; rfl
    rw [hlL] at m3
    by_cases hend : l1.limit = 0
    · -- the block ends before the payload begins
      have e2 := lim_closed_calls _ hend cs2 hc2
      rw [h2] at e2
      simp only [Prod.mk.injEq] at e2
      have hps2 : ps2 = cs2.map (fun _ => []) := map_ok_inj (by rw [e2.1]; simp)
      obtain ⟨_, rfl⟩ := e2
      have f2 : ps2.flatten = [] := by rw [hps2, flatten_nils]
      have f1 : (ps1 ++ ps2).flatten = ps1.flatten := by rw [List.flatten_append, f2, List.append_nil]
      rw [f1] at hcb ⊢
      refine ⟨m3, m2, ⟨srem1, m5⟩, ?_⟩
      have hcp' := hcp hend
      rw [f2] at hcp'
      rcases m6 cb none (fun h => by simpa using hcb h) (fun _ => rfl) with ⟨n1, _⟩ | ⟨_, n2, r1, n3, n4, n5⟩ | ⟨_, n2, n3, n4, n5⟩
      · omega
      · have n6 : Closed k bh ph (merge q cb) [] r1 := by simpa [merge_none] using n5
        rcases closed_begin n6 hcp' with ⟨g1, r', g2, g3, g4⟩ | ⟨g1, g2, r', g3, g4⟩
        · right; left
          refine ⟨hend, fun h => ⟨fun _ => (n2 h).1, g1 h⟩, r', ?_, by rw [g3, n4], by rw [if_neg hL]; exact g4⟩
          have : runCalls r' cs2 = (ps2.map .ok, r') := by rw [closed_calls (by rw [g3]; exact n6.limit) cs2 hc2, hps2]; simp
          simp only [session, n3, g2, this]
        · right; right
          refine ⟨hend, g1, .inr g2, .inr (.inl ?_), ?_⟩
          · simp only [session, n3, g3]
          · simp only [session, n3, g3]
            rw [closed_calls (by rw [g4]; exact n6.limit) cs2 hc2, g4, n4]
      · right; right
        have hcb' : cb = some false := by
          rcases n3 with h | h
          · exact h
          · cases h
        refine ⟨hend, n2, .inl ⟨hL, hcb'⟩, .inl ?_, ?_⟩
        · simp only [session]; exact n4
        · simp only [session]
          rw [closed_calls (by rw [begin_lim, n5]; exact hend) cs2 hc2]
          rw [begin_lim, n5]
    · rcases m6 none none (fun h => absurd h hend) (fun h => absurd h hend) with ⟨_, r1, n1, n2, n3⟩ | ⟨g, _⟩ | ⟨g, _⟩
      · have n4 : Open k bh ph q ps1.flatten [] false r1 := by simpa using n3
        obtain ⟨r2, g1, g2, g3⟩ := open_begin n4
        have hs2 : V r2.lim.stream srem1 := by rw [g2, n2]; exact m4
        obtain ⟨ps2', l2', x1, x2, x3, ⟨srem2, x4, x5⟩, x6⟩ := open_calls hV cs2 g3 hs2 hc2
        rw [g2, n2, h2] at x1
        simp only [Prod.mk.injEq] at x1
        obtain ⟨x1, rfl⟩ := x1
        obtain rfl := map_ok_inj x1
        rw [g2, n2, m3] at x3
        refine ⟨by rw [x3]; simp [len]; omega, x2, ⟨srem2, by rw [m5, x5]; simp⟩, ?_⟩
        rcases x6 cb cp (fun h => by simpa using hcb h) (fun h => by simpa using hcp h) with ⟨y1, r', y2, y3, y4⟩ | ⟨y1, y2, r', y3, y4, y5⟩ | ⟨y1, y2, y3, y4, y5⟩
        · left
          exact ⟨y1, r', by simp only [session, n1, g1, y2], y3, y4.passed⟩
        · right; left
          exact ⟨y1, fun h => ⟨fun _ => (y2 h).1, (y2 h).2⟩, r', by simp only [session, n1, g1, y3], y4, by rw [if_neg hL]; exact y5.passed⟩
        · right; right
          refine ⟨y1, y2, ?_, .inr (.inr ?_), ?_⟩
          · rcases y3 with h | h
            · exact .inl ⟨hL, h⟩
            · exact .inr h
          · simp only [session, n1, g1]; exact y4
          · simp only [session, n1, g1]; exact y5
      · exact absurd g hend
      · exact absurd g hend

theorem overall_merge {ub up : Bool} {cb cp : Option Bool} (h1 : ub = true → cb = none) (h2 : up = true → cp = none) :
    merge (merge (if ub || up then some false else none) cb) cp =
      overall (if ub then some false else cb) (if up then some false else cp) := by
  cases ub <;> cases up
  · rcases cb with _ | _ | _ <;> rcases cp with _ | _ | _ <;> simp [merge, overall]
  · rw [h2 rfl]; rcases cb with _ | _ | _ <;> simp [merge, overall]
  · rw [h1 rfl]; rcases cp with _ | _ | _ <;> simp [merge, overall]
  · rw [h1 rfl, h2 rfl]; simp [merge, overall]

/-! ## Any mixture of calls and `begin_payload` -/

/-- A call on the reader, or `begin_payload`. -/
inductive VOp
  | call (c : Call)
  | beginPayload
  deriving DecidableEq, Repr

/-- Run the operations on a verifying reader; the results of the calls. -/
def runOps : DigestReader σ → List VOp → List (Except PyErr Bytes) × DigestReader σ
  | r, [] => ([], r)
  | r, .call c :: t =>
    let (a, r) := c.run r
    let (as, r) := runOps r t
    (a :: as, r)
  | r, .beginPayload :: t => runOps r.beginPayload.2 t

/-- The calls among the operations. -/
def callsOf : List VOp → List Call
  | [] => []
  | .call c :: t => c :: callsOf t
  | .beginPayload :: t => callsOf t

/-- A reader none of whose checks can raise. -/
structure Tame (r : DigestReader σ) : Prop where
  kind : r.checker.kind ≠ .raise
  block : ∀ b, ∃ c, compareDigest (digOf r.blockDigest b) r.blockDigest = .ok c
  payload : ∀ b, ∃ c, compareDigest (digOf r.payloadDigest b) r.payloadDigest = .ok c
  blockDig : ∃ b, r.blockDigester = digOf r.blockDigest b
  payDig : ∃ b, r.payloadDigester = digOf r.payloadDigest b

theorem Tame.active {r : DigestReader σ} (h : Tame r) : ∃ c, compareDigest r.activePayload r.payloadDigest = .ok c := by
  unfold activePayload
  split
  · obtain ⟨b, hb⟩ := h.payDig
    rw [hb]; exact h.payload b
  · exact ⟨none, rfl⟩

theorem tame_begin {r : DigestReader σ} (h : Tame r) : r.beginPayload.2.lim = r.lim ∧ Tame r.beginPayload.2 := by
  refine ⟨begin_lim r, ?_⟩
  unfold beginPayload
  simp only
  split
  · obtain ⟨c, hc⟩ := Tame.active (r := { r with payloadOn := true }) ⟨h.kind, h.block, h.payload, h.blockDig, h.payDig⟩
    simp only at hc
    rw [hc]
    simp only
    rcases DigestChecker.verdict_cases r.checker c (.payloadFailed (r.payloadDigest.getD [])) with ⟨⟨g1, _⟩, _⟩ | ⟨_, c1, g2, g3, _⟩
    · exact absurd g1 h.kind
    · rw [g2]
      exact ⟨by rw [g3]; exact h.kind, h.block, h.payload, h.blockDig, h.payDig⟩
  · exact ⟨h.kind, h.block, h.payload, h.blockDig, h.payDig⟩

theorem tame_finish {r : DigestReader σ} (h : Tame r) : ∃ r', r.finish = (.ok (), r') ∧ r'.lim = r.lim ∧ Tame r' := by
  obtain ⟨b, hb⟩ := h.blockDig
  obtain ⟨cb, hcb⟩ := h.block b
  obtain ⟨cp, hcp⟩ := h.active
  unfold finish
  rw [hb, hcb]
  simp only
  rcases DigestChecker.verdict_cases r.checker cb (.blockFailed (r.blockDigest.getD [])) with ⟨⟨g1, _⟩, _⟩ | ⟨_, c1, g2, g3, _⟩
  · exact absurd g1 h.kind
  · rw [g2]
    simp only [activePayload] at hcp ⊢
    rw [hcp]
    simp only
    rcases DigestChecker.verdict_cases c1 cp (.payloadFailed (r.payloadDigest.getD [])) with ⟨⟨m1, _⟩, _⟩ | ⟨_, c2, m2, m3, _⟩
    · exact absurd (g3.symm.trans m1) h.kind
    · rw [m2]
      exact ⟨_, rfl, rfl, ⟨by rw [m3, g3]; exact h.kind, h.block, h.payload, ⟨b, by first | rfl | exact hb⟩, h.payDig⟩⟩

theorem tame_call {r : DigestReader σ} (h : Tame r) (c : Call) :
    (c.run r).1 = (c.run r.lim).1 ∧ (c.run r).2.lim = (c.run r.lim).2 ∧ Tame (c.run r).2 := by
  rw [run_eq]
  by_cases hz : r.lim.clampLen c.arg = 0
  · rw [if_pos hz, lim_run_zero c r.lim hz]
    exact ⟨rfl, rfl, h⟩
  · rw [if_neg hz]
    have hlim : ∀ x l', c.run r.lim = (.ok x, l') → l'.limit = r.lim.limit - len x := by
      intro x l' hr
      cases c with
      | read n =>
        simp only [Call.arg] at hz
        simp only [Call.run, PyStream.read, LimitReader.read, hz, if_false] at hr
        split at hr
        · simp only [Prod.mk.injEq, Except.ok.injEq] at hr; obtain ⟨rfl, rfl⟩ := hr; rfl
        · simp at hr
      | readline n =>
        simp only [Call.arg] at hz
        simp only [Call.run, PyStream.readline, LimitReader.readline, hz, if_false] at hr
        split at hr
        · simp only [Prod.mk.injEq, Except.ok.injEq] at hr; obtain ⟨rfl, rfl⟩ := hr; rfl
        · simp at hr
    cases hr : c.run r.lim with
    | mk a l' =>
      cases a with
      | error e => exact ⟨rfl, rfl, ⟨h.kind, h.block, h.payload, h.blockDig, h.payDig⟩⟩
      | ok x =>
        have hl := hlim x l' hr
        simp only [afterCall, update]
        have el : ({ stream := l'.stream, limit := r.lim.limit - len x, origLimit := l'.origLimit } : LimitReader σ) = l' := by rw [← hl]
        rw [el]
        let r1 : DigestReader σ := { r with lim := l', payloadDigester := (if r.payloadOn then r.payloadDigester.map (·.update x) else r.payloadDigester), blockDigester := r.blockDigester.map (·.update x) }
        have h1 : Tame r1 := by
          refine ⟨h.kind, h.block, h.payload, ?_, ?_⟩
          · obtain ⟨b, hb⟩ := h.blockDig
            exact ⟨b ++ x, by simp only [r1]; rw [hb, digOf_update]⟩
          · obtain ⟨b, hb⟩ := h.payDig
            by_cases ho : r.payloadOn = true
            · exact ⟨b ++ x, by simp only [r1, ho, if_true]; rw [hb, digOf_update]⟩
            · exact ⟨b, by simp only [r1, ho]; exact hb⟩
        split
        · obtain ⟨r', g1, g2, g3⟩ := tame_finish h1
          have g1' : ({ lim := l', checker := r.checker, payloadDigest := r.payloadDigest, blockDigest := r.blockDigest, payloadDigester := (if r.payloadOn = true then Option.map (fun x_1 => x_1.update x) r.payloadDigester else r.payloadDigester), blockDigester := Option.map (fun x_1 => x_1.update x) r.blockDigester, payloadOn := r.payloadOn } : DigestReader σ).finish = (.ok (), r') := g1
          rw [g1']
          exact ⟨rfl, g2, g3⟩
        · exact ⟨rfl, rfl, h1⟩

theorem tame_ops : ∀ (ops : List VOp) {r : DigestReader σ}, Tame r →
    (runOps r ops).1 = (runCalls r.lim (callsOf ops)).1 ∧ (runOps r ops).2.lim = (runCalls r.lim (callsOf ops)).2 := by
  intro ops
  induction ops with
  | nil => intro r _; exact ⟨rfl, rfl⟩
  | cons op t ih =>
    intro r h
    cases op with
    | call c =>
      obtain ⟨h1, h2, h3⟩ := tame_call h c
      obtain ⟨g1, g2⟩ := ih h3
      simp only [runOps, callsOf, runCalls]
      rw [h2] at g1 g2
      exact ⟨by rw [h1, g1], g2⟩
    | beginPayload =>
      obtain ⟨h1, h2⟩ := tame_begin h
      obtain ⟨g1, g2⟩ := ih h2
      simp only [runOps, callsOf]
      rw [h1] at g1 g2
      exact ⟨g1, g2⟩

/-! ## A pass needs the whole block -/

theorem finish_state (r : DigestReader σ) : r.finish.2.lim = r.lim := by
  unfold finish
  split
  · rfl
  · split
    · rfl
    · simp only
      split
      · rfl
      · split <;> rfl

/-- Invariant: a pass was given only at the end of the block. -/
def PassLate (r : DigestReader σ) : Prop := r.checker.passed = some true → r.lim.limit = 0

theorem passLate_begin {r : DigestReader σ} (h : PassLate r) : PassLate r.beginPayload.2 := by
  unfold PassLate
  rw [begin_lim]
  by_cases hl : r.lim.limit = 0
  · exact fun _ => hl
  · simp only [beginPayload, hl, if_false]
    exact fun hp => absurd (h hp) hl

theorem passLate_call {V : σ → Bytes → Prop} (hV : Bounded V) {r : DigestReader σ} {srem : Bytes} (hs : V r.lim.stream srem)
    (hl : 0 ≤ r.lim.limit) (h : PassLate r) (c : Call) (hc : c.nonneg) :
    ∃ (p srem' : Bytes), V (c.run r).2.lim.stream srem' ∧ srem = p ++ srem' ∧ (c.run r).2.lim.limit = r.lim.limit - len p ∧
      0 ≤ (c.run r).2.lim.limit ∧ (c.run r).2.lim.origLimit = r.lim.origLimit ∧ PassLate (c.run r).2 := by
  obtain ⟨p, srem', l', h1, h2, h3, h4, h5, h6⟩ := LimitReader.call_spec hV hs hl hc
  rw [run_eq]
  by_cases hz : r.lim.clampLen c.arg = 0
  · rw [if_pos hz]
    exact ⟨[], srem, hs, rfl, by simp [len], hl, rfl, h⟩
  · rw [if_neg hz, h1]
    have key : (r.afterCall (.ok p, l')).2.lim = l' ∧ PassLate (r.afterCall (.ok p, l')).2 := by
      simp only [afterCall, update]
      have el : ({ stream := l'.stream, limit := r.lim.limit - len p, origLimit := l'.origLimit } : LimitReader σ) = l' := by rw [← h4]
      rw [el, ← h4]
      by_cases hend : l'.limit = 0
      · rw [if_pos hend]
        generalize hr1 : ({ lim := l', checker := r.checker, payloadDigest := r.payloadDigest, blockDigest := r.blockDigest, payloadDigester := (if r.payloadOn = true then Option.map (fun x_1 => x_1.update p) r.payloadDigester else r.payloadDigester), blockDigester := Option.map (fun x_1 => x_1.update p) r.blockDigester, payloadOn := r.payloadOn } : DigestReader σ) = r1
        have hfin := finish_state r1
        have hr1l : r1.lim = l' := by rw [← hr1]
        cases hf : r1.finish with
        | mk a r2 =>
          rw [hf] at hfin
          simp only at hfin
          cases a with
          | ok _ => exact ⟨by simp only; rw [hfin, hr1l], fun _ => by simp only; rw [hfin, hr1l]; exact hend⟩
          | error _ => exact ⟨by simp only; rw [hfin, hr1l], fun _ => by simp only; rw [hfin, hr1l]; exact hend⟩
      · rw [if_neg hend]
        refine ⟨rfl, fun hp => ?_⟩
        have h0 := h hp
        have := clamp_zero r.lim h0 c hc
        exact absurd this hz
    rw [key.1]
    exact ⟨p, srem', h3, h2, h4, h5, h6, key.2⟩

theorem passLate_ops {V : σ → Bytes → Prop} (hV : Bounded V) : ∀ (ops : List VOp) {r : DigestReader σ} {srem : Bytes},
    V r.lim.stream srem → 0 ≤ r.lim.limit → PassLate r → (∀ c ∈ callsOf ops, c.nonneg) →
    ∃ (p srem' : Bytes), V (runOps r ops).2.lim.stream srem' ∧ srem = p ++ srem' ∧ (runOps r ops).2.lim.limit = r.lim.limit - len p ∧
      0 ≤ (runOps r ops).2.lim.limit ∧ (runOps r ops).2.lim.origLimit = r.lim.origLimit ∧ PassLate (runOps r ops).2 := by
  intro ops
  induction ops with
  | nil => intro r srem hs hl h _; exact ⟨[], srem, hs, rfl, by simp [runOps, len], hl, rfl, h⟩
  | cons op t ih =>
    intro r srem hs hl h hc
    cases op with
    | call c =>
      obtain ⟨p, srem1, h1, h2, h3, h4, h5, h6⟩ := passLate_call hV hs hl h c (hc c (by simp [callsOf]))
      obtain ⟨p', srem2, g1, g2, g3, g4, g5, g6⟩ := ih h1 h4 h6 (fun c' hc' => hc c' (by simp [callsOf, hc']))
      simp only [runOps]
      exact ⟨p ++ p', srem2, g1, by rw [h2, g2]; simp, by rw [g3, h3]; simp [len]; omega, g4, by rw [g5, h5], g6⟩
    | beginPayload =>
      have e := begin_lim r
      obtain ⟨p', srem2, g1, g2, g3, g4, g5, g6⟩ := ih (r := r.beginPayload.2) (srem := srem) (by rw [e]; exact hs) (by rw [e]; exact hl)
        (passLate_begin h) hc
      simp only [runOps]
      rw [e] at g3 g5
      exact ⟨p', srem2, g1, g2, g3, g4, g5, g6⟩

/-! ## Nothing to check -/

theorem silent_finish {r : DigestReader σ} (hb : r.blockDigest = none) (hp : r.payloadDigest = none) : r.finish = (.ok (), r) := by
  have e : ∀ d, compareDigest d none = .ok none := by intro d; cases d <;> rfl
  cases r
  simp only at hb hp
  subst hb hp
  simp only [finish, e, DigestChecker.verdict]

theorem silent_ops : ∀ (ops : List VOp) {r : DigestReader σ}, r.blockDigest = none → r.payloadDigest = none →
    (runOps r ops).2.checker = r.checker := by
  have e : ∀ d, compareDigest d none = .ok none := by intro d; cases d <;> rfl
  intro ops
  induction ops with
  | nil => intro r _ _; rfl
  | cons op t ih =>
    intro r hb hp
    cases op with
    | call c =>
      have key : (c.run r).2.checker = r.checker ∧ (c.run r).2.blockDigest = none ∧ (c.run r).2.payloadDigest = none := by
        rw [run_eq]
        split
        · exact ⟨rfl, hb, hp⟩
        · cases hr : c.run r.lim with
          | mk a l' =>
            cases a with
            | error e => exact ⟨rfl, hb, hp⟩
            | ok x =>
              simp only [afterCall, update]
              split
              · generalize hr1 : ({ lim := { stream := l'.stream, limit := r.lim.limit - len x, origLimit := l'.origLimit }, checker := r.checker, payloadDigest := r.payloadDigest, blockDigest := r.blockDigest, payloadDigester := (if r.payloadOn = true then Option.map (fun x_1 => x_1.update x) r.payloadDigester else r.payloadDigester), blockDigester := Option.map (fun x_1 => x_1.update x) r.blockDigester, payloadOn := r.payloadOn } : DigestReader σ) = r1
                have hb1 : r1.blockDigest = none := by rw [← hr1]; exact hb
                have hp1 : r1.payloadDigest = none := by rw [← hr1]; exact hp
                rw [silent_finish hb1 hp1]
                exact ⟨by rw [← hr1], hb1, hp1⟩
              · exact ⟨rfl, hb, hp⟩
      simp only [runOps]
      rw [ih key.2.1 key.2.2, key.1]
    | beginPayload =>
      have key : r.beginPayload.2.checker = r.checker ∧ r.beginPayload.2.blockDigest = none ∧ r.beginPayload.2.payloadDigest = none := by
        unfold beginPayload
        simp only
        split
        · rw [hp, e]; simp only [DigestChecker.verdict]; exact ⟨trivial, hb, trivial⟩
        · exact ⟨rfl, hb, hp⟩
      simp only [runOps]
      rw [ih key.2.1 key.2.2, key.1]

theorem lookedAt_eq (rt sg bh ph : Option Str) : lookedAt rt sg bh ph = (effBlock rt bh, effPayload rt ph sg) := by
  unfold lookedAt effBlock effPayload
  by_cases h : rt = some (lit "revisit")
  · simp [h]
  · by_cases h2 : sg.isSome = true <;> simp [h, h2]

end DigestReader
end

theorem unknownAlgo_iff [Hashlib] (v : Option Str) : unknownAlgo v = true ↔ UnknownDigest v := by
  cases v with
  | none =>
    constructor
    · intro h; cases h
    · rintro ⟨h, h1, _⟩; cases h1
  | some h =>
    unfold unknownAlgo UnknownDigest digOf
    generalize hs : split1 ':' h = x
    obtain ⟨a, x⟩ := x
    cases x with
    | none =>
      obtain ⟨rfl, hn⟩ := split1_none_inv hs
      simp only [hs, Option.isNone_none, Bool.and_true, Bool.not_eq_true', Option.some.injEq, exists_eq_left']
      constructor
      · intro h1
        refine ⟨by simpa using h1, ?_⟩
        rintro algo x rfl
        simp at hn
      · rintro ⟨h1, _⟩; simpa using h1
    | some b =>
      obtain ⟨rfl, hn⟩ := split1_some hs
      have he : (a ++ ':' :: b).isEmpty = false := by cases a <;> rfl
      simp only [hs, he, Bool.not_false, Bool.true_and, Option.some.injEq, exists_eq_left']
      constructor
      · intro h1
        refine ⟨by cases a <;> simp, ?_⟩
        intro algo x hx hc
        have h2 := split1_append (b := x) hc
        rw [← hx, split1_append hn] at h2
        simp only [Prod.mk.injEq] at h2
        rw [← h2.1]
        cases hh : Hashlib.hash a with
        | none => rfl
        | some f => rw [hh] at h1; cases h1
      · rintro ⟨_, h1⟩
        rw [h1 a b rfl hn]; rfl

theorem BlockOutcome.of_nil [Hashlib] {v : Option Str} {o : Option Bool} (h : BlockOutcome [] v o) : o = if unknownAlgo v then some false else none := by
  cases h with
  | compared _ h _ => exact absurd rfl h
  | passed_over _ h => rw [if_neg (by rw [unknownAlgo_iff]; exact h)]
  | unusable _ h => rw [if_pos (by rw [unknownAlgo_iff]; exact h)]

end Warcio
