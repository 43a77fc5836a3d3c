import Verif.Proofs.RecordLoader

/-!
# The verdict on a record

`RawStream.passedAt raw b`: the verdict there will be when the rest `b` of the record has been read.
Reading does not change it.
-/

set_option linter.unusedSectionVars false

namespace Warcio

/-- Problems are listed if and only if the verdict says that there are some. -/
def DigestChecker.Loud (c : DigestChecker) : Prop := c.kind ≠ .raise ∧ (c.passed = some false ↔ c.problems ≠ [])

namespace DigestReader
variable {σ : Type} [Hashlib]

/-- Everything but the stream. -/
def core (d : DigestReader σ) : DigestReader Unit :=
  { lim := ⟨(), 0, 0⟩, checker := d.checker, payloadDigest := d.payloadDigest, blockDigest := d.blockDigest,
    payloadDigester := d.payloadDigester, blockDigester := d.blockDigester, payloadOn := d.payloadOn }

/-- How it ends when `b` is all that is left. -/
def ending (d : DigestReader σ) (b : Bytes) : DigestReader Unit :=
  if b = [] then d.core else ({ d.core with lim := ⟨(), len b, 0⟩ } : DigestReader Unit).update b |>.2

theorem finish_core (d : DigestReader σ) : d.core.finish = (d.finish.1, d.finish.2.core) := by
  unfold finish
  show (match compareDigest d.blockDigester d.blockDigest with
    | .error e => _
    | .ok check => _) = _
  cases hb : compareDigest d.blockDigester d.blockDigest with
  | error e => rfl
  | ok check =>
    show (match d.checker.verdict check (.blockFailed (d.blockDigest.getD [])) with
      | (.error e, c) => _
      | (.ok _, c) => _) = _
    dsimp only
    cases hv : d.checker.verdict check (.blockFailed (d.blockDigest.getD [])) with
    | mk a c =>
      cases a with
      | error e => rfl
      | ok u =>
        dsimp only [core]
        simp only [activePayload]
        cases hp : compareDigest (if d.payloadOn = true then d.payloadDigester else none) d.payloadDigest with
        | error e => rfl
        | ok check =>
          dsimp only
          cases hw : c.verdict check (.payloadFailed (d.payloadDigest.getD [])) with
          | mk a c => cases a <;> rfl

/-- With `b` added to what has been read. -/
def fed (d : DigestReader σ) (b : Bytes) : DigestReader Unit :=
  { d.core with payloadDigester := (if d.payloadOn then d.payloadDigester.map (·.update b) else d.payloadDigester),
                blockDigester := d.blockDigester.map (·.update b) }

theorem ending_ne {d : DigestReader σ} {b : Bytes} (hb : b ≠ []) : d.ending b = (d.fed b).finish.2 := by
  have h0 : len b - len b = 0 := Int.sub_self _
  unfold ending
  rw [if_neg hb]
  unfold update
  dsimp only [core]
  rw [h0, if_pos rfl]
  generalize hg : finish _ = y
  have : (d.fed b).finish = y := hg
  rw [this]
  obtain ⟨a, r⟩ := y
  cases a <;> rfl

theorem map_update_append (o : Option Digester) (a b : Bytes) : (o.map (·.update a)).map (·.update b) = o.map (·.update (a ++ b)) := by
  cases o <;> simp [Digester.update]

theorem map_update_nil (o : Option Digester) : o.map (·.update []) = o := by
  cases o with
  | none => rfl
  | some d => cases d; simp [Digester.update]

/-- Reading counts. -/
theorem run_limit [PyStream σ] {d d' : DigestReader σ} {c : Call} {p : Bytes} (h : c.run d = (.ok p, d')) : d'.lim.limit = d.lim.limit - len p := by
  rw [run_eq] at h
  split at h
  · simp only [Prod.mk.injEq, Except.ok.injEq] at h
    obtain ⟨rfl, rfl⟩ := h
    simp [len]
  · generalize hr : c.run d.lim = x at h
    obtain ⟨x, l'⟩ := x
    cases x with
    | error e => simp [afterCall] at h
    | ok q =>
      simp only [afterCall, update] at h
      split at h
      · generalize hf : finish _ = y at h
        obtain ⟨y, d2⟩ := y
        cases y with
        | error e => simp at h
        | ok u =>
          simp only [Prod.mk.injEq, Except.ok.injEq] at h
          obtain ⟨rfl, rfl⟩ := h
          have := congrArg (fun x => x.2.lim) hf
          simp only [finish_state] at this
          rw [← this]
      · simp only [Prod.mk.injEq, Except.ok.injEq] at h
        obtain ⟨rfl, rfl⟩ := h
        rfl

/-- As long as not everything that was announced has been read, nothing is verified. -/
theorem run_short [PyStream σ] {d d' : DigestReader σ} {c : Call} {p : Bytes} (h : c.run d = (.ok p, d')) (hl : len p < d.lim.limit) : d'.checker = d.checker := by
  rw [run_eq] at h
  split at h
  · simp only [Prod.mk.injEq, Except.ok.injEq] at h
    obtain ⟨rfl, rfl⟩ := h
    rfl
  · generalize hr : c.run d.lim = x at h
    obtain ⟨x, l'⟩ := x
    cases x with
    | error e => simp [afterCall] at h
    | ok q =>
      simp only [afterCall, update] at h
      split at h
      · rename_i h0
        generalize hf : finish _ = y at h
        obtain ⟨y, d2⟩ := y
        cases y with
        | error e => simp at h
        | ok u =>
          simp only [Prod.mk.injEq, Except.ok.injEq] at h
          obtain ⟨rfl, rfl⟩ := h
          omega
      · simp only [Prod.mk.injEq, Except.ok.injEq] at h
        obtain ⟨rfl, rfl⟩ := h
        rfl

/-- Reading does not change how it ends. -/
theorem ending_call [PyStream σ] {d d' : DigestReader σ} {c : Call} {p b' : Bytes} (hc : c.nonneg) (h : c.run d = (.ok p, d')) (hl : d.lim.limit = len (p ++ b')) :
    d'.ending b' = d.ending (p ++ b') := by
  rw [run_eq] at h
  split at h
  · simp only [Prod.mk.injEq, Except.ok.injEq] at h
    obtain ⟨rfl, rfl⟩ := h
    rfl
  · rename_i hz
    generalize hr : c.run d.lim = x at h
    obtain ⟨x, l'⟩ := x
    cases x with
    | error e => simp [afterCall] at h
    | ok q =>
      simp only [afterCall, update] at h
      by_cases he : d.lim.limit - len q = 0
      · rw [if_pos he] at h
        generalize hf : finish _ = y at h
        obtain ⟨y, d2⟩ := y
        cases y with
        | error e => simp at h
        | ok u =>
          simp only [Prod.mk.injEq, Except.ok.injEq] at h
          obtain ⟨rfl, rfl⟩ := h
          have hb : b' = [] := by
            rw [hl] at he
            simp only [len, List.length_append] at he
            exact List.length_eq_zero_iff.1 (by omega)
          subst hb
          rw [List.append_nil] at hl ⊢
          have e1 : d2.ending [] = d2.core := by simp [ending]
          rw [e1]
          have hq : q ≠ [] := by
            rintro rfl
            simp only [len, List.length_nil] at hl
            apply hz
            exact clamp_zero _ (by simpa using hl) c hc
          rw [ending_ne hq]
          have := finish_core ({ d with lim := { l' with limit := d.lim.limit - len q }, payloadDigester := (if d.payloadOn then d.payloadDigester.map (·.update q) else d.payloadDigester), blockDigester := d.blockDigester.map (·.update q) } : DigestReader σ)
          rw [hf] at this
          have e2 : d.fed q = ({ d with lim := { l' with limit := d.lim.limit - len q }, payloadDigester := (if d.payloadOn then d.payloadDigester.map (·.update q) else d.payloadDigester), blockDigester := d.blockDigester.map (·.update q) } : DigestReader σ).core := rfl
          rw [e2, this]
      · rw [if_neg he] at h
        simp only [Prod.mk.injEq, Except.ok.injEq] at h
        obtain ⟨rfl, rfl⟩ := h
        have hb : b' ≠ [] := by
          rintro rfl
          apply he
          rw [hl]; simp [len]
        rw [ending_ne hb, ending_ne (by simp [hb])]
        have : ∀ d2 : DigestReader σ, d2.checker = d.checker → d2.payloadDigest = d.payloadDigest → d2.blockDigest = d.blockDigest → d2.payloadOn = d.payloadOn →
            d2.payloadDigester = (if d.payloadOn then d.payloadDigester.map (·.update q) else d.payloadDigester) → d2.blockDigester = d.blockDigester.map (·.update q) →
            d2.fed b' = d.fed (q ++ b') := by
          intro d2 q1 q2 q3 q4 q5 q6
          simp only [fed, core, q1, q2, q3, q4, q5, q6, map_update_append]
          cases d.payloadOn
          · rfl
          · simp only [if_true, map_update_append]
        exact congrArg (fun x : DigestReader Unit => x.finish.2) (this _ rfl rfl rfl rfl rfl rfl)

/-- The checks at the end change nothing but the checker. -/
theorem finish_only (d : DigestReader σ) : d.finish.2 = { d with checker := d.finish.2.checker } := by
  unfold finish
  cases compareDigest d.blockDigester d.blockDigest with
  | error e => rfl
  | ok check =>
    dsimp only
    cases d.checker.verdict check (.blockFailed (d.blockDigest.getD [])) with
    | mk a c =>
      cases a with
      | error e => rfl
      | ok u =>
        dsimp only
        generalize compareDigest _ d.payloadDigest = x
        cases x with
        | error e => rfl
        | ok check =>
          dsimp only
          cases c.verdict check (.payloadFailed (d.payloadDigest.getD [])) with
          | mk a c => cases a <;> rfl

theorem finish_passed {d : DigestReader σ} (hk : d.checker.kind ≠ .raise) {cb cp : Option Bool} (h1 : compareDigest d.blockDigester d.blockDigest = .ok cb)
    (h2 : compareDigest d.activePayload d.payloadDigest = .ok cp) :
    d.finish.2.checker.passed = merge (merge d.checker.passed cb) cp ∧ d.finish.2.checker.kind = d.checker.kind := by
  unfold finish
  rw [h1]
  dsimp only
  rcases DigestChecker.verdict_cases d.checker cb (.blockFailed (d.blockDigest.getD [])) with ⟨⟨g1, _⟩, _⟩ | ⟨_, c1, g2, g3, g4⟩
  · exact absurd g1 hk
  · rw [g2]
    dsimp only
    have : compareDigest ({ d with checker := c1 } : DigestReader σ).activePayload d.payloadDigest = .ok cp := h2
    rw [this]
    dsimp only
    rcases DigestChecker.verdict_cases c1 cp (.payloadFailed (d.payloadDigest.getD [])) with ⟨⟨m1, _⟩, _⟩ | ⟨_, c2, m2, m3, m4⟩
    · exact absurd (g3.symm.trans m1) hk
    · rw [m2]
      exact ⟨by rw [m4, g4], m3.trans g3⟩

theorem _root_.Warcio.DigestChecker.verdict_loud {c : DigestChecker} (h : c.Loud) (check : Option Bool) (p : Problem) : (c.verdict check p).2.Loud := by
  cases check with
  | none => exact h
  | some b =>
    cases b with
    | false =>
      unfold DigestChecker.verdict DigestChecker.problem
      dsimp only
      split
      · rename_i hk; exact absurd hk h.1
      · exact ⟨h.1, fun _ => by simp, fun _ => rfl⟩
    | true =>
      unfold DigestChecker.verdict
      dsimp only
      split
      · exact h
      · rename_i hp
        exact ⟨h.1, fun h => (by cases h), fun h0 => absurd (h.2.2 h0) hp⟩

theorem finish_loud {d : DigestReader σ} (h : d.checker.Loud) : d.finish.2.checker.Loud := by
  unfold finish
  cases compareDigest d.blockDigester d.blockDigest with
  | error e => exact h
  | ok check =>
    dsimp only
    have h1 := DigestChecker.verdict_loud h check (.blockFailed (d.blockDigest.getD []))
    revert h1
    cases d.checker.verdict check (.blockFailed (d.blockDigest.getD [])) with
    | mk a c =>
      intro h1
      cases a with
      | error e => exact h1
      | ok u =>
        dsimp only
        generalize compareDigest _ d.payloadDigest = x
        cases x with
        | error e => exact h1
        | ok check =>
          dsimp only
          have h2 := DigestChecker.verdict_loud (c := c) h1 check (.payloadFailed (d.payloadDigest.getD []))
          revert h2
          cases c.verdict check (.payloadFailed (d.payloadDigest.getD [])) with
          | mk a c => cases a <;> exact id

theorem update_loud {d : DigestReader σ} (h : d.checker.Loud) (b : Bytes) : (d.update b).2.checker.Loud := by
  unfold update
  dsimp only
  split
  · generalize hf : finish _ = y
    have := finish_loud (d := { d with lim := { d.lim with limit := d.lim.limit - len b }, payloadDigester := (if d.payloadOn then d.payloadDigester.map (·.update b) else d.payloadDigester), blockDigester := d.blockDigester.map (·.update b) }) h
    rw [hf] at this
    obtain ⟨y, d'⟩ := y
    cases y <;> exact this
  · exact h

theorem ending_loud {d : DigestReader σ} (h : d.checker.Loud) (b : Bytes) : (d.ending b).checker.Loud := by
  unfold ending
  split
  · exact h
  · exact update_loud (d := { d.core with lim := ⟨(), len b, 0⟩ }) h b

theorem run_loud [PyStream σ] {d : DigestReader σ} (h : d.checker.Loud) (c : Call) : (c.run d).2.checker.Loud := by
  cases c with
  | read n =>
    simp only [Call.run, PyStream.read, read]
    split
    · exact h
    · generalize PyStream.read d.lim.stream _ = x
      obtain ⟨x, s⟩ := x
      cases x with
      | error e => exact h
      | ok b => exact update_loud (d := { d with lim := { d.lim with stream := s } }) h b
  | readline n =>
    simp only [Call.run, PyStream.readline, readline]
    split
    · exact h
    · generalize PyStream.readline d.lim.stream _ = x
      obtain ⟨x, s⟩ := x
      cases x with
      | error e => exact h
      | ok b => exact update_loud (d := { d with lim := { d.lim with stream := s } }) h b

theorem begin_loud {d : DigestReader σ} (h : d.checker.Loud) : d.beginPayload.2.checker.Loud := by
  unfold beginPayload
  dsimp only
  split
  · generalize compareDigest _ d.payloadDigest = x
    cases x with
    | error e => exact h
    | ok check =>
      dsimp only
      have h1 := DigestChecker.verdict_loud h check (.payloadFailed (d.payloadDigest.getD []))
      revert h1
      cases d.checker.verdict check (.payloadFailed (d.payloadDigest.getD [])) with
      | mk a c => cases a <;> exact id
  · exact h

theorem make_loud {c : DigestChecker} (h : c.Loud) (digest : Option Str) (p : Problem) : (makeDigester c digest p).2.Loud := by
  have hp : (c.problem p).2.Loud := DigestChecker.verdict_loud h (some false) p
  unfold makeDigester
  split
  · exact h
  · split
    · exact h
    · split
      · exact h
      · revert hp
        generalize c.problem p = y
        obtain ⟨y, c'⟩ := y
        cases y <;> exact id

theorem new_loud {s : σ} {L : Int} {k : CheckKind} {rt ph bh sg : Option Str} {d : DigestReader σ} {c : DigestChecker} (hk : k ≠ .raise) (h : new s L { kind := k } rt ph bh sg = (.ok d, c)) :
    d.checker.Loud := by
  have h0 : ({ kind := k } : DigestChecker).Loud := ⟨hk, fun h => (by cases h), fun h => absurd rfl h⟩
  unfold new at h
  dsimp only at h
  generalize hm : makeDigester { kind := k } _ Problem.unknownBlockAlgo = x at h
  have h1 := make_loud h0 (if rt = some (lit "revisit") then none else bh) .unknownBlockAlgo
  rw [hm] at h1
  obtain ⟨x, c1⟩ := x
  cases x with
  | error e => cases h
  | ok bd =>
    dsimp only at h h1
    have h2 := make_loud h1 (if sg.isSome = true then none else if rt = some (lit "revisit") then none else ph) .unknownPayloadAlgo
    generalize makeDigester c1 _ Problem.unknownPayloadAlgo = y at h h2
    obtain ⟨y, c2⟩ := y
    cases y with
    | error e => cases h
    | ok pd => cases h; exact h2

/-- What is known of the reader when the header part of the block has been read. -/
structure Headed (k : CheckKind) (bh ph : Option Str) (block : Bytes) (q : Option Bool) (d : DigestReader Unit) : Prop where
  kind : d.checker.kind = k
  blockDigest : d.blockDigest = bh
  payloadDigest : d.payloadDigest = ph
  blockDig : d.blockDigester = digOf bh block
  payDig : d.payloadDigester = digOf ph []
  off : d.payloadOn = false
  passed : d.checker.passed = q

/-- At the start of the block. -/
theorem headed_start {k : CheckKind} {bh ph : Option Str} {q : Option Bool} {b : Bytes} {d : DigestReader σ} (hk : k ≠ .raise)
    (hck : d.checker.kind = k) (hbh : d.blockDigest = bh) (hph : d.payloadDigest = ph) (hbd : d.blockDigester = digOf bh []) (hpd : d.payloadDigester = digOf ph [])
    (hoff : d.payloadOn = false) (hq : d.checker.passed = q) {cb : Option Bool} (h1 : b ≠ [] → compareDigest (digOf bh b) bh = .ok cb) :
    Headed k bh ph b (if b = [] then q else merge q cb) (d.ending b) := by
  by_cases hb : b = []
  · subst hb
    simp only [ending, if_true]
    exact ⟨hck, hbh, hph, hbd, hpd, hoff, hq⟩
  · rw [ending_ne hb, finish_only, if_neg hb]
    have e1 : (d.fed b).blockDigester = digOf bh b := by
      show d.blockDigester.map _ = _
      rw [hbd, digOf_update]; rfl
    have e2 : (d.fed b).payloadDigester = digOf ph [] := by
      show (if d.payloadOn = true then _ else d.payloadDigester) = _
      rw [hoff]; exact hpd
    have hp := finish_passed (d := d.fed b) (cb := cb) (cp := none) (by show d.checker.kind ≠ _; rw [hck]; exact hk)
      (by rw [e1]; show compareDigest _ d.blockDigest = _; rw [hbh]; exact h1 hb)
      (by have : (d.fed b).activePayload = none := by
            show (if d.payloadOn = true then _ else none) = _
            rw [hoff]; rfl
          rw [this]; rfl)
    refine ⟨hp.2.trans hck, hbh, hph, e1, e2, hoff, ?_⟩
    show (d.fed b).finish.2.checker.passed = _
    rw [hp.1]
    show merge (merge d.checker.passed cb) none = _
    rw [hq]; rfl

/-- From the start of the payload on. -/
theorem ending_begin {k : CheckKind} {bh ph : Option Str} {q cb cp : Option Bool} {block b : Bytes} {d : DigestReader σ} (hk : d.checker.kind ≠ .raise)
    (h : Headed k bh ph block (if block = [] then q else merge q cb) (d.ending b)) (hl : d.lim.limit = len b) (h1 : block ≠ [] → compareDigest (digOf bh block) bh = .ok cb)
    (hb : block = [] → b = []) (h2 : compareDigest (digOf ph b) ph = .ok cp) :
    (d.beginPayload.2.ending b).checker.passed = merge (if block = [] then q else merge q cb) cp := by
  by_cases hb0 : b = []
  · subst hb0
    simp only [ending, if_true] at h ⊢
    unfold beginPayload
    have e0 : d.lim.limit = 0 := hl
    simp only [e0, if_true]
    have e1 : compareDigest ({ d with payloadOn := true } : DigestReader σ).activePayload d.payloadDigest = .ok cp := by
      show compareDigest d.payloadDigester d.payloadDigest = _
      have q1 : d.payloadDigester = _ := h.payDig
      have q2 : d.payloadDigest = _ := h.payloadDigest
      rw [q1, q2]; exact h2
    rw [e1]
    dsimp only
    have hpp : d.checker.passed = _ := h.passed
    rcases DigestChecker.verdict_cases d.checker cp (.payloadFailed (d.payloadDigest.getD [])) with ⟨⟨g1, _⟩, _⟩ | ⟨_, c1, g2, g3, g4⟩
    · exact absurd g1 hk
    · rw [g2]
      show c1.passed = _
      rw [g4, hpp]
  · have hne : block ≠ [] := fun hx => hb0 (hb hx)
    have hln : d.lim.limit ≠ 0 := by
      rw [hl]; intro h0; apply hb0
      simp only [len] at h0
      exact List.length_eq_zero_iff.1 (by omega)
    have e0 : d.beginPayload = (.ok (), { d with payloadOn := true }) := by
      unfold beginPayload
      simp only [hln, if_false]
    rw [e0, ending_ne hb0]
    rw [ending_ne hb0, finish_only, if_neg hne] at h
    rw [if_neg hne]
    have hoff : d.payloadOn = false := h.off
    have hbh : d.blockDigest = bh := h.blockDigest
    have hph : d.payloadDigest = ph := h.payloadDigest
    have hbd : (d.fed b).blockDigester = digOf bh block := h.blockDig
    have hpd : d.payloadDigester = digOf ph [] := by
      have : (if d.payloadOn = true then _ else d.payloadDigester) = _ := h.payDig
      rw [hoff] at this; exact this
    have hc1 : compareDigest (d.fed b).blockDigester (d.fed b).blockDigest = .ok cb := by
      rw [hbd]; show compareDigest _ d.blockDigest = _; rw [hbh]; exact h1 hne
    have hold := (finish_passed (d := d.fed b) (cp := none) hk hc1 (by
      have : (d.fed b).activePayload = none := by
        show (if d.payloadOn = true then _ else none) = _
        rw [hoff]; rfl
      rw [this]; rfl)).1
    have hp : (d.fed b).finish.2.checker.passed = merge q cb := h.passed
    rw [hold] at hp
    have hp : merge d.checker.passed cb = merge q cb := hp
    have e3 : (({ d with payloadOn := true } : DigestReader σ).fed b).payloadDigester = digOf ph b := by
      show d.payloadDigester.map _ = _
      rw [hpd, digOf_update]; rfl
    have hnew := (finish_passed (d := ({ d with payloadOn := true } : DigestReader σ).fed b) (cb := cb) (cp := cp) hk hc1 (by
      show compareDigest (({ d with payloadOn := true } : DigestReader σ).fed b).payloadDigester d.payloadDigest = _
      rw [e3, hph]; exact h2)).1
    rw [hnew]
    show merge (merge d.checker.passed cb) cp = _
    rw [hp]

end DigestReader

namespace RawStream
variable {σ : Type} [Hashlib]

/-- How a verifying stream ends when `b` is all that is left. -/
def endingAt (raw : RawStream σ) (b : Bytes) : Option (DigestReader Unit) :=
  match raw with
  | .verifying d => some (d.ending b)
  | _ => none

/-- The checker there will be when the rest `b` of the record has been read. -/
def checkerAt (raw : RawStream σ) (b : Bytes) : DigestChecker :=
  match raw with
  | .verifying d => if len b < d.lim.limit then d.checker else (d.ending b).checker
  | _ => {}

/-- Its checker lists problems if and only if it says that there are some. -/
def Loud : RawStream σ → Prop
  | .verifying d => d.checker.Loud
  | _ => True

theorem Loud.checkerAt {raw : RawStream σ} (h : raw.Loud) (b : Bytes) : (raw.checkerAt b).Loud := by
  cases raw with
  | verifying d =>
    show (if len b < d.lim.limit then d.checker else (d.ending b).checker).Loud
    split
    · exact h
    · exact DigestReader.ending_loud h b
  | bare s => exact ⟨by show CheckKind.other ≠ _; decide, fun h => (by cases h), fun h => absurd rfl h⟩
  | limited s => exact ⟨by show CheckKind.other ≠ _; decide, fun h => (by cases h), fun h => absurd rfl h⟩

variable [PyStream σ] {W : σ → Bytes → Prop}

/-- When the archive goes on behind the record, the record is complete. -/
theorem View.complete {d : DigestReader (LimitReader σ)} {b t : Bytes} (h : (RawStream.verifying d).View W b t) (ht : t ≠ []) : d.lim.limit = len b := by
  obtain ⟨_, h1, _, h3⟩ := h
  have h4 := h3.le
  have h2 := h3.short
  rw [h1]
  by_cases h5 : len b < d.lim.stream.limit
  · exact absurd (h2 h5) ht
  · omega

theorem run_verifying {c : Call} {d : DigestReader (LimitReader σ)} {x : Except PyErr Bytes} {raw' : RawStream σ} (h : c.run (RawStream.verifying d) = (x, raw')) :
    ∃ d', raw' = .verifying d' ∧ c.run d = (x, d') := by
  cases c with
  | read n =>
    simp only [Call.run, PyStream.read] at h ⊢
    generalize DigestReader.read d n = y at h ⊢
    obtain ⟨y, d'⟩ := y
    simp only [Prod.mk.injEq] at h
    exact ⟨d', h.2.symm, by rw [h.1]⟩
  | readline n =>
    simp only [Call.run, PyStream.readline] at h ⊢
    generalize DigestReader.readline d n = y at h ⊢
    obtain ⟨y, d'⟩ := y
    simp only [Prod.mk.injEq] at h
    exact ⟨d', h.2.symm, by rw [h.1]⟩

theorem run_other {c : Call} {raw : RawStream σ} {x : Except PyErr Bytes} {raw' : RawStream σ} (h : c.run raw = (x, raw')) (hr : ∀ d, raw ≠ .verifying d) :
    ∀ d, raw' ≠ .verifying d := by
  cases raw with
  | verifying d => exact absurd rfl (hr d)
  | bare s => cases c <;> simp only [Call.run, PyStream.read, PyStream.readline] at h <;> cases h <;> intro d hd <;> cases hd
  | limited s => cases c <;> simp only [Call.run, PyStream.read, PyStream.readline] at h <;> cases h <;> intro d hd <;> cases hd

theorem run_kind {c : Call} {raw : RawStream σ} {x : Except PyErr Bytes} {raw' : RawStream σ} (h : c.run raw = (x, raw')) : (∃ d, raw = .verifying d) ↔ ∃ d, raw' = .verifying d := by
  constructor
  · rintro ⟨d, rfl⟩
    obtain ⟨d', rfl, _⟩ := run_verifying h
    exact ⟨d', rfl⟩
  · rintro ⟨d', rfl⟩
    exact Classical.byContradiction (fun hv => run_other h (fun d hd => hv ⟨d, hd⟩) d' rfl)

theorem endingAt_other {raw : RawStream σ} (hr : ∀ d, raw ≠ .verifying d) (b : Bytes) : raw.endingAt b = none := by
  cases raw with
  | verifying d => exact absurd rfl (hr d)
  | bare s => rfl
  | limited s => rfl

/-- All of the record is there: `b` is as long as it should be. -/
def Full (raw : RawStream σ) (b : Bytes) : Prop := ∀ d, raw = .verifying d → d.lim.limit = len b

theorem View.full {raw : RawStream σ} {b t : Bytes} (h : raw.View W b t) (ht : t ≠ []) : raw.Full b := by
  rintro d rfl
  exact h.complete ht

theorem Full.call {raw raw' : RawStream σ} {b p b' : Bytes} (h : raw.Full b) {c : Call} (hr : c.run raw = (.ok p, raw')) (hb : b = p ++ b') : raw'.Full b' := by
  rintro d' rfl
  by_cases hv : ∃ d, raw = .verifying d
  · obtain ⟨d, rfl⟩ := hv
    obtain ⟨d2, q, hr'⟩ := run_verifying hr
    cases q
    rw [DigestReader.run_limit hr', h d rfl, hb]
    simp only [len, List.length_append]; omega
  · exact absurd rfl (run_other hr (fun d hd => hv ⟨d, hd⟩) d')

theorem Full.begin {raw raw' : RawStream σ} {b : Bytes} (h : raw.Full b) {x : Except PyErr Unit} (hr : Loader.beginPayload raw = (x, raw')) : raw'.Full b := by
  cases raw with
  | bare s => cases hr; intro d hd; cases hd
  | limited s => cases hr; intro d hd; cases hd
  | verifying d =>
    have e : raw' = .verifying d.beginPayload.2 := (congrArg Prod.snd hr).symm
    rintro d' rfl
    cases e
    have : d.beginPayload.2.lim = d.lim := by
      unfold DigestReader.beginPayload
      dsimp only
      split
      · split
        · rfl
        · split <;> rfl
      · rfl
    rw [this]
    exact h d rfl

/-- Reading does not change how it ends. -/
theorem Full.endingAt {raw raw' : RawStream σ} {b p b' : Bytes} (h : raw.Full b) {c : Call} (hc : c.nonneg)
    (hr : c.run raw = (.ok p, raw')) (hb : b = p ++ b') : raw'.endingAt b' = raw.endingAt b := by
  by_cases hv : ∃ d, raw = .verifying d
  · obtain ⟨d, rfl⟩ := hv
    obtain ⟨d', rfl, hr'⟩ := run_verifying hr
    subst hb
    show some (d'.ending b') = some (d.ending _)
    rw [DigestReader.ending_call hc hr' (h d rfl)]
  · have h1 : ∀ d, raw ≠ .verifying d := fun d hd => hv ⟨d, hd⟩
    rw [endingAt_other h1, endingAt_other (run_other hr h1)]

theorem Full.checkerAt_eq {raw : RawStream σ} {b : Bytes} (h : raw.Full b) : raw.checkerAt b = ((raw.endingAt b).map (·.checker)).getD {} := by
  cases raw with
  | bare s => rfl
  | limited s => rfl
  | verifying d =>
    show (if len b < d.lim.limit then d.checker else (d.ending b).checker) = (d.ending b).checker
    rw [if_neg (by rw [h d rfl]; omega)]

/-- Reading does not change the verdict. -/
theorem View.checkerAt {raw raw' : RawStream σ} {b p b' t : Bytes} (h : raw.View W b t) {c : Call} (hc : c.nonneg)
    (hr : c.run raw = (.ok p, raw')) (hb : b = p ++ b') : raw'.checkerAt b' = raw.checkerAt b := by
  by_cases hv : ∃ d, raw = .verifying d
  · obtain ⟨d, rfl⟩ := hv
    by_cases hl : len b < d.lim.limit
    · obtain ⟨d', rfl, hr'⟩ := run_verifying hr
      have h1 := DigestReader.run_limit hr'
      subst hb
      show (if len b' < d'.lim.limit then d'.checker else _) = (if len (p ++ b') < d.lim.limit then d.checker else _)
      simp only [len, List.length_append] at h1 hl ⊢
      rw [if_pos (by omega), if_pos (by omega), DigestReader.run_short hr' (by simp only [len]; omega)]
    · have hf : (RawStream.verifying d).Full b := by
        rintro d' hd
        cases hd
        obtain ⟨_, h1, _, h3⟩ := h
        have := h3.le
        omega
      rw [hf.checkerAt_eq, (hf.call hr hb).checkerAt_eq, hf.endingAt hc hr hb]
  · have h1 : ∀ d, raw ≠ .verifying d := fun d hd => hv ⟨d, hd⟩
    have h2 := run_other hr h1
    cases raw with
    | verifying d => exact absurd rfl (h1 d)
    | bare s => cases raw' with
      | verifying d => exact absurd rfl (h2 d)
      | bare s => rfl
      | limited s => rfl
    | limited s => cases raw' with
      | verifying d => exact absurd rfl (h2 d)
      | bare s => rfl
      | limited s => rfl

/-- The checker is `c`, and `k` bytes of the record are missing. -/
def Lacks (raw : RawStream σ) (k : Int) (c : DigestChecker) (b : Bytes) : Prop := ∀ d, raw = .verifying d → d.lim.limit = len b + k ∧ d.checker = c

theorem Lacks.call {raw raw' : RawStream σ} {k : Int} {ch : DigestChecker} {b p b' : Bytes} (h : raw.Lacks k ch b) (hk : 0 < k) {c : Call} (hr : c.run raw = (.ok p, raw')) (hb : b = p ++ b') :
    raw'.Lacks k ch b' := by
  rintro d' rfl
  by_cases hv : ∃ d, raw = .verifying d
  · obtain ⟨d, rfl⟩ := hv
    obtain ⟨d2, q, hr'⟩ := run_verifying hr
    cases q
    have h1 := DigestReader.run_limit hr'
    obtain ⟨h2, h3⟩ := h d rfl
    subst hb
    simp only [len, List.length_append] at h1 h2 ⊢
    exact ⟨by omega, by rw [DigestReader.run_short hr' (by simp only [len]; omega), h3]⟩
  · exact absurd rfl (run_other hr (fun d hd => hv ⟨d, hd⟩) d')

theorem Lacks.begin {raw raw' : RawStream σ} {k : Int} {ch : DigestChecker} {b : Bytes} (h : raw.Lacks k ch b) (hk : 0 < k) {x : Except PyErr Unit} (hr : Loader.beginPayload raw = (x, raw')) :
    raw'.Lacks k ch b := by
  cases raw with
  | bare s => cases hr; intro d hd; cases hd
  | limited s => cases hr; intro d hd; cases hd
  | verifying d =>
    have e : raw' = .verifying d.beginPayload.2 := (congrArg Prod.snd hr).symm
    rintro d' rfl
    cases e
    obtain ⟨h1, h2⟩ := h d rfl
    have : d.beginPayload.2 = { d with payloadOn := true } := by
      unfold DigestReader.beginPayload
      dsimp only
      rw [if_neg (by simp only [len] at h1; omega)]
    rw [this]
    exact ⟨h1, h2⟩

theorem Lacks.checkerAt {raw : RawStream σ} {k : Int} {ch : DigestChecker} {b : Bytes} (h : raw.Lacks k ch b) (hk : 0 < k) : raw.checkerAt b = ch ∨ raw.checkerAt b = {} := by
  cases raw with
  | bare s => exact .inr rfl
  | limited s => exact .inr rfl
  | verifying d =>
    left
    obtain ⟨h1, h2⟩ := h d rfl
    show (if len b < d.lim.limit then d.checker else _) = _
    rw [if_pos (by omega), h2]

theorem Loud.run {raw raw' : RawStream σ} {c : Call} {x : Except PyErr Bytes} (h : raw.Loud) (hr : c.run raw = (x, raw')) : raw'.Loud := by
  by_cases hv : ∃ d, raw = .verifying d
  · obtain ⟨d, rfl⟩ := hv
    obtain ⟨d', rfl, hr'⟩ := run_verifying hr
    have := DigestReader.run_loud h c
    rw [hr'] at this
    exact this
  · have h1 : ∀ d, raw ≠ .verifying d := fun d hd => hv ⟨d, hd⟩
    have := run_other hr h1
    cases raw' with
    | verifying d => exact absurd rfl (this d)
    | bare s => trivial
    | limited s => trivial

/-- The view of a record's stream that also keeps track of how it ends. -/
def Ends (W : σ → Bytes → Prop) (t : Bytes) (E : Option (DigestReader Unit)) (raw : RawStream σ) (b : Bytes) : Prop :=
  raw.View W b t ∧ raw.endingAt b = E ∧ raw.Loud ∧ raw.Full b

theorem ends_shortLine (hW : ExactRead W) {t : Bytes} (E : Option (DigestReader Unit)) : ShortLine (Ends W t E) where
  readline_none := by
    rintro raw b ⟨h1, h2, h3, h4⟩
    obtain ⟨p, b', raw', k1, k2, k3, k4, k5, k6, _⟩ := h1.call hW (c := .readline none) (by intro n hn; cases hn)
    refine ⟨p, b', raw', k2, ?_, k1, k3, ?_, h3.run k1, h4.call (c := .readline none) k1 k2⟩
    · intro hp
      rcases k6 hp with h | h
      · exact h
      · cases h
    · rw [h4.endingAt (c := .readline none) (by intro n hn; cases hn) k1 k2, h2]
  bound := by rintro raw b ⟨h1, _⟩; exact h1.bound hW

theorem View.unique (hW : ExactRead W) {raw : RawStream σ} {b b' t : Bytes} (h : raw.View W b t) (h' : raw.View W b' t) : b = b' := by
  obtain ⟨_, e1, _⟩ := hW.read_none h.under
  obtain ⟨_, e2, _⟩ := hW.read_none h'.under
  rw [e1] at e2
  simp only [Prod.mk.injEq, Except.ok.injEq] at e2
  exact List.append_cancel_right e2.1

end RawStream

namespace Loader
variable {σ : Type} [PyStream σ] {W : σ → Bytes → Prop} [PyUni] [Hashlib]

theorem loadHttp_short {U : σ → Bytes → Prop} (hU : ShortLine U) {v : Bool} {rt uri : Option Str} {n : Option Int} {s s' : σ} {b : Bytes} (h : U s b)
    {x : Option StatusAndHeaders} (hr : loadHttpHeaders v rt uri n s = (.ok x, s')) : ∃ p b', b = p ++ b' ∧ U s' b' := by
  have key : ∀ (c : HeaderParser) y, c.parse s = (y, s') → ∃ p b', b = p ++ b' ∧ U s' b' := by
    intro c y hy
    obtain ⟨x, p, b', s2, k1, k2, k3, _⟩ := HeaderParser.parse_short hU c h
    rw [hy] at k1
    cases k1
    exact ⟨p, b', k2, k3⟩
  have same : s = s' → ∃ p b', b = p ++ b' ∧ U s' b' := by rintro rfl; exact ⟨[], b, rfl, h⟩
  unfold loadHttpHeaders at hr
  split at hr
  · exact same (congrArg Prod.snd hr)
  · split at hr
    · exact same (congrArg Prod.snd hr)
    · split at hr
      · exact same (congrArg Prod.snd hr)
      · split at hr
        · cases hr
        · split at hr
          · exact same (congrArg Prod.snd hr)
          · split at hr
            · split at hr
              · rename_i hp; cases hr; exact key _ _ hp
              · cases hr
            · split at hr
              · rename_i hp; cases hr; exact key _ _ hp
              · rename_i hp
                split at hr
                · cases hr; exact key _ _ hp
                · cases hr

/-- What is to be said of a record that lacks some of its block: nothing is verified; it is only known whether the digests are of a known kind. -/
def CutVerdict (checked : Bool) (rt sg bh ph : Option Str) (v : Option Bool) : Prop :=
  v = if checked && (unknownAlgo (DigestReader.effBlock rt bh) || unknownAlgo (DigestReader.effPayload rt ph sg)) then some false else none

/-- A record that lacks some of its block is not verified. -/
theorem load_lacks (hW : ExactRead W) {o : LoadOpts} {s s1 : σ} {st : Option Line} {f : HeadFormat} {h : StatusAndHeaders} {block : Bytes} {n : Int}
    (hd : detectType o s st = (.ok (f, h), s1)) (hs : W s1 block) (hc : ChecksFine o (fields f h)) (hn : len block < n)
    (hlen : blockLength (fields f h).length (fields f h).subLen = some n) {rec : Record (RawStream σ)} {s2 : σ}
    (hp : parseRecordStream o s st = (.ok rec, s2)) {left : Bytes} (hv : rec.rawStream.View W left []) :
    CutVerdict o.checkDigests.isSome (fields f h).recType ((fields f h).headers.getHeader (lit "WARC-Segment-Number"))
      ((fields f h).headers.getHeader (lit "WARC-Block-Digest")) ((fields f h).headers.getHeader (lit "WARC-Payload-Digest"))
      (rec.rawStream.checkerAt left).passed ∧ (rec.rawStream.checkerAt left).Loud := by
  obtain ⟨raw0, w1, w2, w3, w4⟩ := wrap_spec hc (fun n hn => blockLength_nonneg (hlen.trans hn)) hs
  have e0 : blockOf (some n) block = (block, []) := by
    simp only [len] at hn
    simp only [blockOf]
    rw [List.take_of_length_le (by omega), List.drop_eq_nil_of_le (by omega)]
  rw [e0] at w2
  have hk0 : 0 < n - len block := by omega
  have hU : ∀ c, ShortLine (fun (raw : RawStream σ) (b : Bytes) => raw.View W b [] ∧ raw.Lacks (n - len block) c b ∧ raw.isLimited = raw0.isLimited ∧ raw.Loud ∧ ((∃ d, raw0 = .verifying d) ↔ ∃ d, raw = .verifying d)) := by
    intro c
    refine ⟨?_, fun h => h.1.bound hW⟩
    rintro raw b ⟨h1, h2, h3, h4, h5⟩
    obtain ⟨p, b', raw', k1, k2, k3, k4, k5, k6, _⟩ := h1.call hW (c := .readline none) (by intro n hn; cases hn)
    refine ⟨p, b', raw', k2, ?_, k1, k3, h2.call hk0 (c := .readline none) k1 k2, k4.trans h3, h4.run (c := .readline none) k1, h5.trans (RawStream.run_kind (c := .readline none) k1)⟩
    intro hp
    rcases k6 hp with h | h
    · exact h
    · cases h
  have key : ∀ c, raw0.Lacks (n - len block) c block → raw0.Loud → rec.rawStream.Lacks (n - len block) c left ∧ rec.rawStream.Loud ∧ ((∃ d, raw0 = .verifying d) ↔ ∃ d, rec.rawStream = .verifying d) := by
    intro c h0 hl0
    unfold parseRecordStream at hp
    rw [hd] at hp
    simp only [hlen] at hp
    rw [w1] at hp
    dsimp only at hp
    generalize hx : (if o.noRecordParse then (.ok none, raw0) else loadHttpHeaders o.verifyHttp (fields f h).recType (fields f h).uri (some n) raw0 :
      Except PyErr (Option StatusAndHeaders) × RawStream σ) = x at hp
    obtain ⟨x, raw'⟩ := x
    cases x with
    | error e => cases hp
    | ok http =>
      dsimp only at hp
      generalize hy : beginPayload raw' = y at hp
      obtain ⟨y, raw2⟩ := y
      cases y with
      | error e => cases hp
      | ok u =>
        cases hp
        obtain ⟨p, b', m1, m2, m3, m4, m5, m6⟩ : ∃ p b', block = p ++ b' ∧ raw'.View W b' [] ∧ raw'.Lacks (n - len block) c b' ∧ raw'.isLimited = raw0.isLimited ∧ raw'.Loud ∧ ((∃ d, raw0 = .verifying d) ↔ ∃ d, raw' = .verifying d) := by
          split at hx
          · cases hx; exact ⟨[], block, rfl, w2, h0, rfl, hl0, Iff.rfl⟩
          · exact loadHttp_short (hU c) ⟨w2, h0, rfl, hl0, Iff.rfl⟩ hx
        obtain ⟨raw3, n1, n2, _⟩ := m2.begin
        rw [hy] at n1
        cases n1
        have := hv.unique hW n2
        subst this
        refine ⟨m3.begin hk0 hy, ?_, ?_⟩
        · cases raw' with
          | verifying d =>
            have := DigestReader.begin_loud (d := d) m5
            have e : raw2 = .verifying d.beginPayload.2 := (congrArg Prod.snd hy).symm
            show raw2.Loud
            rw [e]; exact this
          | bare s => cases hy; trivial
          | limited s => cases hy; trivial
        · refine m6.trans ?_
          cases raw' with
          | verifying d => exact ⟨fun _ => ⟨_, (congrArg Prod.snd hy).symm⟩, fun _ => ⟨d, rfl⟩⟩
          | bare s => cases hy; exact Iff.rfl
          | limited s => cases hy; exact Iff.rfl
  have hn0 : (0 : Int) ≤ n := by simp only [len] at hn; omega
  unfold wrap at w1
  simp only [LimitReader.wrapStream, if_pos hn0] at w1
  unfold CutVerdict
  split at w1
  · rename_i hcd
    rw [Bool.and_eq_true] at hcd
    rcases hc with hc | ⟨hc1, hc2⟩
    · rw [hc] at hcd; simp at hcd
    have hk : o.checkDigests.getD .other ≠ .raise := by
      cases ho : o.checkDigests with
      | none => rw [ho] at hcd; simp at hcd
      | some k => intro hh; apply hc1; rw [ho]; simp only [Option.getD_some] at hh; rw [hh]
    generalize hg : DigestReader.new _ _ _ _ _ _ _ = y at w1
    obtain ⟨y, c⟩ := y
    cases y with
    | error e => cases w1
    | ok d =>
      have hl := DigestReader.new_loud hk hg
      rcases DigestReader.new_cases (LimitReader.mk' s1 n) n (o.checkDigests.getD .other) (fields f h).recType
        ((fields f h).headers.getHeader (lit "WARC-Payload-Digest")) ((fields f h).headers.getHeader (lit "WARC-Block-Digest"))
        ((fields f h).headers.getHeader (lit "WARC-Segment-Number")) with ⟨h1, _⟩ | ⟨_, c, hnew, hck, hcp⟩
      · exact absurd h1 hk
      rw [hg] at hnew
      cases hnew
      cases w1
      obtain ⟨q1, q2, q3⟩ := key c (by rintro d hd; cases hd; exact ⟨by show n = _; omega, rfl⟩) hl
      refine ⟨?_, q2.checkerAt _⟩
      obtain ⟨d, q3⟩ := q3.1 ⟨_, rfl⟩
      rw [q3] at q1 ⊢
      obtain ⟨g1, g2⟩ := q1 d rfl
      have : (RawStream.verifying d).checkerAt left = c := by
        show (if len left < d.lim.limit then d.checker else _) = _
        rw [if_pos (by omega), g2]
      rw [this, hcp, hcd.1, Bool.true_and]
  · rename_i hcd
    cases w1
    obtain ⟨q1, q2, q3⟩ := key {} (by rintro d hd; cases hd) trivial
    refine ⟨?_, q2.checkerAt _⟩
    have : (rec.rawStream.checkerAt left).passed = none := by
      cases hraw : rec.rawStream with
      | verifying d => obtain ⟨d', hd'⟩ := q3.2 ⟨d, hraw⟩; cases hd'
      | bare s => rfl
      | limited s => rfl
    rw [this, if_neg]
    intro hu
    apply hcd
    rw [Bool.and_eq_true] at hu ⊢
    refine ⟨hu.1, ?_⟩
    rw [Bool.or_eq_true] at hu ⊢
    rcases hu.2 with h1 | h1
    · right
      unfold DigestReader.effBlock at h1
      split at h1
      · cases h1
      · cases hb : (fields f h).headers.getHeader (lit "WARC-Block-Digest") with
        | none => rw [hb] at h1; cases h1
        | some x => rw [hb] at h1; cases x <;> first | rfl | cases h1
    · left
      unfold DigestReader.effPayload at h1
      split at h1
      · cases h1
      · split at h1
        · cases h1
        · cases hb : (fields f h).headers.getHeader (lit "WARC-Payload-Digest") with
          | none => rw [hb] at h1; cases h1
          | some x => rw [hb] at h1; cases x <;> first | rfl | cases h1

/-- The verdict on a loaded record. -/
theorem load_verdict (hW : ExactRead W) {o : LoadOpts} {s s1 : σ} {st : Option Line} {f : HeadFormat} {h : StatusAndHeaders} {block t : Bytes}
    (hd : detectType o s st = (.ok (f, h), s1)) (hs : W s1 (block ++ t)) (hc : ChecksFine o (fields f h))
    (hlen : blockLength (fields f h).length (fields f h).subLen = some (len block)) {rec : Record (RawStream σ)} {s2 : σ}
    (hp : parseRecordStream o s st = (.ok rec, s2)) {left : Bytes} (hv : rec.rawStream.View W left t) :
    Judged o.checkDigests.isSome (fields f h).recType ((fields f h).headers.getHeader (lit "WARC-Segment-Number"))
      ((fields f h).headers.getHeader (lit "WARC-Block-Digest")) ((fields f h).headers.getHeader (lit "WARC-Payload-Digest")) block left
      (rec.rawStream.checkerAt left).passed ∧ (rec.rawStream.checkerAt left).Loud := by
  obtain ⟨raw0, w1, w2, w3, w4⟩ := wrap_spec hc (fun n hn => blockLength_nonneg (hlen.trans hn)) hs
  have e1 : (blockOf (some (len block)) (block ++ t)).1 = block := by simp [blockOf, len]
  have e2 : (blockOf (some (len block)) (block ++ t)).2 = t := by simp [blockOf, len]
  rw [e1, e2] at w2
  obtain ⟨http, raw', raw2, l1, l2, l3⟩ : ∃ http raw' raw2,
      (if o.noRecordParse then (.ok none, raw0) else loadHttpHeaders o.verifyHttp (fields f h).recType (fields f h).uri (some (len block)) raw0) =
        ((.ok http, raw') : Except PyErr (Option StatusAndHeaders) × RawStream σ) ∧ beginPayload raw' = (.ok (), raw2) ∧ rec.rawStream = raw2 := by
    unfold parseRecordStream at hp
    rw [hd] at hp
    simp only [hlen] at hp
    rw [w1] at hp
    dsimp only at hp
    generalize (if o.noRecordParse then (.ok none, raw0) else loadHttpHeaders o.verifyHttp (fields f h).recType (fields f h).uri (some (len block)) raw0 :
      Except PyErr (Option StatusAndHeaders) × RawStream σ) = x at hp ⊢
    obtain ⟨x, raw'⟩ := x
    cases x with
    | error e => cases hp
    | ok http =>
      dsimp only at hp
      generalize hy : beginPayload raw' = y at hp
      obtain ⟨y, raw2⟩ := y
      cases y with
      | error e => cases hp
      | ok u => cases hp; exact ⟨http, raw', raw2, rfl, hy, rfl⟩
  have hloud : raw0.Loud := by
    unfold wrap at w1
    have hn : (0 : Int) ≤ len block := by simp [len]
    simp only [LimitReader.wrapStream, if_pos hn] at w1
    split at w1
    · rename_i hcd
      have hk : o.checkDigests.getD .other ≠ .raise := by
        rcases hc with hc | ⟨hc1, _⟩
        · rw [hc] at hcd; simp at hcd
        · cases ho : o.checkDigests with
          | none => rw [ho] at hcd; simp at hcd
          | some k => intro hh; apply hc1; rw [ho]; simp only [Option.getD_some] at hh; rw [hh]
      generalize hg : DigestReader.new _ _ _ _ _ _ _ = y at w1
      obtain ⟨y, c⟩ := y
      cases y with
      | error e => cases w1
      | ok d => cases w1; exact DigestReader.new_loud hk hg
    · cases w1; trivial
  have hfull : raw0.Full block := by
    unfold wrap at w1
    have hn : (0 : Int) ≤ len block := by simp [len]
    simp only [LimitReader.wrapStream, if_pos hn] at w1
    split at w1
    · generalize hg : DigestReader.new _ _ _ _ _ _ _ = y at w1
      obtain ⟨y, c⟩ := y
      cases y with
      | error e => cases w1
      | ok d =>
        cases w1
        rintro d' hd'
        cases hd'
        obtain ⟨_, h1, _⟩ := w2
        rcases DigestReader.new_cases (LimitReader.mk' s1 (len block)) (len block) (o.checkDigests.getD .other) (fields f h).recType
          ((fields f h).headers.getHeader (lit "WARC-Payload-Digest")) ((fields f h).headers.getHeader (lit "WARC-Block-Digest"))
          ((fields f h).headers.getHeader (lit "WARC-Segment-Number")) with ⟨_, _, he⟩ | ⟨_, c', hnew, _⟩
        · rw [hg] at he; cases he
        · rw [hg] at hnew; cases hnew; rfl
    · cases w1; intro d hd; cases hd
  have hstart : RawStream.Ends W t (raw0.endingAt block) raw0 block := ⟨w2, rfl, hloud, hfull⟩
  obtain ⟨p, b', m1, m2, m3, m4, m5⟩ : ∃ p b', block = p ++ b' ∧ RawStream.Ends W t (raw0.endingAt block) raw' b' := by
    split at l1
    · cases l1; exact ⟨[], block, rfl, hstart⟩
    · exact loadHttp_short (RawStream.ends_shortLine hW _) hstart l1
  obtain ⟨raw3, n1, n2, _⟩ := m2.begin
  rw [l2] at n1
  cases n1
  rw [l3] at hv ⊢
  have := hv.unique hW n2
  subst this
  have hfull2 : raw2.Full left := m5.begin l2
  have hloud2 : raw2.Loud := by
    cases raw' with
    | verifying d =>
      have := DigestReader.begin_loud (d := d) m4
      have e : raw2 = .verifying d.beginPayload.2 := (congrArg Prod.snd l2).symm
      rw [e]; exact this
    | bare s => cases l2; trivial
    | limited s => cases l2; trivial
  refine ⟨?_, hloud2.checkerAt _⟩
  clear hv hp hd l1 l3 hstart w4 hloud hloud2
  unfold wrap at w1
  have hn : (0 : Int) ≤ len block := by simp [len]
  simp only [LimitReader.wrapStream, if_pos hn] at w1
  split at w1
  · rename_i hcd
    rw [Bool.and_eq_true] at hcd
    rcases hc with hc | ⟨hc1, hc2⟩
    · rw [hc] at hcd; simp at hcd
    have hk : o.checkDigests.getD .other ≠ .raise := by
      cases ho : o.checkDigests with
      | none => rw [ho] at hcd; simp at hcd
      | some k => intro hh; apply hc1; rw [ho]; simp only [Option.getD_some] at hh; rw [hh]
    rcases DigestReader.new_cases (LimitReader.mk' s1 (len block)) (len block) (o.checkDigests.getD .other) (fields f h).recType
      ((fields f h).headers.getHeader (lit "WARC-Payload-Digest")) ((fields f h).headers.getHeader (lit "WARC-Block-Digest"))
      ((fields f h).headers.getHeader (lit "WARC-Segment-Number")) with ⟨h, _⟩ | ⟨_, c, hnew, hck, hcp⟩
    · exact absurd h hk
    rw [hnew] at w1
    cases w1
    refine ⟨fun h0 => (by rw [h0] at hcd; cases hcd.1), ?_⟩
    intro _ ob op hob hop
    rw [DigestReader.lookedAt_eq] at hob hop
    obtain ⟨cb, b1, b2⟩ : ∃ cb, (block ≠ [] → compareDigest (digOf (DigestReader.effBlock (fields f h).recType ((fields f h).headers.getHeader (lit "WARC-Block-Digest"))) block)
        (DigestReader.effBlock (fields f h).recType ((fields f h).headers.getHeader (lit "WARC-Block-Digest"))) = .ok cb) ∧
        (block ≠ [] → ob = (if unknownAlgo (DigestReader.effBlock (fields f h).recType ((fields f h).headers.getHeader (lit "WARC-Block-Digest"))) then some false else cb) ∧
          (unknownAlgo (DigestReader.effBlock (fields f h).recType ((fields f h).headers.getHeader (lit "WARC-Block-Digest"))) = true → cb = none)) := by
      cases hob with
      | compared _ h1 h2 =>
        obtain ⟨cb, b1, b2, b3⟩ := outcome_compare h2
        exact ⟨cb, fun _ => b1, fun _ => ⟨b2, b3⟩⟩
      | passed_over h1 _ => exact ⟨none, fun h => absurd h1 h, fun h => absurd h1 h⟩
      | unusable h1 _ => exact ⟨none, fun h => absurd h1 h, fun h => absurd h1 h⟩
    obtain ⟨cp, p1, p2, p3⟩ := outcome_compare hop
    have hH := DigestReader.headed_start (σ := LimitReader σ) (b := block) (cb := cb) (d := { lim := LimitReader.mk' (LimitReader.mk' s1 (len block)) (len block), checker := c, payloadDigest := DigestReader.effPayload (fields f h).recType ((fields f h).headers.getHeader (lit "WARC-Payload-Digest")) ((fields f h).headers.getHeader (lit "WARC-Segment-Number")), blockDigest := DigestReader.effBlock (fields f h).recType ((fields f h).headers.getHeader (lit "WARC-Block-Digest")), payloadDigester := digOf (DigestReader.effPayload (fields f h).recType ((fields f h).headers.getHeader (lit "WARC-Payload-Digest")) ((fields f h).headers.getHeader (lit "WARC-Segment-Number"))) [], blockDigester := digOf (DigestReader.effBlock (fields f h).recType ((fields f h).headers.getHeader (lit "WARC-Block-Digest"))) [] })
      hk hck rfl rfl rfl rfl rfl hcp b1
    obtain ⟨d', rfl⟩ : ∃ d', raw' = .verifying d' := by
      cases raw' with
      | verifying d' => exact ⟨d', rfl⟩
      | bare s => cases m3
      | limited s => cases m3
    have m3' := Option.some.inj m3
    rw [← m3'] at hH
    have hfin := DigestReader.ending_begin (d := d') m2.1.kind hH (m5 d' rfl) b1 (by rintro rfl; exact (List.append_eq_nil_iff.1 m1.symm).2) p1
    have hr2 : raw2 = .verifying d'.beginPayload.2 := by
      unfold beginPayload at l2
      exact (congrArg Prod.snd l2).symm
    rw [hr2]
    rw [hr2] at hfull2
    rw [hfull2.checkerAt_eq]
    show (d'.beginPayload.2.ending left).checker.passed = _
    rw [hfin]
    by_cases hb0 : block = []
    · rw [if_pos hb0]
      rw [hb0] at hob
      have := DigestReader.overall_merge (ub := unknownAlgo (DigestReader.effBlock (fields f h).recType ((fields f h).headers.getHeader (lit "WARC-Block-Digest")))) (cb := none) (cp := cp) (up := unknownAlgo (DigestReader.effPayload (fields f h).recType ((fields f h).headers.getHeader (lit "WARC-Payload-Digest")) ((fields f h).headers.getHeader (lit "WARC-Segment-Number")))) (fun _ => rfl) p3
      rw [hob.of_nil, p2, ← this]
      rfl
    · rw [if_neg hb0, (b2 hb0).1, p2]
      exact DigestReader.overall_merge (b2 hb0).2 p3
  · rename_i hcd
    cases w1
    have hE : (raw2.checkerAt left).passed = none := by
      have : ∀ d, raw' ≠ .verifying d := by rintro d rfl; cases m3
      have hr2 : raw2 = raw' := by
        cases raw' with
        | verifying d => exact absurd rfl (this d)
        | bare s => cases l2; rfl
        | limited s => cases l2; rfl
      rw [hfull2.checkerAt_eq, hr2, m3]
      rfl
    rw [hE]
    refine ⟨fun _ => rfl, ?_⟩
    intro hck ob op hob hop
    have hnone : ∀ (v : Option Str) data x, Loader.truthy v = false → Outcome data v x → x = none := by
      intro v data x hv ho
      cases ho with
      | absent => rfl
      | empty => rfl
      | noColon h h1 _ => cases h <;> simp_all [Loader.truthy]
      | unknown algo v => cases algo <;> simp [Loader.truthy] at hv
      | good algo v => cases algo <;> simp [Loader.truthy] at hv
      | bad algo v => cases algo <;> simp [Loader.truthy] at hv
    rw [hck] at hcd
    simp only [Bool.true_and, Bool.not_eq_true, Bool.or_eq_false_iff] at hcd
    have h1 : ob = none := by
      have hv : Loader.truthy (lookedAt (fields f h).recType ((fields f h).headers.getHeader (lit "WARC-Segment-Number"))
          ((fields f h).headers.getHeader (lit "WARC-Block-Digest")) ((fields f h).headers.getHeader (lit "WARC-Payload-Digest"))).1 = false := by
        unfold lookedAt
        split
        · rfl
        · split <;> exact hcd.2
      cases hob with
      | compared _ _ h2 => exact hnone _ _ _ hv h2
      | passed_over _ _ => rfl
      | unusable _ h2 =>
        obtain ⟨x, g1, g2, -⟩ := h2
        rw [g1] at hv
        cases x with
        | nil => exact absurd rfl g2
        | cons _ _ => cases hv
    have h2 : op = none := by
      unfold lookedAt at hop
      split at hop
      · cases hop; rfl
      · split at hop
        · cases hop; rfl
        · exact hnone _ _ _ hcd.1 hop
    rw [h1, h2]
    rfl

end Loader
end Warcio
