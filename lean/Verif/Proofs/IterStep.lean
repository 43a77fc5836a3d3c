import Verif.Proofs.Iterate
import Verif.Proofs.LoadRecord

/-! # One record: loading it, reading it to its end, and the blank lines behind it -/

set_option linter.unusedSectionVars false

namespace Warcio

open Loader

section
variable {σ : Type}

theorem RawStream.under_setUnder (raw : RawStream σ) (s : σ) : (raw.setUnder s).under = s := by cases raw <;> rfl

theorem RawStream.setUnder_setUnder (raw : RawStream σ) (s s' : σ) : (raw.setUnder s).setUnder s' = raw.setUnder s' := by cases raw <;> rfl

theorem ArchiveIter.reader_setReader (it : ArchiveIter σ) (r : BufReader σ) : (it.setReader r).reader = r := RawStream.under_setUnder _ _

theorem ArchiveIter.setReader_setReader (it : ArchiveIter σ) (r r' : BufReader σ) : (it.setReader r).setReader r' = it.setReader r' := by
  simp only [ArchiveIter.setReader, RawStream.setUnder_setUnder]

end

namespace RawStream
variable {σ : Type} [PyStream σ] [Hashlib] {W : σ → Bytes → Prop}

/-- Nothing of the block is left: calls do not reach the archive stream. -/
def Spent : RawStream σ → Prop
  | .bare _ => False
  | .limited r => r.limit = 0
  | .verifying d => DigestReader.Tame d ∧ d.lim.limit = 0

theorem spent_of_view {raw : RawStream σ} {t : Bytes} (h : raw.View W [] t) (ht : t ≠ []) : raw.Spent := by
  cases raw with
  | bare s => exact ht h.2
  | limited r =>
    have h1 := h.le
    have h2 := h.short
    simp only [len, List.length_nil] at h1 h2
    show r.limit = 0
    by_cases h3 : r.limit = 0
    · exact h3
    · exact absurd (h2 (by omega)) ht
  | verifying d =>
    obtain ⟨h0, h1, _, h3⟩ := h
    have h4 := h3.le
    have h2 := h3.short
    simp only [len, List.length_nil] at h4 h2
    refine ⟨h0, ?_⟩
    rw [h1]
    by_cases h3 : d.lim.stream.limit = 0
    · exact h3
    · exact absurd (h2 (by omega)) ht

theorem checkerAt_setUnder (raw : RawStream σ) (s : σ) (b : Bytes) : (raw.setUnder s).checkerAt b = raw.checkerAt b := by
  cases raw <;> rfl

theorem spent_setUnder {raw : RawStream σ} (h : raw.Spent) (s : σ) : (raw.setUnder s).Spent := by
  cases raw with
  | bare s => exact h
  | limited r => exact h
  | verifying d => obtain ⟨⟨h1, h2, h3, h4, h5⟩, h6⟩ := h; exact ⟨⟨h1, h2, h3, h4, h5⟩, h6⟩

theorem LimitReader.run_zero {τ : Type} [PyStream τ] {r : LimitReader τ} (h : r.limit = 0) {c : Call} (hc : c.nonneg) : c.run r = (.ok [], r) := by
  have : r.clampLen c.arg = 0 := by
    unfold LimitReader.clampLen
    cases hh : c.arg with
    | none => exact h
    | some n => have := hc n hh; simp only; omega
  cases c <;> simp only [Call.arg] at this <;>
    simp [Call.run, PyStream.read, PyStream.readline, LimitReader.read, LimitReader.readline, this]

theorem checkerAt_nil (d : DigestReader (LimitReader σ)) : (RawStream.verifying d).checkerAt [] = d.checker := by
  show (if len [] < d.lim.limit then d.checker else (d.ending []).checker) = _
  split
  · rfl
  · simp [DigestReader.ending, DigestReader.core]

theorem spent_call {raw : RawStream σ} (h : raw.Spent) {c : Call} (hc : c.nonneg) :
    ∃ raw', c.run raw = (.ok [], raw') ∧ raw'.Spent ∧ raw'.under = raw.under ∧ raw'.checkerAt [] = raw.checkerAt [] := by
  cases raw with
  | bare s => exact h.elim
  | limited r =>
    have := LimitReader.run_zero h hc
    refine ⟨.limited r, ?_, h, rfl, rfl⟩
    cases c <;> simp only [Call.run] at this <;> simp [Call.run, PyStream.read, PyStream.readline] <;>
      simp only [PyStream.read, PyStream.readline] at this <;> rw [this] <;> simp
  | verifying d =>
    obtain ⟨h1, h2⟩ := h
    obtain ⟨t1, t2, t3⟩ := DigestReader.tame_call h1 c
    have := LimitReader.run_zero h2 hc
    rw [this] at t1 t2
    refine ⟨.verifying (c.run d).2, ?_, ⟨t3, by rw [t2]; exact h2⟩, by simp only [under]; rw [t2], ?_⟩
    · cases c <;> simp only [Call.run, PyStream.read, PyStream.readline] at t1 ⊢ <;> rw [← t1]
    · have he : (c.run d).2.ending [] = d.ending [] := DigestReader.ending_call (p := []) (b' := []) (d := d) hc (Prod.ext t1 rfl) h2
      rw [checkerAt_nil, checkerAt_nil]
      simp only [DigestReader.ending, if_true] at he
      exact congrArg (fun x : DigestReader Unit => x.checker) he

end RawStream

theorem takeLine_append_of_nl {a : Bytes} (h : (10 : UInt8) ∈ a) (b : Bytes) : takeLine (a ++ b) = takeLine a := by
  rw [takeLine_append, if_pos h]

theorem dropLine_append_of_nl {a : Bytes} (h : (10 : UInt8) ∈ a) (b : Bytes) : dropLine (a ++ b) = dropLine a ++ b := by
  rw [← drop_takeLine_length, takeLine_append_of_nl h, List.drop_append_of_le_length (takeLine_length_le a), drop_takeLine_length]

/-- The bytes of a record: header block, block, and what separates it from the next record. -/
structure Item where
  head : Bytes
  block : Bytes
  sep : Bytes

def Item.bytes (i : Item) : Bytes := i.head ++ (i.block ++ i.sep)

section
variable [PyUni] [Hashlib]

/-- The loader takes `i.head` for a header block `h` of format `f` that declares `i.block`, and
nothing it does then raises; `t` follows. -/
structure Loads (o : LoadOpts) (i : Item) (t : Bytes) (f : HeadFormat) (h : StatusAndHeaders) : Prop where
  nl : (10 : UInt8) ∈ i.head
  notBlank : rstripBytes (takeLine i.head) ≠ []
  det : ∃ ls, detectLines o (decodeHeader (takeLine (i.head ++ (i.block ++ t)))) (splitLines (dropLine (i.head ++ (i.block ++ t)))) = (.ok (f, h), ls) ∧
    ls.flatten = i.block ++ t
  length : blockLength (fields f h).length (fields f h).subLen = some (len i.block)
  uri : i.block = [] ∨ o.noRecordParse = true ∨ (HttpType (fields f h).recType → (fields f h).uri ≠ none)
  checks : ChecksFine o (fields f h)
  verify : o.verifyHttp = false

variable {σ : Type} [PyStream σ] {W : σ → Bytes → Prop}

/-- The archive stream stands before `data`, or the first line of `data` has been read already. -/
def ReadyAt (W : σ → Bytes → Prop) (s : σ) (st : Option Bytes) (data : Bytes) : Prop :=
  (st = none ∧ W s data) ∨ (st = some (takeLine data) ∧ data ≠ [] ∧ W s (dropLine data))

theorem detect_at (hL : LineRead W) (o : LoadOpts) {s : σ} {st : Option Bytes} {data : Bytes} (h : ReadyAt W s st data) :
    ∃ s', detectType o s (st.map .bytes) = ((detectLines o (decodeHeader (takeLine data)) (splitLines (dropLine data))).1, s') ∧
      W s' (detectLines o (decodeHeader (takeLine data)) (splitLines (dropLine data))).2.flatten := by
  rcases h with ⟨rfl, h⟩ | ⟨rfl, _, h⟩
  · exact detect_stream hL o h
  · obtain ⟨s', h1, h2⟩ := detectType_line_spec hL o (.bytes (takeLine data)) (s := s) ⟨_, h, rfl⟩
    exact ⟨s', h1, HeaderParser.LV.flatten h2⟩

/-- What is parsed from a block whose header lines are short enough. -/
theorem parse_head (hW : ExactRead W) {m : Nat} (hX : LineLaw W m) {c : HeaderParser} (hv : c.verify = false) {raw raw' : RawStream σ}
    {b b' t : Bytes} (h : raw.View W b t) (hb : HeadWithin m b) (h0 : lineText (takeLine b) ≠ []) {hd : StatusAndHeaders}
    (hp : c.parse raw = (.ok hd, raw')) (h' : raw'.View W b' t) : HttpHead b hd b' := by
  obtain ⟨raw2, k1, k2⟩ := HeaderParser.parse_block (RawStream.blockRead hW hX t) c (s := raw) ⟨b, ⟨h, hb⟩, rfl⟩
  rw [hp] at k1
  simp only [Prod.mk.injEq] at k1
  obtain ⟨k1, rfl⟩ := k1
  have k2 := HeaderParser.LV.flatten k2
  have hne : b ≠ [] := by rintro rfl; exact h0 rfl
  rw [splitLines_cons hne] at k1 k2
  have e1 := hW.read_none k2.under
  have e2 := hW.read_none h'.under
  obtain ⟨_, e1, _⟩ := e1
  obtain ⟨_, e2, _⟩ := e2
  rw [e1] at e2
  simp only [Prod.mk.injEq, Except.ok.injEq] at e2
  have e3 := List.append_cancel_right e2.1
  simp only [HeaderParser.parseAll] at k1 e3
  have e4 : ¬ rstrip (decodeHeader (takeLine b)) = [] := h0
  unfold HeaderParser.parseLines at k1 e3
  rw [if_neg (decode_ne hne), if_neg e4] at k1 e3
  unfold HeaderParser.protocolStatus at k1 e3
  rw [hv] at k1 e3
  simp only [Bool.false_eq_true, if_false] at k1 e3
  cases k1
  exact ⟨h0, rfl, rfl, rfl, e3.symm⟩

/-- Loading a record of the archive.  The archive may end before the declared length `n` is reached. -/
theorem load_part (hW : ExactRead W) {m : Nat} (hX : LineLaw W m) {o : LoadOpts} {i : Item} {t : Bytes} {f : HeadFormat} {h : StatusAndHeaders} {n : Int}
    (hdet : ∃ ls, detectLines o (decodeHeader (takeLine (i.head ++ (i.block ++ t)))) (splitLines (dropLine (i.head ++ (i.block ++ t)))) = (.ok (f, h), ls) ∧ ls.flatten = i.block ++ t)
    (hlen : blockLength (fields f h).length (fields f h).subLen = some n) (hle : len i.block ≤ n) (hcut : len i.block < n → t = [])
    (huri : n = 0 ∨ o.noRecordParse = true ∨ (HttpType (fields f h).recType → (fields f h).uri ≠ none))
    (hsome : i.block = [] → n = 0 ∨ o.noRecordParse = true ∨ ¬ HttpRecord (fields f h).recType (fields f h).uri ∨ (fields f h).recType = some (lit "revisit")) (hchecks : ChecksFine o (fields f h)) (hver : o.verifyHttp = false)
    {s : σ} {st : Option Bytes} (hs : ReadyAt W s st (i.head ++ (i.block ++ t))) :
    ∃ rec pre left, parseRecordStream o s (st.map .bytes) = (.ok rec, rec.rawStream.under) ∧
      Loaded o (fields f h) (some n) rec ∧ i.block = pre ++ left ∧ rec.rawStream.View W left t ∧
      (rec.payloadLength = some (-1) ∨ rec.payloadLength = some (len left + (n - len i.block))) ∧
      (o.noRecordParse = true ∨ ¬ HttpRecord (fields f h).recType (fields f h).uri ∨ i.block = [] → pre = [] ∧ rec.payloadLength = some (-1) ∧
        rec.httpHeaders = if o.ensureHttpHeaders then some (defaultHttpHeaders (some n) (fields f h).contentType) else none) ∧
      (o.noRecordParse = false → HttpRecord (fields f h).recType (fields f h).uri → HeadWithin m i.block → lineText (takeLine i.block) ≠ [] →
        ∃ hd, HttpHead i.block hd left ∧ (hd.statusline ≠ [] ∨ hd.headers ≠ [] → rec.httpHeaders = some hd ∧ rec.payloadLength = some (len left + (n - len i.block)))) ∧
      (n = len i.block → Judged o.checkDigests.isSome (fields f h).recType ((fields f h).headers.getHeader (lit "WARC-Segment-Number"))
        ((fields f h).headers.getHeader (lit "WARC-Block-Digest")) ((fields f h).headers.getHeader (lit "WARC-Payload-Digest")) i.block left
        (rec.rawStream.checkerAt left).passed) ∧
      (len i.block < n → CutVerdict o.checkDigests.isSome (fields f h).recType ((fields f h).headers.getHeader (lit "WARC-Segment-Number"))
        ((fields f h).headers.getHeader (lit "WARC-Block-Digest")) ((fields f h).headers.getHeader (lit "WARC-Payload-Digest"))
        (rec.rawStream.checkerAt left).passed) ∧ (rec.rawStream.checkerAt left).Loud := by
  obtain ⟨ls, d1, d2⟩ := hdet
  obtain ⟨s1, k1, k2⟩ := detect_at hW.lineRead o hs
  rw [d1] at k1 k2
  simp only at k1 k2
  rw [d2] at k2
  have e0 : blockOf (some n) (i.block ++ t) = (i.block, t) := by
    by_cases hc : len i.block < n
    · rw [hcut hc]
      simp only [len] at hc
      simp only [blockOf, List.append_nil]
      rw [List.take_of_length_le (by omega), List.drop_eq_nil_of_le (by omega)]
    · have : n = len i.block := by omega
      rw [this]; simp [blockOf, len]
  have e1 : (blockOf (some n) (i.block ++ t)).1 = i.block := by rw [e0]
  have e2 : (blockOf (some n) (i.block ++ t)).2 = t := by rw [e0]
  have hver2 : ∀ {rec : Record (RawStream σ)} {s2 : σ} {left : Bytes}, parseRecordStream o s (st.map .bytes) = (.ok rec, s2) → rec.rawStream.View W left t →
      (n = len i.block → Judged o.checkDigests.isSome (fields f h).recType ((fields f h).headers.getHeader (lit "WARC-Segment-Number"))
        ((fields f h).headers.getHeader (lit "WARC-Block-Digest")) ((fields f h).headers.getHeader (lit "WARC-Payload-Digest")) i.block left
        (rec.rawStream.checkerAt left).passed) ∧
      (len i.block < n → CutVerdict o.checkDigests.isSome (fields f h).recType ((fields f h).headers.getHeader (lit "WARC-Segment-Number"))
        ((fields f h).headers.getHeader (lit "WARC-Block-Digest")) ((fields f h).headers.getHeader (lit "WARC-Payload-Digest"))
        (rec.rawStream.checkerAt left).passed) ∧ (rec.rawStream.checkerAt left).Loud := by
    intro rec s2 left m1 m3
    by_cases hc : len i.block < n
    · have ht := hcut hc
      subst ht
      rw [List.append_nil] at k2
      have := load_lacks hW k1 k2 hchecks hc hlen m1 m3
      exact ⟨fun h => by omega, fun _ => this.1, this.2⟩
    · have hn : n = len i.block := by omega
      have := load_verdict hW k1 k2 hchecks (hn ▸ hlen) m1 m3
      exact ⟨fun _ => this.1, fun h => absurd h hc, this.2⟩
  by_cases hn : o.noRecordParse = true ∨ NotHttp (fields f h).recType (fields f h).uri (some n)
  · obtain ⟨rec, m1, m2, m3, m4, m5⟩ := load_plain k1 k2 hchecks hlen hn
    rw [e1, e2] at m3
    refine ⟨rec, [], i.block, m1, m2, rfl, m3, .inl m5, fun _ => ⟨rfl, m5, m4⟩, ?_, hver2 m1 m3⟩
    intro q1 q2 q3 q4
    exfalso
    rcases hn with hn | hn | hn | ⟨u, hn, hn2⟩
    · rw [q1] at hn; cases hn
    · simp only [Option.some.injEq, len] at hn hle
      have : i.block = [] := List.length_eq_zero_iff.1 (by omega)
      rw [this] at q4; exact q4 rfl
    · exact hn q2.1
    · obtain ⟨_, v, q5, q6⟩ := q2
      rw [hn] at q5
      cases q5
      exact hn2 q6
  · rw [not_or] at hn
    obtain ⟨hn1, hn2⟩ := hn
    unfold NotHttp at hn2
    rw [not_or, not_or] at hn2
    obtain ⟨hn2, hn3, hn4⟩ := hn2
    have hn3 := Classical.not_not.1 hn3
    have hu : (fields f h).uri ≠ none := ((huri.resolve_left (fun h0 => hn2 (by rw [h0]))).resolve_left hn1) hn3
    obtain ⟨u, hu⟩ := Option.ne_none_iff_exists'.1 hu
    have hh : HttpRecord (fields f h).recType (fields f h).uri := by
      refine ⟨hn3, u, hu, ?_⟩
      exact Classical.byContradiction (fun hc => hn4 ⟨u, hu, hc⟩)
    have hb : i.block = [] → (fields f h).recType = some (lit "revisit") := by
      intro hb
      rcases hsome hb with h0 | h0 | h0 | h0
      · exact absurd (by rw [h0]) hn2
      · exact absurd h0 hn1
      · exact absurd hh h0
      · exact h0
    obtain ⟨x, p, b', raw0, raw', raw'', w1, w2, w3, w4, w5, w6⟩ := load_http hW k1 k2 hchecks hlen (by simpa using hn1) hh hn2
    rw [e1] at w4
    rcases w6 with ⟨hd, hx, rec, m1, m2, m3, m4, m5, m6⟩ | ⟨hb', _, w7⟩ | ⟨hv, _⟩
    · rw [e2] at m4
      refine ⟨rec, p, b', by rw [m1, m3], m2, w4, m4, ?_, ?_, ?_, hver2 m1 m4⟩
      · rw [m6]
        by_cases ht : hd.truthy = true
        · right; rw [if_pos ht]
          have := congrArg List.length w4
          simp only [List.length_append] at this
          simp only [len, Option.some.injEq]; omega
        · left; rw [if_neg ht]
      · rintro (hc | hc)
        · exact absurd hc hn1
        · rcases hc with hc | hc
          · exact absurd hh hc
          · exfalso
            rw [e1, e2, hc] at w2
            have hU : ShortLine (fun (raw : RawStream σ) b => raw.View W b t) := by
              refine ⟨?_, fun h => h.bound hW⟩
              intro raw b h1
              obtain ⟨p, b', raw', q1, q2, q3, _, _, q6, _⟩ := h1.call hW (c := .readline none) (by intro n hn; cases hn)
              exact ⟨p, b', raw', q2, fun hp => (q6 hp).resolve_right (fun h => by cases h), q1, q3⟩
            have := HeaderParser.parse_empty hU (parserFor o.verifyHttp (fields f h).recType) w2
            rw [w3] at this
            rw [hx] at this
            cases this
      · intro _ _ q3 q4
        rw [e1, e2] at w2
        rw [e2] at w5
        subst hx
        refine ⟨hd, parse_head hW hX (by rw [parserFor_verify]; exact hver) w2 q3 q4 w3 w5, ?_⟩
        intro hne
        have ht : hd.truthy = true := by
          unfold StatusAndHeaders.truthy
          rcases hne with hne | hne
          · cases hs : hd.statusline <;> simp_all
          · cases hs : hd.headers <;> simp_all
        rw [m5, m6, ht]
        have := congrArg List.length w4
        simp only [List.length_append] at this
        simp only [len, if_true, Bool.not_true, Bool.false_and, Bool.false_eq_true, if_false, Option.some.injEq, true_and]
        omega
    · rw [e1] at hb'
      rw [if_pos (hb hb')] at w7
      obtain ⟨rec, m1, m2, m3, m4, m5, m6⟩ := w7
      rw [e2] at m4
      refine ⟨rec, [], [], by rw [m1, m3], m2, hb', m4, .inl m6, fun _ => ⟨rfl, m6, m5⟩, ?_, hver2 m1 m4⟩
      intro _ _ _ q4
      rw [hb'] at q4
      exact absurd rfl q4
    · rw [hver] at hv; cases hv

/-- Loading a record of the archive. -/
theorem load_item (hW : ExactRead W) {m : Nat} (hX : LineLaw W m) {o : LoadOpts} {i : Item} {t : Bytes} {f : HeadFormat} {h : StatusAndHeaders} (hl : Loads o i t f h)
    {s : σ} {st : Option Bytes} (hs : ReadyAt W s st (i.head ++ (i.block ++ t))) :
    ∃ rec pre left, parseRecordStream o s (st.map .bytes) = (.ok rec, rec.rawStream.under) ∧
      Loaded o (fields f h) (some (len i.block)) rec ∧ i.block = pre ++ left ∧ rec.rawStream.View W left t ∧
      (rec.payloadLength = some (-1) ∨ rec.payloadLength = some (len left)) ∧
      (o.noRecordParse = true ∨ ¬ HttpRecord (fields f h).recType (fields f h).uri ∨ i.block = [] → pre = [] ∧ rec.payloadLength = some (-1) ∧
        rec.httpHeaders = if o.ensureHttpHeaders then some (defaultHttpHeaders (some (len i.block)) (fields f h).contentType) else none) ∧
      (o.noRecordParse = false → HttpRecord (fields f h).recType (fields f h).uri → HeadWithin m i.block → lineText (takeLine i.block) ≠ [] →
        ∃ hd, HttpHead i.block hd left ∧ (hd.statusline ≠ [] ∨ hd.headers ≠ [] → rec.httpHeaders = some hd ∧ rec.payloadLength = some (len left))) ∧
      (t ≠ [] → Judged o.checkDigests.isSome (fields f h).recType ((fields f h).headers.getHeader (lit "WARC-Segment-Number"))
        ((fields f h).headers.getHeader (lit "WARC-Block-Digest")) ((fields f h).headers.getHeader (lit "WARC-Payload-Digest")) i.block left
        (rec.rawStream.checkerAt left).passed ∧ (rec.rawStream.checkerAt left).Loud) := by
  have := load_part hW hX hl.det hl.length (Int.le_refl _) (fun h => absurd h (Int.lt_irrefl _)) (hl.uri.imp (fun h => by rw [h]; rfl) id) (fun h => .inl (by rw [h]; rfl)) hl.checks hl.verify hs
  obtain ⟨rec, pre, left, k1, k2, k3, k4, k5, k6, k7, k8, -, k9⟩ := this
  simp only [Int.sub_self, Int.add_zero] at k5 k7
  exact ⟨rec, pre, left, k1, k2, k3, k4, k5, k6, k7, fun _ => ⟨k8 rfl, k9⟩⟩

end

namespace ArchiveIter
variable {σ : Type} [Zlib] [PyStream σ] [Hashlib] {W : BufReader σ → Bytes → Prop}

/-- Reading to the end of the block. -/
theorem drain_spec (hW : ExactRead W) : ∀ (fuel : Nat) {it : ArchiveIter σ} {b t : Bytes}, it.raw.View W b t → b.length < fuel →
    ∃ raw', drainLoop fuel it = (.ok (), { it with raw := raw' }) ∧ raw'.View W [] t ∧ raw'.checkerAt [] = it.raw.checkerAt b := by
  intro fuel
  induction fuel with
  | zero => intro it b t _ h; omega
  | succ fuel ih =>
    intro it b t h hf
    have hc : (Call.read (some 16384)).nonneg := by intro n hn; simp only [Call.arg, Option.some.injEq] at hn; omega
    obtain ⟨p, b', raw', k1, k2, k3, _, _, k5, k6⟩ := h.call hW hc
    have kp : raw'.checkerAt b' = it.raw.checkerAt b := h.checkerAt hc k1 k2
    unfold drainLoop
    simp only [Call.run] at k1
    rw [k1]
    simp only
    by_cases hp : p = []
    · rw [if_pos (by simpa using hp)]
      refine ⟨raw', rfl, ?_⟩
      rcases k5 hp with h0 | h0
      · subst hp
        rw [h0] at k2
        simp only [List.nil_append] at k2
        rw [h0]
        rw [h0, ← k2] at kp
        rw [← k2] at k3
        exact ⟨k3, kp⟩
      · simp [Call.arg] at h0
    · rw [if_neg (by simpa using hp)]
      have hl := congrArg List.length k2
      rw [List.length_append] at hl
      have := List.length_pos_iff.2 hp
      obtain ⟨raw2, m1, m2, m3⟩ := ih (it := { it with raw := raw' }) k3 (by omega)
      exact ⟨raw2, m1, m2, m3.trans kp⟩

/-- White space. -/
def White (sep : Bytes) : Prop := ∀ b ∈ sep, isByteSpace b = true

theorem white_of_blankLines {sep : Bytes} (h : BlankLines sep) : White sep := by
  intro b hb
  have := h.2.2 b hb
  simp only [List.mem_cons, List.not_mem_nil, or_false] at this
  rcases this with rfl | rfl | rfl | rfl | rfl | rfl <;> decide

theorem rstripBytes_nil {b : Bytes} : rstripBytes b = [] ↔ White b := rdropWhile_eq_nil _

/-- The blank lines are skipped. -/
theorem blank_spec (hW : ExactRead W) (data : Bytes) : ∀ (fuel : Nat) (sep : Bytes) (first : Bool) (n : Int) {it : ArchiveIter σ},
    W it.reader (sep ++ data) → White sep → (sep = [] ∨ [10] <:+ sep) → (sep ++ data).length + 2 ≤ fuel →
    ∃ fuel' r', data.length + 2 ≤ fuel' ∧ W r' data ∧
      blankLoop fuel first n it = blankLoop fuel' (first && decide (sep = [])) (n + len sep) (it.setReader r') := by
  intro fuel
  induction fuel with
  | zero => intro sep first n it _ _ _ h; omega
  | succ fuel ih =>
    intro sep first n it h hw hnl hf
    by_cases hs : sep = []
    · subst hs
      refine ⟨fuel + 1, it.reader, by simpa using hf, by simpa using h, ?_⟩
      have : it.setReader it.reader = it := by
        unfold ArchiveIter.setReader ArchiveIter.reader
        have : it.raw.setUnder it.raw.under = it.raw := by cases it.raw <;> rfl
        rw [this]
      rw [this]
      simp [len]
    · have hnl := hnl.resolve_left hs
      have hmem : (10 : UInt8) ∈ sep := by obtain ⟨t, rfl⟩ := hnl; simp
      obtain ⟨r1, k1, k2⟩ := hW.readline_none h
      rw [takeLine_append_of_nl hmem] at k1
      rw [dropLine_append_of_nl hmem] at k2
      have htl : takeLine sep ≠ [] := takeLine_ne_nil hs
      have hcat := takeLine_append_dropLine sep
      have hlen := congrArg List.length hcat
      rw [List.length_append] at hlen
      have hpos := List.length_pos_iff.2 htl
      have hwl : White (takeLine sep) := fun b hb => hw b (by rw [← hcat]; simp [hb])
      have hwd : White (dropLine sep) := fun b hb => hw b (by rw [← hcat]; simp [hb])
      have hdn : dropLine sep = [] ∨ [10] <:+ dropLine sep := by
        by_cases hd : dropLine sep = []
        · exact .inl hd
        · right
          obtain ⟨t, ht⟩ := hnl
          rw [← hcat] at ht
          rcases List.append_eq_append_iff.1 ht with ⟨a, h1, h2⟩ | ⟨a, h1, h2⟩
          · cases a with
            | nil => simp at h2; exact ⟨[], by simpa using h2⟩
            | cons x xs => cases xs with
              | nil => simp at h2; exact absurd h2.2 hd
              | cons y ys => simp at h2
          · exact ⟨a, h2.symm⟩
      obtain ⟨fuel', r', m1, m2, m3⟩ := ih (dropLine sep) false (n + len (takeLine sep)) (it := it.setReader r1)
        (by rw [reader_setReader]; exact k2) hwd hdn (by simp only [List.length_append] at hf ⊢; omega)
      refine ⟨fuel', r', m1, m2, ?_⟩
      rw [blankLoop, k1]
      simp only
      have h1 : (takeLine sep).isEmpty = false := by simpa using htl
      have h2 : (rstripBytes (takeLine sep)).isEmpty = true := by simpa using rstripBytes_nil.2 hwl
      rw [h1, h2]
      simp only [Bool.false_eq_true, if_false, if_true, m3, setReader_setReader, Bool.false_and, hs, decide_false, Bool.and_false]
      have : n + len (takeLine sep) + len (dropLine sep) = n + len sep := by simp only [len]; omega
      rw [this]

end ArchiveIter
end Warcio
