import Verif.Proofs.LoadRecord
import Verif.Props.Headers
import Verif.Props.TimeUtils

/-!
# Properties C26–C31: the record loader

Specifications: `Verif/Spec/Records.lean`, `Verif/Spec/Headers.lean`, `Verif/Spec/Streams.lean`.
The archive stream is any one whose `read` and `readline()` are exact (`ExactRead`): a buffered
reader of any block size over a file with short reads is one, and so is the reader of a gzip
member.
-/

set_option linter.unusedSectionVars false

namespace Warcio.Props

open Warcio Loader

section
variable {σ : Type} [PyStream σ] {W : σ → Bytes → Prop} [PyUni] [Hashlib]

/-- Digests are not checked, or checking raises nothing: the kind is not `'raise'` and the
digest headers are absent, or texts of digests. -/
def Quiet (o : LoadOpts) (hs : List (Str × Str)) : Prop :=
  o.checkDigests = none ∨ (o.checkDigests ≠ some .raise ∧
    DigestsUsable (firstValue (lit "WARC-Type") hs) (firstValue (lit "WARC-Segment-Number") hs)
      (firstValue (lit "WARC-Block-Digest") hs) (firstValue (lit "WARC-Payload-Digest") hs))

/-- A history of `read` calls. -/
def ReadCalls (cs : List Call) : Prop := ∀ c ∈ cs, c.nonneg ∧ ∃ n, c = .read n

theorem checksFine {o : LoadOpts} {h : StatusAndHeaders} (hq : Quiet o h.headers) : ChecksFine o (fields .warc h) := by
  rcases hq with hq | ⟨h1, h2⟩
  · exact .inl hq
  · refine .inr ⟨h1, ?_⟩
    simp only [firstValue_eq] at h2
    rw [(fields_warc h).2.1, fields_getHeader _ _ (lower_ne (by decide) (by decide) (by decide)),
      fields_getHeader _ _ (lower_ne (by decide) (by decide) (by decide)), fields_getHeader _ _ (lower_ne (by decide) (by decide) (by decide))]
    exact h2

/-- What loading a WARC record starts with. -/
theorem warc_start (hW : ExactRead W) {o : LoadOpts} {s : σ} {data : Bytes} {hs : List (Str × Str)} {rest : Bytes} (hs' : W s data)
    (hk : o.knownFormat ≠ some .arc) (hh : WarcHead data hs rest) :
    ∃ h s1, detectType o s none = (.ok (.warc, h), s1) ∧ W s1 rest ∧ h.headers = hs := by
  obtain ⟨h, h1, h2, _⟩ := detect_warc hk hh.version
  obtain ⟨s1, k1, k2⟩ := detect_stream hW.lineRead o hs'
  rw [h1] at k1 k2
  exact ⟨h, s1, k1, by rw [hh.rest]; exact k2, by rw [h2, hh.headers]⟩

theorem blockOf_rest {length : Option Int} {data : Bytes} : (blockOf length data).2 = data.drop (blockOf length data).1.length := by
  cases length with
  | none => simp [blockOf]
  | some n =>
    simp only [blockOf, List.length_take]
    by_cases h : n.toNat ≤ data.length
    · rw [Nat.min_eq_left h]
    · rw [Nat.min_eq_right (by omega), List.drop_of_length_le (by omega), List.drop_of_length_le (by omega)]

/-! ## C26 -/

/-- C26: with HTTP parsing off, any history of `read` calls on `raw_stream` gives exactly the
block that `Content-Length` declares (`Declared`: that many bytes or what is left of the file,
nothing for an invalid or negative number, everything if there is no such header), and what
follows the block stays in the archive stream. -/
theorem C26_block (hW : ExactRead W) (o : LoadOpts) (s : σ) (data rest block : Bytes) (hs : List (Str × Str)) (hs' : W s data)
    (hk : o.knownFormat ≠ some .arc) (hh : WarcHead data hs rest) (hq : Quiet o hs) (hn : o.noRecordParse = true)
    (hd : Declared (firstValue (lit "Content-Length") hs) rest block) :
    ∃ rec s', parseRecordStream o s = (.ok rec, s') ∧ ∀ cs, ReadCalls cs →
      (runCalls rec.rawStream cs).1 = (expectCalls block cs).1.map .ok ∧
      W (runCalls rec.rawStream cs).2.under ((expectCalls block cs).2 ++ rest.drop block.length) := by
  obtain ⟨h, s1, k1, k2, rfl⟩ := warc_start hW hs' hk hh
  obtain ⟨rec, m1, m2, m3, _⟩ := load_plain k1 k2 (checksFine hq) rfl (.inl hn)
  have e : (blockOf (blockLength (fields .warc h).length (fields .warc h).subLen) rest).1 = block := by
    rw [(fields_warc h).2.2.2.1, (fields_warc h).2.2.2.2.2.1]
    refine declared_unique (blockLength_declared _ _) ?_
    rw [firstValue_eq] at hd
    exact hd
  refine ⟨rec, _, m1, ?_⟩
  intro cs hcs
  rw [e] at m3
  obtain ⟨r1, r2⟩ := view_reads hW cs m3 hcs
  refine ⟨r1, ?_⟩
  rw [← e, ← blockOf_rest, e]
  exact r2.under

/-- C26 with `readline` calls as well, of any lengths: all of them succeed and return
consecutive parts of the block. -/
theorem C26_lines (hW : ExactRead W) (o : LoadOpts) (s : σ) (data rest block : Bytes) (hs : List (Str × Str)) (hs' : W s data)
    (hk : o.knownFormat ≠ some .arc) (hh : WarcHead data hs rest) (hq : Quiet o hs) (hn : o.noRecordParse = true)
    (hd : Declared (firstValue (lit "Content-Length") hs) rest block) :
    ∃ rec s', parseRecordStream o s = (.ok rec, s') ∧ ∀ cs : List Call, (∀ c ∈ cs, c.nonneg) →
      (∀ x ∈ (runCalls rec.rawStream cs).1, ∃ b, x = .ok b) ∧
      ∃ left, block = okBytes (runCalls rec.rawStream cs).1 ++ left := by
  obtain ⟨h, s1, k1, k2, rfl⟩ := warc_start hW hs' hk hh
  obtain ⟨rec, m1, m2, m3, _⟩ := load_plain k1 k2 (checksFine hq) rfl (.inl hn)
  have e : (blockOf (blockLength (fields .warc h).length (fields .warc h).subLen) rest).1 = block := by
    rw [(fields_warc h).2.2.2.1, (fields_warc h).2.2.2.2.2.1]
    refine declared_unique (blockLength_declared _ _) ?_
    rw [firstValue_eq] at hd
    exact hd
  rw [e] at m3
  refine ⟨rec, _, m1, ?_⟩
  generalize rec.rawStream = raw at m3
  generalize (blockOf (blockLength (fields .warc h).length (fields .warc h).subLen) rest).2 = t at m3
  clear e m1 m2 hd k1
  intro cs hcs
  induction cs generalizing raw block with
  | nil => exact ⟨by simp [runCalls], block, by simp [runCalls, okBytes]⟩
  | cons c cs ih =>
    obtain ⟨p, b', raw', q1, q2, q3, _⟩ := m3.call hW (hcs c (by simp))
    obtain ⟨i1, left, i2⟩ := ih b' raw' q3 (fun c hc => hcs c (by simp [hc]))
    simp only [runCalls, q1]
    refine ⟨?_, left, ?_⟩
    · intro x hx
      simp only [List.mem_cons] at hx
      rcases hx with rfl | hx
      · exact ⟨_, rfl⟩
      · exact i1 x hx
    · rw [q2, okBytes, List.append_assoc, ← i2]

/-! ## C27 -/

/-- The URI of a record: the cleaned-up `WARC-Target-URI`. -/
def UriOf (hs : List (Str × Str)) (uri : Option Str) : Prop :=
  (firstValue (lit "WARC-Target-URI") hs = none ∧ uri = none) ∨
  ∃ u v, firstValue (lit "WARC-Target-URI") hs = some u ∧ CleanUri u v ∧ uri = some v

theorem uriOf_unique {h : StatusAndHeaders} {uri : Option Str} (hu : UriOf h.headers uri) : (fields .warc h).uri = uri := by
  rw [(fields_warc h).2.2.1]
  rcases hu with ⟨h1, rfl⟩ | ⟨u, v, h1, h2, rfl⟩
  · rw [firstValue_eq] at h1
    rw [ensureTargetUri_none h1]
  · rw [firstValue_eq] at h1
    obtain ⟨v', h3, h4⟩ := ensureTargetUri_uri h1
    rw [h4, clean_unique h2 h3]

theorem declared_block {t : Str} {n : Nat} (hn : PyInt t (n : Int)) : blockLength (some t) 0 = some (n : Int) := by
  unfold blockLength
  simp only
  rw [(parseInt_iff t n).2 hn]
  simp only [Int.sub_zero]
  rw [if_neg (by omega)]

/-- C27: an HTTP record's block is split into what was parsed as headers and what `raw_stream`
still gives, and `payload_length` counts the latter.  Without verification of HTTP headers no
exception is raised.  Partial: the block must be complete, and the parsed headers must not be
empty (no status and no headers), see `C27_empty_headers`. -/
theorem C27_split_partial (hW : ExactRead W) (o : LoadOpts) (s : σ) (data rest : Bytes) (hs : List (Str × Str)) (hs' : W s data)
    (hk : o.knownFormat ≠ some .arc) (hh : WarcHead data hs rest) (hq : Quiet o hs) (hp : o.noRecordParse = false)
    (t : Str) (n : Nat) (ht : firstValue (lit "Content-Length") hs = some t) (hn : PyInt t (n : Int)) (h0 : 0 < n) (hr : n ≤ rest.length)
    (uri : Option Str) (hu : UriOf hs uri) (hhttp : HttpRecord (firstValue (lit "WARC-Type") hs) uri) :
    (∃ rec s' http head left, parseRecordStream o s = (.ok rec, s') ∧ rest.take n = head ++ left ∧
      (∀ cs, ReadCalls cs → (runCalls rec.rawStream cs).1 = (expectCalls left cs).1.map .ok ∧
        W (runCalls rec.rawStream cs).2.under ((expectCalls left cs).2 ++ rest.drop n)) ∧
      (rec.httpHeaders = some http ∨ (http.truthy = false ∧ o.ensureHttpHeaders = true)) ∧
      (http.truthy = true → rec.payloadLength = some (len left))) ∨
    (o.verifyHttp = true ∧ ∃ l s', parseRecordStream o s = (.error (.statusParser l), s')) := by
  obtain ⟨h, s1, k1, k2, rfl⟩ := warc_start hW hs' hk hh
  obtain ⟨f1, f2, f3, f4, f5, f6, f7⟩ := fields_warc h
  rw [firstValue_eq] at ht
  have hlen : blockLength (fields .warc h).length (fields .warc h).subLen = some (n : Int) := by
    rw [f4, f6]
    have : h.getHeader (lit "Content-Length") = some t := ht
    rw [this, declared_block hn]
  have hht : HttpRecord (fields .warc h).recType (fields .warc h).uri := by
    rw [uriOf_unique hu, f2]; rw [firstValue_eq] at hhttp; exact hhttp
  have e1 : (blockOf (some (n : Int)) rest).1 = rest.take n := by simp [blockOf]
  have e2 : (blockOf (some (n : Int)) rest).2 = rest.drop n := by simp [blockOf]
  obtain ⟨x, p, b', raw0, raw', raw'', w1, w2, w3, w4, w5, w6⟩ := load_http hW k1 k2 (checksFine hq) hlen hp hht
    (by intro hx; simp only [Option.some.injEq] at hx; omega)
  rw [e1] at w4
  rw [e2] at w5
  rcases w6 with ⟨hd, _, rec, m1, m2, m3, m4, m5, m6⟩ | ⟨hb, _⟩ | ⟨hv, l, _, m1, _⟩
  · left
    rw [e2] at m4
    refine ⟨rec, raw'', hd, p, b', m1, w4, ?_, ?_, ?_⟩
    · intro cs hcs
      obtain ⟨r1, r2⟩ := view_reads hW cs m4 hcs
      exact ⟨r1, r2.under⟩
    · rw [m5]
      by_cases hc : (!hd.truthy && o.ensureHttpHeaders) = true
      · right; simpa using hc
      · left; rw [if_neg hc]
    · intro htr
      rw [m6, if_pos htr]
      have := congrArg List.length w4
      simp only [List.length_append, List.length_take] at this
      simp only [len, Option.some.injEq]
      omega
  · rw [e1] at hb
    have := congrArg List.length hb
    simp only [List.length_take, List.length_nil] at this
    omega
  · exact .inr ⟨hv, l, raw'', m1⟩

/-- C27: all other records keep their block, and have no payload length. -/
theorem C27_others (hW : ExactRead W) (o : LoadOpts) (s : σ) (data rest block : Bytes) (hs : List (Str × Str)) (hs' : W s data)
    (hk : o.knownFormat ≠ some .arc) (hh : WarcHead data hs rest) (hq : Quiet o hs)
    (hd : Declared (firstValue (lit "Content-Length") hs) rest block)
    (hhttp : ¬ HttpType (firstValue (lit "WARC-Type") hs) ∨
      ∃ u, UriOf hs (some u) ∧ ¬ (lit "http:" <+: u ∨ lit "https:" <+: u)) :
    ∃ rec s', parseRecordStream o s = (.ok rec, s') ∧ (∀ cs, ReadCalls cs →
      (runCalls rec.rawStream cs).1 = (expectCalls block cs).1.map .ok ∧
      W (runCalls rec.rawStream cs).2.under ((expectCalls block cs).2 ++ rest.drop block.length)) ∧
      (o.ensureHttpHeaders = false → rec.httpHeaders = none) ∧ rec.payloadLength = some (-1) := by
  obtain ⟨h, s1, k1, k2, rfl⟩ := warc_start hW hs' hk hh
  obtain ⟨f1, f2, f3, f4, f5, f6, f7⟩ := fields_warc h
  have hnot : NotHttp (fields .warc h).recType (fields .warc h).uri (blockLength (fields .warc h).length (fields .warc h).subLen) := by
    rcases hhttp with hx | ⟨u, hu, hx⟩
    · rw [firstValue_eq] at hx; exact .inr (.inl (by rw [f2]; exact hx))
    · exact .inr (.inr ⟨u, uriOf_unique hu, hx⟩)
  obtain ⟨rec, m1, m2, m3, m4, m5⟩ := load_plain k1 k2 (checksFine hq) rfl (.inr hnot)
  have e : (blockOf (blockLength (fields .warc h).length (fields .warc h).subLen) rest).1 = block := by
    rw [f4, f6]
    refine declared_unique (blockLength_declared _ _) ?_
    rw [firstValue_eq] at hd
    exact hd
  refine ⟨rec, _, m1, ?_, ?_, m5⟩
  · intro cs hcs
    rw [e] at m3
    obtain ⟨r1, r2⟩ := view_reads hW cs m3 hcs
    refine ⟨r1, ?_⟩
    rw [← e, ← blockOf_rest, e]
    exact r2.under
  · intro hen; rw [m4, hen]; rfl

/-- C27: over a stream whose `readline(n)` is exact too, the headers parsed are exactly the
lines of the block up to its first blank line. -/
theorem C27_header_block (hW : ExactRead W) (hX : ExactLine W) (o : LoadOpts) (s : σ) (data rest : Bytes) (hs : List (Str × Str))
    (hs' : W s data)
    (hk : o.knownFormat ≠ some .arc) (hh : WarcHead data hs rest) (hq : Quiet o hs) (hp : o.noRecordParse = false)
    (t : Str) (n : Nat) (ht : firstValue (lit "Content-Length") hs = some t) (hn : PyInt t (n : Int)) (h0 : 0 < n) (hr : n ≤ rest.length)
    (uri : Option Str) (hu : UriOf hs uri) (hhttp : HttpRecord (firstValue (lit "WARC-Type") hs) uri) (rec : Record (RawStream σ)) (s' : σ)
    (hrec : parseRecordStream o s = (.ok rec, s')) :
    ∃ left, BlockEnd (rest.take n) left ∧
      ∀ cs, ReadCalls cs → (runCalls rec.rawStream cs).1 = (expectCalls left cs).1.map .ok := by
  obtain ⟨h, s1, k1, k2, rfl⟩ := warc_start hW hs' hk hh
  obtain ⟨f1, f2, f3, f4, f5, f6, f7⟩ := fields_warc h
  rw [firstValue_eq] at ht
  have hlen : blockLength (fields .warc h).length (fields .warc h).subLen = some (n : Int) := by
    rw [f4, f6]
    have : h.getHeader (lit "Content-Length") = some t := ht
    rw [this, declared_block hn]
  have hht : HttpRecord (fields .warc h).recType (fields .warc h).uri := by
    rw [uriOf_unique hu, f2]; rw [firstValue_eq] at hhttp; exact hhttp
  have e1 : (blockOf (some (n : Int)) rest).1 = rest.take n := by simp [blockOf]
  have e2 : (blockOf (some (n : Int)) rest).2 = rest.drop n := by simp [blockOf]
  obtain ⟨x, p, b', raw0, raw', raw'', w1, w2, w3, w4, w5, w6⟩ := load_http hW k1 k2 (checksFine hq) hlen hp hht
    (by intro hx; simp only [Option.some.injEq] at hx; omega)
  rw [e1] at w4
  rw [e2] at w5
  rw [e1, e2] at w2
  rcases w6 with ⟨hd, rfl, rec', m1, m2, m3, m4, m5, m6⟩ | ⟨hb, _⟩ | ⟨hv, l, _, m1, _⟩
  · rw [hrec] at m1
    cases m1
    rw [e2] at m4
    obtain ⟨left, g1, g2⟩ := C14_consumes_block (RawStream.lineRead hW hX (rest.drop n)) _ raw0 (rest.take n) w2 hd raw' w3
    have heq : left = b' := by
      have h1 := hW.read_none g2.under
      have h2 := hW.read_none w5.under
      obtain ⟨_, h1, _⟩ := h1
      obtain ⟨_, h2, _⟩ := h2
      rw [h1] at h2
      simp only [Prod.mk.injEq, Except.ok.injEq, List.append_cancel_right_eq] at h2
      exact h2.1
    subst heq
    exact ⟨left, g1, fun cs hcs => (view_reads hW cs m4 hcs).1⟩
  · rw [e1] at hb
    have := congrArg List.length hb
    simp only [List.length_take, List.length_nil] at this
    omega
  · rw [hrec] at m1; cases m1

/-! ## C28 -/

/-- C28: the target URI loses one enclosing pair of brackets and its spaces become `%20`; all
other headers of the record are as they were.  Partial: there is at most one
`WARC-Target-URI`, see `C28_duplicate`. -/
theorem C28_clean_partial (hW : ExactRead W) (o : LoadOpts) (s : σ) (data rest : Bytes) (hs : List (Str × Str)) (hs' : W s data)
    (hk : o.knownFormat ≠ some .arc) (hh : WarcHead data hs rest) (rec : Record (RawStream σ)) (s' : σ)
    (hrec : parseRecordStream o s = (.ok rec, s'))
    (h1 : (hs.filter (fun h => decide (SameName h.1 (lit "WARC-Target-URI")))).length ≤ 1) :
    (firstValue (lit "WARC-Target-URI") hs = none → rec.recHeaders.headers = hs) ∧
    (∀ u, firstValue (lit "WARC-Target-URI") hs = some u →
      ∃ v, CleanUri u v ∧ ' ' ∉ v ∧ rec.recHeaders.getHeader (lit "WARC-Target-URI") = some v) ∧
    (∀ m, ¬ SameName (lit "WARC-Target-URI") m → rec.recHeaders.getHeader m = firstValue m hs) := by
  obtain ⟨h, s1, k1, k2, rfl⟩ := warc_start hW hs' hk hh
  obtain ⟨f, hd, s2, q1, q2, q3⟩ := load_ok hrec
  rw [k1] at q1
  cases q1
  obtain ⟨f1, f2, f3, f4, f5, f6, f7⟩ := fields_warc h
  rw [q2.recHeaders]
  simp only [firstValue_eq]
  rw [filter_same] at h1
  refine ⟨?_, ?_, ?_⟩
  · intro hu
    rw [f7, ensureTargetUri_none hu]
  · intro u hu
    obtain ⟨v, c1, c2⟩ := ensureTargetUri_uri (h := h) hu
    refine ⟨v, c1, ?_, ?_⟩
    · cases c1 <;> exact noSpaces_no_space _
    · rw [f7, ensureTargetUri_header (h := h) hu h1, c2]
  · intro m hm
    rw [fields_getHeader _ _ hm]; rfl

/-- C28: the URI used for loading is the header's new value, and cleaning up once more changes
nothing unless brackets were nested. -/
theorem C28_again (h : StatusAndHeaders) (h1 : occurrences h (lit "WARC-Target-URI") ≤ 1) :
    (ensureTargetUri h).1 = (ensureTargetUri h).2.getHeader (lit "WARC-Target-URI") ∧
    ((∀ v, (ensureTargetUri h).1 = some v → ∀ m, v ≠ '<' :: m ++ ['>']) → ensureTargetUri (ensureTargetUri h).2 = ensureTargetUri h) := by
  unfold occurrences at h1
  rw [filter_same] at h1
  cases hu : h.getHeader (lit "WARC-Target-URI") with
  | none =>
    rw [ensureTargetUri_none hu]
    exact ⟨hu.symm, fun _ => ensureTargetUri_none hu⟩
  | some u =>
    have e := ensureTargetUri_header hu h1
    refine ⟨e.symm, ?_⟩
    intro hn
    obtain ⟨v, c1, c2⟩ := ensureTargetUri_uri hu
    have : ensureTargetUri (ensureTargetUri h).2 = ((ensureTargetUri h).2.getHeader (lit "WARC-Target-URI"), (ensureTargetUri h).2) := by
      apply ensureTargetUri_id
      intro w hw
      rw [e, c2] at hw
      cases hw
      refine ⟨?_, hn v c2⟩
      cases c1 <;> exact noSpaces_no_space _
    rw [this, e]

/-! ## C29 -/

/-- C29: what is read as which format.  Partial: a blank first line is left out unless the
known format is `'arc'`, see `C29_blank_line`. -/
theorem C29_detect_partial (hW : ExactRead W) (o : LoadOpts) (s : σ) (data : Bytes) (hs' : W s data) (hn : o.noRecordParse = true)
    (hc : o.checkDigests = none) (hb : data = [] ∨ lineText (takeLine data) ≠ [] ∨ o.knownFormat = some .arc) :
    (data = [] ∧ (parseRecordStream o s).1 = .error .eofError) ∨
    (StartsWarc data ∧ o.knownFormat ≠ some .arc ∧ ∃ rec, (parseRecordStream o s).1 = .ok rec ∧ rec.format = .warc) ∨
    (data ≠ [] ∧ ¬ StartsWarc data ∧ o.knownFormat = some .warc ∧ (parseRecordStream o s).1 = .error .invalidWarc) ∨
    (data ≠ [] ∧ (o.knownFormat = some .arc ∨ (o.knownFormat = none ∧ ¬ StartsWarc data)) ∧
      ((4 ≤ (lineText (takeLine data)).count ' ' ∧ ∃ rec, (parseRecordStream o s).1 = .ok rec ∧
          rec.format = (if o.arc2warc then .warc else .arc)) ∨
       ((lineText (takeLine data)).count ' ' < 4 ∧
          (parseRecordStream o s).1 = .error (if o.knownFormat = some .arc then .invalidArc else .unknownFormat)))) := by
  obtain ⟨s1, k1, k2⟩ := detect_stream hW.lineRead o hs'
  by_cases hd : data = []
  · left
    subst hd
    rw [detect_eof] at k1
    exact ⟨rfl, by rw [load_error k1]⟩
  · right
    have hb := hb.resolve_left hd
    have harc : TriesArc o data → (o.knownFormat = some .arc ∨ (o.knownFormat = none ∧ ¬ StartsWarc data)) →
        (data ≠ [] ∧ (o.knownFormat = some .arc ∨ (o.knownFormat = none ∧ ¬ StartsWarc data)) ∧
        ((4 ≤ (lineText (takeLine data)).count ' ' ∧ ∃ rec, (parseRecordStream o s).1 = .ok rec ∧
          rec.format = (if o.arc2warc then .warc else .arc)) ∨
        ((lineText (takeLine data)).count ' ' < 4 ∧
          (parseRecordStream o s).1 = .error (if o.knownFormat = some .arc then .invalidArc else .unknownFormat)))) := by
      intro ht hx
      refine ⟨hd, hx, ?_⟩
      rw [detect_tries ht] at k1 k2
      by_cases h4 : 4 ≤ (lineText (takeLine data)).count ' '
      · left
        obtain ⟨hs, a1, a2⟩ := detect_arc_ok (o := o) h4 (splitLines (dropLine data))
        rw [a2] at k1 k2
        obtain ⟨rec, m1, m2, _⟩ := load_plain k1 k2 (.inl hc) rfl (.inl hn)
        refine ⟨h4, rec, by rw [m1], ?_⟩
        rw [m2.format]
        cases o.arc2warc <;> rfl
      · right
        obtain ⟨ls', a1⟩ := detect_arc_bad (o := o) hd h4 (splitLines (dropLine data))
        rw [a1] at k1
        exact ⟨by omega, by rw [load_error k1]⟩
    by_cases hk : o.knownFormat = some .arc
    · exact .inr (.inr (harc (.inl hk) (.inl hk)))
    · have hb := hb.resolve_right hk
      by_cases hw : StartsWarc data
      · left
        obtain ⟨h, h1, h2, _⟩ := detect_warc hk hw
        rw [h1] at k1 k2
        obtain ⟨rec, m1, m2, _⟩ := load_plain k1 k2 (.inl hc) rfl (.inl hn)
        exact ⟨hw, hk, rec, by rw [m1], m2.format⟩
      · right
        cases hkf : o.knownFormat with
        | none => exact .inr (by rw [hkf] at harc; exact harc (.inr ⟨hkf, hb, hw⟩) (.inr ⟨rfl, hw⟩))
        | some f =>
          cases f with
          | arc => exact absurd hkf hk
          | warc =>
            left
            rw [detect_refused hkf hb hw] at k1
            exact ⟨hd, hw, rfl, by rw [load_error k1]⟩

/-! ## C30 -/

/-- C30: an ARC header line gives back its five fields, whatever spaces the URI has.  The text
of the line is without the whitespace at its end (the newline). -/
theorem C30_fields (hW : ExactRead W) (o : LoadOpts) (s : σ) (data : Bytes) (hs' : W s data) (ha : o.arc2warc = false)
    (hk : o.knownFormat = some .arc ∨ (o.knownFormat = none ∧ ¬ StartsWarc data))
    (uri ip date ctype length : Str) (hf : ArcFields ip date ctype length)
    (hl : lineText (takeLine data) = arcLine uri ip date ctype length) (hc : o.checkDigests = none) (hn : o.noRecordParse = true) :
    ∃ rec s', parseRecordStream o s = (.ok rec, s') ∧ rec.format = .arc ∧
      rec.recHeaders.headers = [(lit "uri", uri), (lit "ip-address", ip), (lit "archive-date", date), (lit "content-type", ctype),
        (lit "length", length)] := by
  obtain ⟨s1, k1, k2⟩ := detect_stream hW.lineRead o hs'
  have h4 : 4 ≤ (lineText (takeLine data)).count ' ' := by rw [hl]; exact count_arcLine _ _ _ _ _
  have ht : TriesArc o data := by
    rcases hk with hk | ⟨h1, h2⟩
    · exact .inl hk
    · refine .inr ⟨h1, ?_, h2⟩
      intro h0; rw [h0] at h4; simp at h4
  obtain ⟨hs, a1, a2⟩ := detect_arc_ok (o := o) h4 (splitLines (dropLine data))
  rw [detect_tries ht, a2] at k1 k2
  obtain ⟨rec, m1, m2, _⟩ := load_plain k1 k2 (.inl hc) rfl (.inl hn)
  refine ⟨rec, _, m1, ?_, ?_⟩
  · rw [m2.format, ha]; rfl
  · rw [m2.recHeaders]
    rw [hl, rsplit_arcLine uri hf] at a1
    simp only [arcHeaders, ha, Bool.false_eq_true, if_false, Except.ok.injEq] at a1
    simp only [ha, Bool.false_eq_true, if_false]
    show hs = _
    rw [← a1]
    rfl

/-- C30 for the encoded line with either line end. -/
theorem C30_encoded (hW : ExactRead W) (o : LoadOpts) (s : σ) (rest eol : Bytes) (ha : o.arc2warc = false)
    (hk : o.knownFormat = some .arc)
    (uri ip date ctype length : Str) (hf : ArcFields ip date ctype length) (hlf : '\n' ∉ arcLine uri ip date ctype length)
    (he : eol = [10] ∨ eol = [13, 10])
    (hs' : W s (utf8Encode (arcLine uri ip date ctype length) ++ eol ++ rest)) (hc : o.checkDigests = none) (hn : o.noRecordParse = true) :
    ∃ rec s', parseRecordStream o s = (.ok rec, s') ∧ rec.format = .arc ∧
      rec.recHeaders.headers = [(lit "uri", uri), (lit "ip-address", ip), (lit "archive-date", date), (lit "content-type", ctype),
        (lit "length", length)] := by
  refine C30_fields hW o s _ hs' ha (.inl hk) uri ip date ctype length hf ?_ hc hn
  have hx : rstrip (arcLine uri ip date ctype length) = arcLine uri ip date ctype length := by
    unfold arcLine
    have : uri ++ ' ' :: ip ++ ' ' :: date ++ ' ' :: ctype ++ ' ' :: length = (uri ++ ' ' :: ip ++ ' ' :: date ++ ' ' :: ctype ++ [' ']) ++ length := by simp
    rw [this]
    exact rdropWhile_append_self _ hf.trail hf.ne
  generalize arcLine uri ip date ctype length = l at hlf hx
  have h10 : (10 : UInt8) ∉ utf8Encode l := fun hm => hlf (nl_mem_encode.1 hm)
  rcases he with rfl | rfl
  · have e : utf8Encode l ++ [10] ++ rest = utf8Encode l ++ 10 :: rest := by simp
    rw [e, takeLine_append_nl h10]
    have e2 : utf8Encode l ++ [10] = utf8Encode (l ++ ['\n']) := by rw [utf8Encode_append]; rfl
    rw [e2]
    unfold lineText
    rw [decodeHeader_encode]
    unfold rstrip
    rw [rdropWhile_append_all _ (by decide)]
    exact hx
  · have e : utf8Encode l ++ [13, 10] ++ rest = (utf8Encode l ++ [13]) ++ 10 :: rest := by simp
    rw [e, takeLine_append_nl (by simp only [List.mem_append, List.mem_singleton, not_or]; exact ⟨h10, by decide⟩)]
    have e2 : (utf8Encode l ++ [13]) ++ [10] = utf8Encode (l ++ ['\r', '\n']) := by rw [utf8Encode_append, List.append_assoc]; rfl
    rw [e2]
    unfold lineText
    rw [decodeHeader_encode]
    unfold rstrip
    rw [rdropWhile_append_all _ (by decide)]
    exact hx

end

/-! ## C31 -/

section
variable {σ : Type} [PyStream σ] {W : σ → Bytes → Prop} [PyUni] [Hashlib]

/-- Lookup of an ASCII name among ASCII names. -/
def findAscii (n : Str) : List (Str × Str) → Option Str
  | [] => none
  | h :: t => if h.1.map Char.toLower = n.map Char.toLower then some h.2 else findAscii n t

theorem findAscii_eq {n : Str} (hn : isAscii n = true) : ∀ hs : List (Str × Str), (∀ h ∈ hs, isAscii h.1 = true) →
    StatusAndHeaders.findHeader n hs = findAscii n hs := by
  intro hs
  induction hs with
  | nil => intro _; rfl
  | cons h t ih =>
    intro hh
    have h1 := hh h (by simp)
    simp only [StatusAndHeaders.findHeader, findAscii, StatusAndHeaders.nameEq, PyUni.lower_ascii _ h1, PyUni.lower_ascii _ hn, beq_iff_eq]
    rw [ih (fun x hx => hh x (by simp [hx]))]

/-- The headers an ARC line is converted to (`iso` is the converted date). -/
def converted (id uri ip iso ctype length : Str) : List (Str × Str) :=
  if isFiledesc uri then
    [(lit "WARC-Type", lit "warcinfo"), (lit "WARC-Record-ID", id), (lit "WARC-Filename", uri.drop 11), (lit "WARC-IP-Address", ip),
      (lit "WARC-Date", iso), (lit "Content-Type", ctype), (lit "Content-Length", length)]
  else
    [(lit "WARC-Type", lit "response"), (lit "WARC-Record-ID", id), (lit "WARC-Target-URI", uri), (lit "WARC-IP-Address", ip),
      (lit "WARC-Date", iso), (lit "Content-Type", lit "application/http;msgtype=response"), (lit "Content-Length", length)]

theorem converted_ascii (id uri ip iso ctype length : Str) : ∀ h ∈ converted id uri ip iso ctype length, isAscii h.1 = true := by
  intro h hh
  unfold converted at hh
  split at hh <;>
    (simp only [List.mem_cons, List.not_mem_nil, or_false] at hh
     rcases hh with rfl | rfl | rfl | rfl | rfl | rfl | rfl <;> (simp only; decide))

theorem filedesc_line (uri ip date ctype length : Str) : isFiledesc (arcLine uri ip date ctype length) = isFiledesc uri := by
  have e : ∃ r, arcLine uri ip date ctype length = uri ++ ' ' :: r := ⟨_, by unfold arcLine; simp only [List.append_assoc, List.cons_append]; rfl⟩
  obtain ⟨r, e⟩ := e
  rw [e]
  unfold isFiledesc startsWith
  rw [Bool.eq_iff_iff, List.isPrefixOf_iff_prefix, List.isPrefixOf_iff_prefix]
  have hsp : ' ' ∉ lit "filedesc://" := by decide
  generalize lit "filedesc://" = p at hsp
  constructor
  · rintro ⟨t, h⟩
    rcases List.append_eq_append_iff.1 h with ⟨x, h1, h2⟩ | ⟨x, h1, h2⟩
    · exact ⟨x, h1.symm⟩
    · cases x with
      | nil => exact ⟨[], by simp [h1]⟩
      | cons y ys =>
        simp only [List.cons_append, List.cons.injEq] at h2
        rw [h1, ← h2.1] at hsp
        simp at hsp
  · intro h
    exact h.trans (List.prefix_append _ _)

theorem convert_eq (o : LoadOpts) (ha : o.arc2warc = true) (uri ip date ctype length iso : Str) (hd : timestampToIsoDate date = .ok iso) :
    arcHeaders o (arcLine uri ip date ctype length) [uri, ip, date, ctype, length] = .ok (converted o.newId uri ip iso ctype length) := by
  have d1 : ¬ lit "WARC-Target-URI" = lit "WARC-Date" := by decide
  have d2 : ¬ lit "WARC-IP-Address" = lit "WARC-Date" := by decide
  have d3 : ¬ lit "Content-Type" = lit "WARC-Date" := by decide
  have d4 : ¬ lit "Content-Length" = lit "WARC-Date" := by decide
  have t2 : (lit "WARC-IP-Address" == lit "WARC-Target-URI") = false := by decide
  have t3 : (lit "Content-Type" == lit "WARC-Target-URI") = false := by decide
  have t4 : (lit "Content-Length" == lit "WARC-Target-URI") = false := by decide
  have t5 : (lit "WARC-Date" == lit "WARC-Target-URI") = false := by decide
  have l1 : (lit "filedesc://").length = 11 := by decide
  unfold arcHeaders
  rw [if_pos ha, filedesc_line]
  unfold converted arcToWarcNames
  cases isFiledesc uri with
  | true =>
    simp only [if_true, List.zip_cons_cons, List.zip_nil_right, convertFields, if_neg d1, if_neg d2, if_neg d3, if_neg d4, hd, t2, t3, t4, t5,
      Bool.true_and, beq_self_eq_true, Bool.false_eq_true, if_false, l1]
  | false =>
    simp only [if_true, List.set, List.zip_cons_cons, List.zip_nil_right, convertFields, if_neg d1, if_neg d2, if_neg d3, if_neg d4, hd,
      Bool.false_and, Bool.false_eq_true, if_false]

/-- C31: what the two ways of reading the same ARC record give.  The date is converted by
`timestamp_to_iso_date` (C51, C52).  Partial: the URI of the converted record is the ARC
record's only up to the clean-up of C28, see `C31_spaces`; that of the file header becomes the
file name. -/
theorem C31_convert_partial (hW : ExactRead W) (o : LoadOpts) (s : σ) (data : Bytes) (hs' : W s data)
    (hk : o.knownFormat = some .arc ∨ (o.knownFormat = none ∧ ¬ StartsWarc data))
    (uri ip date ctype length : Str) (hf : ArcFields ip date ctype length)
    (hl : lineText (takeLine data) = arcLine uri ip date ctype length) (hc : o.checkDigests = none) (hn : o.noRecordParse = true) :
    ∃ recA sA recW sW, parseRecordStream { o with arc2warc := false } s = (.ok recA, sA) ∧
      parseRecordStream { o with arc2warc := true } s = (.ok recW, sW) ∧
      recA.format = .arc ∧ recW.format = .warc ∧
      (lit "filedesc://" <+: uri → recW.recType = some (lit "warcinfo") ∧
        recW.recHeaders.getHeader (lit "WARC-Filename") = some (uri.drop 11)) ∧
      (¬ lit "filedesc://" <+: uri → recW.recType = some (lit "response") ∧
        ∃ v, CleanUri uri v ∧ recW.recHeaders.getHeader (lit "WARC-Target-URI") = some v) ∧
      recW.recHeaders.getHeader (lit "WARC-Record-ID") = some o.newId ∧
      recW.recHeaders.getHeader (lit "WARC-IP-Address") = some ip ∧
      (∃ iso, timestampToIsoDate date = .ok iso ∧ recW.recHeaders.getHeader (lit "WARC-Date") = some iso) ∧
      (∀ d, IsDate d → 1900 ≤ d.year → d.year ≤ 2999 → date = datetimeToTimestamp d →
        recW.recHeaders.getHeader (lit "WARC-Date") = some (datetimeToIsoDate d)) ∧
      recW.length = recA.length ∧
      ∀ cs, ReadCalls cs → (runCalls recW.rawStream cs).1 = (runCalls recA.rawStream cs).1 := by
  have h4 : 4 ≤ (lineText (takeLine data)).count ' ' := by rw [hl]; exact count_arcLine _ _ _ _ _
  have ht : ∀ b, TriesArc { o with arc2warc := b } data := by
    intro b
    rcases hk with hk | ⟨h1, h2⟩
    · exact .inl hk
    · refine .inr ⟨h1, ?_, h2⟩
      intro h0; rw [h0] at h4; simp at h4
  obtain ⟨recA, sA, a1, a2, a3, a4⟩ : ∃ recA sA, parseRecordStream { o with arc2warc := false } s = (.ok recA, sA) ∧ recA.format = .arc ∧
      recA.length = blockLength (some length) (arcSkip (decodeHeader (takeLine data)) (splitLines (dropLine data))).1 ∧
      ∃ t, recA.rawStream.View W (blockOf (blockLength (some length) (arcSkip (decodeHeader (takeLine data)) (splitLines (dropLine data))).1)
        (arcSkip (decodeHeader (takeLine data)) (splitLines (dropLine data))).2.flatten).1 t := by
    obtain ⟨s1, k1, k2⟩ := detect_stream hW.lineRead { o with arc2warc := false } hs'
    obtain ⟨hs, b1, b2⟩ := detect_arc_ok (o := { o with arc2warc := false }) h4 (splitLines (dropLine data))
    rw [detect_tries (ht false), b2] at k1 k2
    rw [hl, rsplit_arcLine uri hf] at b1
    simp only [arcHeaders, Bool.false_eq_true, if_false, Except.ok.injEq] at b1
    subst b1
    simp only [Bool.false_eq_true, if_false] at k1
    obtain ⟨rec, m1, m2, m3, _⟩ := load_plain k1 k2 (.inl hc) rfl (.inl hn)
    have e : (fields .arc { statusline := [], headers := arcNames.zip [uri, ip, date, ctype, length], protocol := lit "WARC/1.0", totalLen := (arcSkip (decodeHeader (takeLine data)) (splitLines (dropLine data))).1 }).length = some length := by
      show StatusAndHeaders.findHeader (lit "length") _ = _
      rw [findAscii_eq (by decide) _ (by simp [arcNames]; decide)]
      rfl
    rw [e] at m2 m3
    exact ⟨rec, _, m1, m2.format, m2.length, _, m3⟩
  obtain ⟨iso, hiso⟩ : ∃ iso, timestampToIsoDate date = .ok iso := by
    unfold timestampToIsoDate
    rw [timestampToDatetime_eq]
    exact ⟨_, rfl⟩
  obtain ⟨s1, k1, k2⟩ := detect_stream hW.lineRead { o with arc2warc := true } hs'
  obtain ⟨hs, b1, b2⟩ := detect_arc_ok (o := { o with arc2warc := true }) h4 (splitLines (dropLine data))
  rw [detect_tries (ht true), b2] at k1 k2
  rw [hl, rsplit_arcLine uri hf, convert_eq { o with arc2warc := true } rfl uri ip date ctype length iso hiso] at b1
  simp only [Except.ok.injEq] at b1
  subst b1
  simp only [if_true] at k1
  obtain ⟨recW, m1, m2, m3, _⟩ := load_plain k1 k2 (.inl hc) rfl (.inl hn)
  generalize hT : (arcSkip (decodeHeader (takeLine data)) (splitLines (dropLine data))).1 = T at *
  generalize hH : ({ statusline := [], headers := converted o.newId uri ip iso ctype length, protocol := lit "WARC/1.0", totalLen := T } : StatusAndHeaders) = H at *
  have hget : ∀ n, isAscii n = true → H.getHeader n = findAscii n (converted o.newId uri ip iso ctype length) := by
    intro n hn'
    rw [← hH]
    exact findAscii_eq hn' _ (converted_ascii _ _ _ _ _ _)
  have hother : ∀ n, isAscii n = true → (lit "WARC-Target-URI").map Char.toLower ≠ n.map Char.toLower →
      recW.recHeaders.getHeader n = findAscii n (converted o.newId uri ip iso ctype length) := by
    intro n hn' hne
    rw [m2.recHeaders, fields_getHeader _ _ (lower_ne (by decide) hn' hne), hget n hn']
  have hlenW : (fields .arc2warc H).length = some length := by
    show (ensureTargetUri H).2.getHeader (lit "Content-Length") = _
    rw [ensureTargetUri_other H tu_ne_cl, hget _ (by decide)]
    unfold converted
    split <;> rfl
  have hsub : (fields .arc2warc H).subLen = T := by
    show (ensureTargetUri H).2.totalLen = T
    have : (ensureTargetUri H).2.totalLen = H.totalLen := by
      unfold ensureTargetUri
      split
      · rfl
      · simp only
        split <;> split <;> rfl
    rw [this, ← hH]
  have hdate : recW.recHeaders.getHeader (lit "WARC-Date") = some iso := by
    rw [hother _ (by decide) (by decide)]
    unfold converted
    split <;> rfl
  have hfd : isFiledesc uri = true ↔ lit "filedesc://" <+: uri := by
    unfold isFiledesc startsWith; rw [List.isPrefixOf_iff_prefix]
  refine ⟨recA, sA, recW, _, a1, m1, a2, m2.format, ?_, ?_, ?_, ?_, ⟨iso, hiso, hdate⟩, ?_, ?_, ?_⟩
  · intro hp
    have hp' := hfd.2 hp
    constructor
    · rw [m2.recType]
      show H.getHeader (lit "WARC-Type") = _
      rw [hget _ (by decide)]
      unfold converted
      rw [if_pos hp']; rfl
    · rw [hother _ (by decide) (by decide)]
      unfold converted
      rw [if_pos hp']; rfl
  · intro hp
    have hp' : ¬ isFiledesc uri = true := fun h => hp (hfd.1 h)
    constructor
    · rw [m2.recType]
      show H.getHeader (lit "WARC-Type") = _
      rw [hget _ (by decide)]
      unfold converted
      rw [if_neg hp']; rfl
    · have hu : H.getHeader (lit "WARC-Target-URI") = some uri := by
        rw [hget _ (by decide)]
        unfold converted
        rw [if_neg hp']; rfl
      obtain ⟨v, c1, c2⟩ := ensureTargetUri_uri hu
      refine ⟨v, c1, ?_⟩
      rw [m2.recHeaders]
      show (ensureTargetUri H).2.getHeader _ = _
      rw [ensureTargetUri_header hu, c2]
      rw [← hH]
      unfold converted
      rw [if_neg hp']
      have no : ∀ n v : Str, isAscii n = true → (n.map Char.toLower == (lit "WARC-Target-URI").map Char.toLower) = false →
          StatusAndHeaders.nameEq (lit "WARC-Target-URI") (n, v) = false := by
        intro n v hn' hne
        unfold StatusAndHeaders.nameEq
        rw [PyUni.lower_ascii _ hn', PyUni.lower_ascii _ (by decide), hne]
      simp only [List.filter_cons, List.filter_nil, no (lit "WARC-Type") _ (by decide) (by decide), no (lit "WARC-Record-ID") _ (by decide) (by decide),
        no (lit "WARC-IP-Address") _ (by decide) (by decide), no (lit "WARC-Date") _ (by decide) (by decide),
        no (lit "Content-Type") _ (by decide) (by decide), no (lit "Content-Length") _ (by decide) (by decide), Bool.false_eq_true, if_false]
      split <;> simp
  · rw [hother _ (by decide) (by decide)]
    unfold converted
    split <;> rfl
  · rw [hother _ (by decide) (by decide)]
    unfold converted
    split <;> rfl
  · intro d hd h1 h2 he
    rw [he, (C52_iso d hd h1 h2).2] at hiso
    cases hiso
    exact hdate
  · rw [m2.length, a3, hlenW, hsub]
  · intro cs hcs
    obtain ⟨t, a4⟩ := a4
    rw [hlenW, hsub] at m3
    rw [(view_reads hW cs m3 hcs).1, (view_reads hW cs a4 hcs).1]

end

/-! ## Where the code disagrees -/

open Toy in
/-- C27 fails for a block that starts with a blank line: the two bytes of that line are taken
from `raw_stream`, the headers are empty, and `payload_length` is -1 though three bytes are
left. -/
theorem C27_empty_headers :
    ∃ b : Bytes, ∃ (rec : Record (RawStream Bytes)) (s' : Bytes), parseRecordStream {} b = (.ok rec, s') ∧
      rec.payloadLength = some (-1) ∧ (runCalls rec.rawStream [.read none]).1 = [.ok (utf8Encode (lit "abc"))] ∧
      rec.length = some 5 := by
  refine ⟨utf8Encode (lit "WARC/1.0\r\nWARC-Type: response\r\nWARC-Target-URI: http://x/\r\nContent-Length: 5\r\n\r\n\r\nabc"),
    { format := .warc, recType := some (lit "response"), recHeaders := ⟨[], [(lit "WARC-Type", lit "response"),
        (lit "WARC-Target-URI", lit "http://x/"), (lit "Content-Length", lit "5")], lit "WARC/1.0", 80, none⟩,
      rawStream := .limited ⟨utf8Encode (lit "abc"), 3, 5⟩, httpHeaders := some ⟨[], [], [], 2, none⟩, contentType := none, length := some 5 },
    utf8Encode (lit "abc"), ?_, rfl, ?_, rfl⟩
  · decide +kernel
  · decide +kernel

open Toy in
/-- A response, request or revisit record without `WARC-Target-URI` raises `AttributeError`. -/
theorem C27_no_uri :
    (parseRecordStream {} (utf8Encode (lit "WARC/1.0\r\nWARC-Type: response\r\nContent-Length: 5\r\n\r\nabcde"))).1 = .error .attributeError := by
  decide +kernel

open Toy in
/-- C28 fails for two target URIs: the first is the one that is looked up, but its cleaned-up
value is written over the last one. -/
theorem C28_duplicate :
    ∃ b : Bytes, ((parseRecordStream { noRecordParse := true } b).1.map (fun r => r.recHeaders.headers)) =
      .ok [(lit "WARC-Target-URI", lit "<http://a/>"), (lit "WARC-Target-URI", lit "http://a/")] :=
  ⟨utf8Encode (lit "WARC/1.0\r\nWARC-Target-URI: <http://a/>\r\nWARC-Target-URI: http://b/\r\n\r\n"), by decide +kernel⟩

open Toy in
/-- C29 fails for a blank first line: it is read as a WARC record without headers that holds
all the rest. -/
theorem C29_blank_line :
    ∃ b : Bytes, ¬ StartsWarc b ∧ ((parseRecordStream {} b).1.map (fun r => (r.format, r.recHeaders.headers, (PyStream.read r.rawStream none).1))) =
      .ok (.warc, [], .ok (utf8Encode (lit "WARC/1.0\r\n\r\n"))) :=
  ⟨utf8Encode (lit "\r\nWARC/1.0\r\n\r\n"), fun h => startsWarc_text h (by decide +kernel), by decide +kernel⟩

open Toy in
/-- C31 fails for a URI with a space: the converted record has another URI. -/
theorem C31_spaces :
    ∃ b : Bytes, ((parseRecordStream { arc2warc := false, noRecordParse := true } b).1.map (fun r => r.recHeaders.getHeader (lit "uri"))) =
        .ok (some (lit "http://x/a b")) ∧
      ((parseRecordStream { arc2warc := true, noRecordParse := true } b).1.map (fun r => r.recHeaders.getHeader (lit "WARC-Target-URI"))) =
        .ok (some (lit "http://x/a%20b")) :=
  ⟨utf8Encode (lit "http://x/a b 1.2.3.4 20140216050221 text/html 3\nabc"), by decide +kernel, by decide +kernel⟩

/-! ## The hypotheses are met -/

/-- A buffered reader of any block size over a file with any schedule of short reads is a stream
that the theorems apply to. -/
example [Zlib] (bs : Nat) : ExactRead (BufReader.Plain FileObj.View (· = bs)) :=
  BufReader.exactRead (BufReader.plain_fillLaw FileObj.shortRead)

/-- The head used in the examples. -/
def exHead : Bytes := utf8Encode (lit "WARC/1.0\r\nWARC-Type: response\r\nWARC-Target-URI: <http://x/a b>\r\nContent-Length: 25\r\n\r\n")

/-- The headers in it. -/
def exHeaders : List (Str × Str) :=
  [(lit "WARC-Type", lit "response"), (lit "WARC-Target-URI", lit "<http://x/a b>"), (lit "Content-Length", lit "25")]

/-- A block and the blank lines behind it. -/
def exRest : Bytes := utf8Encode (lit "HTTP/1.1 200 OK\r\nA: b\r\n\r\n\r\n\r\n")

open Toy in
example : WarcHead (exHead ++ exRest) exHeaders exRest where
  version := ⟨lit "WARC/1.0", by decide, by decide +kernel⟩
  headers := by decide +kernel
  rest := by decide +kernel

open Toy in
example : Declared (firstValue (lit "Content-Length") exHeaders) exRest (exRest.take 25) := by
  have : firstValue (lit "Content-Length") exHeaders = some (lit "25") := by decide
  rw [this]
  exact .number _ 25 _ ((parseInt_iff _ _).1 (by decide))

open Toy in
example : UriOf exHeaders (some (lit "http://x/a%20b")) ∧ HttpRecord (firstValue (lit "WARC-Type") exHeaders) (some (lit "http://x/a%20b")) ∧
    25 ≤ exRest.length ∧ Quiet {} exHeaders := by
  refine ⟨.inr ⟨lit "<http://x/a b>", _, by decide, ?_, rfl⟩, ⟨.inl (by decide), _, rfl, .inl (by decide)⟩, by decide +kernel, .inl rfl⟩
  exact CleanUri.brackets (lit "http://x/a b")

open Toy in
/-- What the model does with it. -/
example : (parseRecordStream {} (exHead ++ exRest)).1.map (fun r => r.recHeaders.getHeader (lit "warc-target-uri")) =
    .ok (some (lit "http://x/a%20b")) := by decide +kernel

open Toy in
example : (parseRecordStream {} (exHead ++ exRest)).1.map (fun r => (r.payloadLength, (r.httpHeaders.getD ⟨[], [], [], 0, none⟩).headers)) =
    .ok (some 0, [(lit "A", lit "b")]) := by decide +kernel

example : ArcFields (lit "1.2.3.4") (lit "20140216050221") (lit "text/html") (lit "3") := by
  constructor <;> decide

open Toy in
example : lineText (takeLine (utf8Encode (lit "http://x/a b 1.2.3.4 20140216050221 text/html 3\nabc"))) =
      arcLine (lit "http://x/a b") (lit "1.2.3.4") (lit "20140216050221") (lit "text/html") (lit "3") ∧
    ¬ StartsWarc (utf8Encode (lit "http://x/a b 1.2.3.4 20140216050221 text/html 3\nabc")) := by
  refine ⟨by decide +kernel, ?_⟩
  rintro ⟨v, hv, hp⟩
  revert v
  decide +kernel

end Warcio.Props
