import Verif.Proofs.Detect
import Verif.Proofs.RawStream
import Verif.Proofs.Ints
import Verif.Spec.Records

/-! # Proofs about `parse_record_stream` -/

set_option linter.unusedSectionVars false

namespace Warcio
namespace Loader

section uri
variable [PyUni]

theorem escapeSpaces_eq (s : Str) : escapeSpaces s = noSpaces s := by
  unfold escapeSpaces
  induction s with
  | nil => rfl
  | cons c t ih =>
    rw [List.flatMap_cons, ih]
    by_cases h : c = ' '
    · subst h; rfl
    · rw [if_neg h, noSpaces.eq_def (c :: t)]
      split
      · rename_i heq; cases heq
      · rename_i heq; cases heq; exact absurd rfl h
      · rename_i heq; cases heq; rfl

theorem noSpaces_of {s : Str} (h : ' ' ∉ s) : noSpaces s = s := by
  induction s with
  | nil => rfl
  | cons c t ih =>
    simp only [List.mem_cons, not_or] at h
    unfold noSpaces
    split
    · rename_i heq; cases heq
    · rename_i heq; cases heq; exact absurd rfl h.1
    · rename_i heq; cases heq; rw [ih h.2]

theorem noSpaces_no_space (s : Str) : ' ' ∉ noSpaces s := by
  induction s with
  | nil => simp [noSpaces]
  | cons c t ih =>
    unfold noSpaces
    split
    · simp
    · rename_i heq; cases heq; simp [ih]
    · rename_i h1 heq; cases heq
      simp only [List.mem_cons, not_or]
      exact ⟨fun h => h1 h.symm, ih⟩

theorem bracketed_iff (u : Str) : (startsWith ['<'] u && endsWith ['>'] u) = true ↔ ∃ m, u = '<' :: m ++ ['>'] := by
  simp only [startsWith, endsWith, Bool.and_eq_true, List.isPrefixOf_iff_prefix, List.isSuffixOf_iff_suffix]
  constructor
  · rintro ⟨⟨a, rfl⟩, ⟨b, hb⟩⟩
    cases b with
    | nil => simp at hb
    | cons x xs => simp at hb; exact ⟨xs, by simp [hb.2]⟩
  · rintro ⟨m, rfl⟩
    exact ⟨⟨m ++ ['>'], rfl⟩, ⟨'<' :: m, rfl⟩⟩

theorem clean_unique {u v w : Str} (h1 : CleanUri u v) (h2 : CleanUri u w) : v = w := by
  cases h1 with
  | brackets m =>
    generalize hu : '<' :: m ++ ['>'] = u at h2
    cases h2 with
    | brackets m' => simp at hu; rw [hu]
    | plain u hn => exact absurd hu.symm (hn m)
  | plain u hn =>
    cases h2 with
    | brackets m' => exact absurd rfl (hn m')
    | plain u hn => rfl

theorem replaceHeader_headers (h : StatusAndHeaders) (n v : Str) : (h.replaceHeader n v).2.headers = (StatusAndHeaders.replaceIn h.headers n v).2 := rfl

/-- Nothing but the target URI changes. -/
theorem ensureTargetUri_other (h : StatusAndHeaders) {m : Str} (hm : PyUni.lower (lit "WARC-Target-URI") ≠ PyUni.lower m) :
    (ensureTargetUri h).2.getHeader m = h.getHeader m := by
  unfold ensureTargetUri
  cases h.getHeader (lit "WARC-Target-URI") with
  | none => rfl
  | some u =>
    simp only
    by_cases h1 : (startsWith ['<'] u && endsWith ['>'] u) = true
    · simp only [h1, if_true]
      by_cases h2 : ((u.drop 1).dropLast).contains ' ' = true
      · rw [if_pos h2]
        simp only [StatusAndHeaders.getHeader, replaceHeader_headers]
        rw [StatusAndHeaders.findHeader_replace_other hm, StatusAndHeaders.findHeader_replace_other hm]
      · rw [if_neg h2]
        simp only [StatusAndHeaders.getHeader, replaceHeader_headers]
        rw [StatusAndHeaders.findHeader_replace_other hm]
    · simp only [h1, if_false, Bool.false_eq_true]
      by_cases h2 : u.contains ' ' = true
      · rw [if_pos h2]
        simp only [StatusAndHeaders.getHeader, replaceHeader_headers]
        rw [StatusAndHeaders.findHeader_replace_other hm]
      · rw [if_neg h2]

theorem ensureTargetUri_none {h : StatusAndHeaders} (hn : h.getHeader (lit "WARC-Target-URI") = none) : ensureTargetUri h = (none, h) := by
  unfold ensureTargetUri; rw [hn]

theorem ensureTargetUri_first (h : StatusAndHeaders) :
    (ensureTargetUri h).2.protocol = h.protocol ∧ (ensureTargetUri h).2.statusline = h.statusline := by
  unfold ensureTargetUri
  cases h.getHeader (lit "WARC-Target-URI") with
  | none => exact ⟨rfl, rfl⟩
  | some u =>
    simp only
    split <;> split <;> exact ⟨rfl, rfl⟩

/-- The value returned is the cleaned-up one. -/
theorem ensureTargetUri_uri {h : StatusAndHeaders} {u : Str} (hu : h.getHeader (lit "WARC-Target-URI") = some u) :
    ∃ v, CleanUri u v ∧ (ensureTargetUri h).1 = some v := by
  unfold ensureTargetUri
  rw [hu]
  simp only
  by_cases h1 : (startsWith ['<'] u && endsWith ['>'] u) = true
  · obtain ⟨m, rfl⟩ := (bracketed_iff u).1 h1
    have e : (('<' :: m ++ ['>']).drop 1).dropLast = m := by simp
    simp only [h1, if_true, e]
    refine ⟨noSpaces m, .brackets m, ?_⟩
    by_cases h2 : m.contains ' ' = true
    · rw [if_pos h2, escapeSpaces_eq]
    · rw [if_neg h2, noSpaces_of (by simpa using h2)]
  · simp only [h1, if_false, Bool.false_eq_true]
    refine ⟨noSpaces u, .plain u (fun m hm => h1 ((bracketed_iff u).2 ⟨m, hm⟩)), ?_⟩
    by_cases h2 : u.contains ' ' = true
    · rw [if_pos h2, escapeSpaces_eq]
    · rw [if_neg h2, noSpaces_of (by simpa using h2)]

theorem filter_replace_self {n : Str} {hs : List Header} (hu : (hs.filter (StatusAndHeaders.nameEq n)).length ≤ 1) (v : Str) :
    ((StatusAndHeaders.replaceIn hs n v).2.filter (StatusAndHeaders.nameEq n)).length ≤ 1 := by
  rcases StatusAndHeaders.last_match n hs with h0 | ⟨pre, x, post, rfl, h1, h2⟩
  · rw [StatusAndHeaders.replaceIn_none h0, List.filter_append, List.filter_eq_nil_iff.2 (fun a ha => by simp [h0 a ha])]
    simp only [List.nil_append, List.filter_cons, List.filter_nil]
    split <;> simp
  · rw [StatusAndHeaders.replaceIn_some h1 h2]
    simp only [List.filter_append, List.filter_cons, List.length_append, h1, if_true] at hu ⊢
    have h1' : StatusAndHeaders.nameEq n (x.1, v) = true := h1
    rw [if_pos h1']
    simp only [List.length_cons] at hu ⊢
    omega

/-- With one such header, its value becomes the cleaned-up one. -/
theorem ensureTargetUri_header {h : StatusAndHeaders} {u : Str} (hu : h.getHeader (lit "WARC-Target-URI") = some u)
    (h1 : (h.headers.filter (StatusAndHeaders.nameEq (lit "WARC-Target-URI"))).length ≤ 1) :
    (ensureTargetUri h).2.getHeader (lit "WARC-Target-URI") = (ensureTargetUri h).1 := by
  unfold ensureTargetUri
  rw [hu]
  simp only
  by_cases h2 : (startsWith ['<'] u && endsWith ['>'] u) = true
  · simp only [h2, if_true]
    by_cases h3 : ((u.drop 1).dropLast).contains ' ' = true
    · rw [if_pos h3]
      simp only [StatusAndHeaders.getHeader, replaceHeader_headers]
      exact StatusAndHeaders.findHeader_replace_self (filter_replace_self h1 _) _
    · rw [if_neg h3]
      simp only [StatusAndHeaders.getHeader, replaceHeader_headers]
      exact StatusAndHeaders.findHeader_replace_self h1 _
  · simp only [h2, if_false, Bool.false_eq_true]
    by_cases h3 : u.contains ' ' = true
    · rw [if_pos h3]
      simp only [StatusAndHeaders.getHeader, replaceHeader_headers]
      exact StatusAndHeaders.findHeader_replace_self h1 _
    · rw [if_neg h3]
      simp only
      exact hu

/-- A clean URI is left alone. -/
theorem ensureTargetUri_id {h : StatusAndHeaders} (hu : ∀ u, h.getHeader (lit "WARC-Target-URI") = some u → ' ' ∉ u ∧ ∀ m, u ≠ '<' :: m ++ ['>']) :
    ensureTargetUri h = (h.getHeader (lit "WARC-Target-URI"), h) := by
  unfold ensureTargetUri
  cases he : h.getHeader (lit "WARC-Target-URI") with
  | none => rfl
  | some u =>
    obtain ⟨h1, h2⟩ := hu u he
    have h3 : ¬ (startsWith ['<'] u && endsWith ['>'] u) = true := fun hh => by
      obtain ⟨m, hm⟩ := (bracketed_iff u).1 hh
      exact h2 m hm
    have h4 : ¬ u.contains ' ' = true := by simpa using h1
    simp only [h3, if_false, Bool.false_eq_true]
    rw [if_neg h4]

end uri

section length
variable [PyUni]

/-- The declared block in terms of `blockLength`. -/
def blockOf (length : Option Int) (data : Bytes) : Bytes × Bytes :=
  match length with
  | none => (data, [])
  | some n => (data.take n.toNat, data.drop n.toNat)

theorem blockLength_declared (text : Option Str) (data : Bytes) : Declared text data (blockOf (blockLength text 0) data).1 := by
  unfold blockLength
  cases text with
  | none => exact .absent data
  | some t =>
    simp only
    cases h : parseInt t with
    | none => exact .invalid t data (fun n hn => by rw [(parseInt_iff t n).2 hn] at h; cases h)
    | some n =>
      have hn := (parseInt_iff t n).1 h
      simp only [Int.sub_zero]
      split
      · exact .negative t n data hn ‹_›
      · rename_i h0
        obtain ⟨m, rfl⟩ : ∃ m : Nat, n = (m : Int) := ⟨n.toNat, (Int.toNat_of_nonneg (by omega)).symm⟩
        exact .number t m data hn

theorem declared_unique {text : Option Str} {data a b : Bytes} (h1 : Declared text data a) (h2 : Declared text data b) : a = b := by
  have key : ∀ t (n m : Int), PyInt t n → PyInt t m → n = m := by
    intro t n m hn hm
    have := (parseInt_iff t n).2 hn
    rw [(parseInt_iff t m).2 hm] at this
    exact (Option.some.inj this).symm
  cases h1 with
  | absent => cases h2; rfl
  | number t n _ hn =>
    cases h2 with
    | number _ m _ hm => have := key _ _ _ hn hm; rw [show n = m by omega]
    | negative _ m _ hm h0 => have := key _ _ _ hn hm; omega
    | invalid _ _ h => exact absurd hn (h _)
  | negative t n _ hn h0 =>
    cases h2 with
    | number _ m _ hm => have := key _ _ _ hn hm; omega
    | negative => rfl
    | invalid => rfl
  | invalid _ _ h =>
    cases h2 with
    | number _ m _ hm => exact absurd hm (h _)
    | negative => rfl
    | invalid => rfl

theorem blockLength_nonneg {text : Option Str} {sub n : Int} (h : blockLength text sub = some n) : 0 ≤ n := by
  unfold blockLength at h
  split at h
  · cases h
  · split at h
    · cases h; omega
    · split at h <;> cases h <;> omega

end length

section load
variable {σ : Type} [PyStream σ] {W : σ → Bytes → Prop} [PyUni] [Hashlib]

/-- Checks are off, or give a verdict and do not raise. -/
def ChecksFine (o : LoadOpts) (f : Fields) : Prop :=
  o.checkDigests = none ∨ (o.checkDigests ≠ some .raise ∧
    DigestsUsable f.recType (f.headers.getHeader (lit "WARC-Segment-Number")) (f.headers.getHeader (lit "WARC-Block-Digest"))
      (f.headers.getHeader (lit "WARC-Payload-Digest")))

theorem wrap_spec {o : LoadOpts} {f : Fields} (hc : ChecksFine o f) {length : Option Int} (hl : ∀ n, length = some n → 0 ≤ n)
    {s : σ} {data : Bytes} (hs : W s data) :
    ∃ raw, wrap o f length s = .ok raw ∧ raw.View W (blockOf length data).1 (blockOf length data).2 ∧
      raw.isLimited = length.isSome ∧ (length.isSome = true → PyStream.tell raw = 0) := by
  cases length with
  | none => exact ⟨.bare s, rfl, ⟨hs, rfl⟩, rfl, by intro h; cases h⟩
  | some n =>
    have hn := hl n rfl
    have hv : (LimitReader.mk' s n).View W (blockOf (some n) data).1 (blockOf (some n) data).2 := by
      refine ⟨?_, ?_, ?_⟩
      · simp only [blockOf, LimitReader.mk', List.take_append_drop]; exact hs
      · simp only [blockOf, LimitReader.mk', len, List.length_take]; omega
      · simp only [blockOf, LimitReader.mk', len, List.length_take]
        intro h; exact List.drop_of_length_le (by omega)
    unfold wrap
    simp only [LimitReader.wrapStream, if_pos hn]
    split
    · rename_i hcd
      rcases hc with hc | ⟨hc1, hc2⟩
      · rw [hc] at hcd; simp at hcd
      · have hk : o.checkDigests.getD .other ≠ .raise := by
          cases ho : o.checkDigests with
          | none => rw [ho] at hcd; simp at hcd
          | some k => intro hh; apply hc1; rw [ho]; simp only [Option.getD_some] at hh; rw [hh]
        rcases DigestReader.new_cases (LimitReader.mk' s n) n (o.checkDigests.getD .other) f.recType
          (f.headers.getHeader (lit "WARC-Payload-Digest")) (f.headers.getHeader (lit "WARC-Block-Digest"))
          (f.headers.getHeader (lit "WARC-Segment-Number")) with ⟨h, _⟩ | ⟨_, c, hnew, hck, _⟩
        · exact absurd h hk
        · rw [hnew]
          refine ⟨_, rfl, ⟨⟨by rw [hck]; exact hk, ?_, ?_, ⟨[], rfl⟩, ⟨[], rfl⟩⟩, rfl, rfl, hv⟩, rfl, fun _ => ?_⟩
          · intro b
            obtain ⟨x, hx⟩ := (hc2 b).1
            rw [DigestReader.lookedAt_eq] at hx
            obtain ⟨c, hcmp, _⟩ := outcome_compare hx
            exact ⟨c, hcmp⟩
          · intro b
            obtain ⟨x, hx⟩ := (hc2 b).2
            rw [DigestReader.lookedAt_eq] at hx
            obtain ⟨c, hcmp, _⟩ := outcome_compare hx
            exact ⟨c, hcmp⟩
          · show n - n = 0
            omega
    · exact ⟨_, rfl, hv, rfl, fun _ => by show n - n = 0; omega⟩

theorem httpRecords_iff (t : Str) : httpRecords.contains t = true ↔ HttpType (some t) := by
  unfold httpRecords HttpType
  simp only [List.contains_iff_mem, List.mem_cons, List.not_mem_nil, or_false, Option.some.injEq]

theorem httpSchemes_iff (u : Str) : httpSchemes.any (fun p => startsWith p u) = true ↔ (lit "http:" <+: u ∨ lit "https:" <+: u) := by
  unfold httpSchemes startsWith
  simp only [List.any_cons, List.any_nil, Bool.or_false, Bool.or_eq_true, List.isPrefixOf_iff_prefix]

/-- Records that are not parsed as HTTP. -/
def NotHttp (recType uri : Option Str) (length : Option Int) : Prop :=
  length = some 0 ∨ ¬ HttpType recType ∨ ∃ u, uri = some u ∧ ¬ (lit "http:" <+: u ∨ lit "https:" <+: u)

theorem loadHttp_not (v : Bool) {recType uri : Option Str} {length : Option Int} (h : NotHttp recType uri length) {τ : Type} [PyStream τ] (s : τ) :
    loadHttpHeaders v recType uri length s = (.ok none, s) := by
  unfold loadHttpHeaders
  by_cases h0 : length = some 0
  · rw [if_pos h0]
  · rw [if_neg h0]
    cases recType with
    | none => rfl
    | some t =>
      simp only
      by_cases ht : httpRecords.contains t = true
      · have ht' := (httpRecords_iff t).1 ht
        simp only [ht, Bool.not_true, Bool.false_eq_true, if_false]
        rcases h with h | h | ⟨u, rfl, h⟩
        · exact absurd h h0
        · exact absurd ht' h
        · have : ¬ httpSchemes.any (fun p => startsWith p u) = true := fun hh => h ((httpSchemes_iff u).1 hh)
          simp only [this, Bool.not_false, if_true]
      · simp only [ht, Bool.not_false, if_true]

/-- The parser in use. -/
def parserFor (v : Bool) (recType : Option Str) : HeaderParser :=
  if recType = some (lit "request") then httpReqParser v else httpParser v

theorem parserFor_verify (v : Bool) (recType : Option Str) : (parserFor v recType).verify = v := by
  unfold parserFor; split <;> rfl

/-- HTTP records: the result of the parser, except that an empty revisit is fine. -/
theorem loadHttp_eq (v : Bool) {recType uri : Option Str} {length : Option Int} (h : HttpRecord recType uri) (h0 : length ≠ some 0)
    {τ : Type} [PyStream τ] (s : τ) :
    loadHttpHeaders v recType uri length s =
      (match (parserFor v recType).parse s with
        | (.ok h, s) => (.ok (some h), s)
        | (.error e, s) => if recType = some (lit "revisit") ∧ e = .eofError then (.ok none, s) else (.error e, s)) := by
  obtain ⟨h1, u, rfl, h2⟩ := h
  unfold loadHttpHeaders parserFor
  rw [if_neg h0]
  obtain ⟨t, rfl⟩ : ∃ t, recType = some t := by rcases h1 with h | h | h <;> exact ⟨_, h⟩
  have ht : httpRecords.contains t = true := (httpRecords_iff t).2 h1
  have hu := (httpSchemes_iff u).2 h2
  simp only [ht, hu, Bool.not_true, Bool.false_eq_true, if_false, Option.some.injEq]
  by_cases hr : t = lit "request"
  · rw [if_pos hr, if_pos hr]
    have : ¬ t = lit "revisit" := by rw [hr]; decide
    generalize (httpReqParser v).parse s = r
    obtain ⟨x, s'⟩ := r
    cases x <;> simp [this]
  · rw [if_neg hr, if_neg hr]
    generalize (httpParser v).parse s = r
    obtain ⟨x, s'⟩ := r
    cases x <;> rfl

/-- What a loaded record takes from the header block. -/
structure Loaded (o : LoadOpts) (fl : Fields) (length : Option Int) {τ : Type} (rec : Record τ) : Prop where
  format : rec.format = fl.format
  recType : rec.recType = fl.recType
  recHeaders : rec.recHeaders = fl.headers
  contentType : rec.contentType = fl.contentType
  length : rec.length = length
  checker : rec.checker = { kind := o.checkDigests.getD .other }

/-- A record that is not parsed as HTTP keeps its whole block. -/
theorem load_plain {o : LoadOpts} {s s1 : σ} {st : Option Line} {f : HeadFormat} {h : StatusAndHeaders} {data : Bytes}
    (hd : detectType o s st = (.ok (f, h), s1)) (hs : W s1 data) (hc : ChecksFine o (fields f h)) {length : Option Int}
    (hlen : blockLength (fields f h).length (fields f h).subLen = length)
    (hn : o.noRecordParse = true ∨ NotHttp (fields f h).recType (fields f h).uri length) :
    ∃ rec, parseRecordStream o s st = (.ok rec, rec.rawStream.under) ∧ Loaded o (fields f h) length rec ∧
      rec.rawStream.View W (blockOf length data).1 (blockOf length data).2 ∧
      rec.httpHeaders = (if o.ensureHttpHeaders then some (defaultHttpHeaders length (fields f h).contentType) else none) ∧
      rec.payloadLength = some (-1) := by
  obtain ⟨raw, w1, w2, w3, w4⟩ := wrap_spec hc (fun n hn => blockLength_nonneg (hlen.trans hn)) hs
  unfold parseRecordStream
  rw [hd]
  simp only [hlen]
  rw [w1]
  simp only
  have e : (if o.noRecordParse then (.ok none, raw) else loadHttpHeaders o.verifyHttp (fields f h).recType (fields f h).uri length raw) =
      ((.ok none, raw) : Except PyErr (Option StatusAndHeaders) × RawStream σ) := by
    split
    · rfl
    · rename_i hh
      exact loadHttp_not _ (hn.resolve_left hh) raw
  rw [e]
  obtain ⟨raw', b1, b2, b3⟩ := w2.begin
  simp only
  rw [b1]
  refine ⟨_, rfl, ⟨rfl, rfl, rfl, rfl, rfl, rfl⟩, b2, ?_, ?_⟩
  · simp [truthyHeaders]
  · cases length <;> simp [truthyHeaders]

/-- The loader after the header block. -/
theorem load_eq {o : LoadOpts} {s s1 : σ} {st : Option Line} {f : HeadFormat} {h : StatusAndHeaders}
    (hd : detectType o s st = (.ok (f, h), s1)) {length : Option Int}
    (hlen : blockLength (fields f h).length (fields f h).subLen = length) {raw : RawStream σ}
    (hw : wrap o (fields f h) length s1 = .ok raw) (hp : o.noRecordParse = false) :
    parseRecordStream o s st =
      (match loadHttpHeaders o.verifyHttp (fields f h).recType (fields f h).uri length raw with
      | (.error e, raw) => (.error e, raw.under)
      | (.ok http, raw') =>
        match beginPayload raw' with
        | (.error e, raw) => (.error e, raw.under)
        | (.ok _, raw2) =>
          (.ok { format := (fields f h).format, recType := (fields f h).recType, recHeaders := (fields f h).headers, rawStream := raw2,
                 httpHeaders := if !truthyHeaders http && o.ensureHttpHeaders then some (defaultHttpHeaders length (fields f h).contentType) else http,
                 contentType := (fields f h).contentType, length := length,
                 payloadLength := some (match (generalizing := false) length with
                  | some n => if n ≠ 0 ∧ truthyHeaders http then n - (PyStream.tell raw' - PyStream.tell raw) else -1
                  | none => -1), checker := { kind := o.checkDigests.getD .other } }, raw2.under)) := by
  unfold parseRecordStream
  rw [hd]
  simp only [hlen]
  rw [hw]
  simp only [hp, Bool.false_eq_true, if_false]
  generalize loadHttpHeaders o.verifyHttp (fields f h).recType (fields f h).uri length raw = r
  obtain ⟨x, raw'⟩ := r
  cases x with
  | error e => rfl
  | ok http =>
    simp only
    generalize beginPayload raw' = r
    obtain ⟨x, raw2⟩ := r
    cases x <;> cases length <;> rfl

/-- A record that is parsed as HTTP. -/
theorem load_http (hW : ExactRead W) {o : LoadOpts} {s s1 : σ} {st : Option Line} {f : HeadFormat} {h : StatusAndHeaders} {data : Bytes}
    (hd : detectType o s st = (.ok (f, h), s1)) (hs : W s1 data) (hc : ChecksFine o (fields f h)) {length : Option Int}
    (hlen : blockLength (fields f h).length (fields f h).subLen = length)
    (hp : o.noRecordParse = false) (hh : HttpRecord (fields f h).recType (fields f h).uri) (h0 : length ≠ some 0) :
    ∃ x p b' raw0 raw' raw'',
      wrap o (fields f h) length s1 = .ok raw0 ∧ raw0.View W (blockOf length data).1 (blockOf length data).2 ∧
      (parserFor o.verifyHttp (fields f h).recType).parse raw0 = (x, raw') ∧ (blockOf length data).1 = p ++ b' ∧
      raw'.View W b' (blockOf length data).2 ∧
      ((∃ hh, x = .ok hh ∧
        (∃ rec, parseRecordStream o s st = (.ok rec, raw'') ∧ Loaded o (fields f h) length rec ∧ raw'' = rec.rawStream.under ∧
          rec.rawStream.View W b' (blockOf length data).2 ∧
          rec.httpHeaders = (if !hh.truthy && o.ensureHttpHeaders then some (defaultHttpHeaders length (fields f h).contentType) else some hh) ∧
          rec.payloadLength = some (if hh.truthy then (match (generalizing := false) length with | some n => n - len p | none => -1) else -1))) ∨
       ((blockOf length data).1 = [] ∧ x = .error .eofError ∧
        if (fields f h).recType = some (lit "revisit") then
          ∃ rec, parseRecordStream o s st = (.ok rec, raw'') ∧ Loaded o (fields f h) length rec ∧ raw'' = rec.rawStream.under ∧
            rec.rawStream.View W [] (blockOf length data).2 ∧
            rec.httpHeaders = (if o.ensureHttpHeaders then some (defaultHttpHeaders length (fields f h).contentType) else none) ∧
            rec.payloadLength = some (-1)
        else parseRecordStream o s st = (.error .eofError, raw'') ∧ W raw'' (blockOf length data).2) ∨
       (o.verifyHttp = true ∧ ∃ l, x = .error (.statusParser l) ∧ parseRecordStream o s st = (.error (.statusParser l), raw'') ∧
          W raw'' (b' ++ (blockOf length data).2))) := by
  obtain ⟨raw, w1, w2, w3, w4⟩ := wrap_spec hc (fun n hn => blockLength_nonneg (hlen.trans hn)) hs
  have hU := RawStream.shortLine hW (blockOf length data).2 length.isSome (len (blockOf length data).1)
  have hAt : RawStream.At W (blockOf length data).2 length.isSome (len (blockOf length data).1) raw (blockOf length data).1 :=
    ⟨w2, w3, fun hl => by rw [w4 hl]; omega⟩
  obtain ⟨x, p, b', raw', q1, q2, ⟨q3, q4, q5⟩, q6⟩ := HeaderParser.parse_short hU (parserFor o.verifyHttp (fields f h).recType) hAt
  obtain ⟨raw2, b1, b2, b3⟩ := q3.begin
  have hlp : ∀ n, length = some n → PyStream.tell raw' - PyStream.tell raw = len p := by
    intro n hn
    have h1 := q5 (by rw [hn]; rfl)
    have h2 := w4 (by rw [hn]; rfl)
    have h3 := congrArg List.length q2
    rw [List.length_append] at h3
    simp only [len] at h1 ⊢
    omega
  have hpr := load_eq hd hlen w1 hp
  rw [loadHttp_eq _ hh h0, q1] at hpr
  rcases q6 with ⟨hd2, rfl⟩ | ⟨hb, rfl⟩ | ⟨hv, l, rfl⟩
  · refine ⟨_, p, b', raw, raw', raw2.under, w1, w2, q1, q2, q3, .inl ⟨hd2, rfl, ?_⟩⟩
    simp only at hpr
    rw [b1] at hpr
    refine ⟨_, hpr, ⟨rfl, rfl, rfl, rfl, rfl, rfl⟩, rfl, b2, rfl, ?_⟩
    simp only [truthyHeaders]
    cases hl : length with
    | none => simp
    | some n =>
      have hn0 : n ≠ 0 := by rintro rfl; exact h0 hl
      rw [hlp n hl]
      simp only [hn0, ne_eq, not_false_eq_true, true_and]
  · have hpb : p = [] ∧ b' = [] := by rw [hb] at q2; exact List.append_eq_nil_iff.1 q2.symm
    obtain ⟨rfl, rfl⟩ := hpb
    by_cases hr : (fields f h).recType = some (lit "revisit")
    · refine ⟨_, [], [], raw, raw', raw2.under, w1, w2, q1, q2, q3, .inr (.inl ⟨hb, rfl, ?_⟩)⟩
      rw [if_pos hr]
      simp only [hr, true_and, if_true] at hpr
      rw [b1] at hpr
      refine ⟨_, hpr, ⟨rfl, hr.symm, rfl, rfl, rfl, rfl⟩, rfl, b2, ?_, ?_⟩
      · simp [truthyHeaders]
      · cases length <;> simp [truthyHeaders]
    · refine ⟨_, [], [], raw, raw', raw'.under, w1, w2, q1, q2, q3, .inr (.inl ⟨hb, rfl, ?_⟩)⟩
      rw [if_neg hr]
      simp only [hr, false_and, if_false] at hpr
      exact ⟨hpr, by simpa using q3.under⟩
  · refine ⟨_, p, b', raw, raw', raw'.under, w1, w2, q1, q2, q3, .inr (.inr ?_)⟩
    rw [parserFor_verify] at hv
    refine ⟨hv, l, rfl, ?_, q3.under⟩
    simp only [reduceCtorEq, and_false, if_false] at hpr
    exact hpr

/-- What any loaded record has taken from its header block. -/
theorem load_ok {o : LoadOpts} {s s' : σ} {st : Option Line} {rec : Record (RawStream σ)} (h : parseRecordStream o s st = (.ok rec, s')) :
    ∃ f hd s1, detectType o s st = (.ok (f, hd), s1) ∧
      Loaded o (fields f hd) (blockLength (fields f hd).length (fields f hd).subLen) rec ∧ s' = rec.rawStream.under := by
  unfold parseRecordStream at h
  split at h
  · cases h
  · rename_i f hd s1 he
    refine ⟨f, hd, s1, he, ?_⟩
    simp only at h
    split at h
    · cases h
    · split at h
      · cases h
      · split at h
        · cases h
        · cases h; exact ⟨⟨rfl, rfl, rfl, rfl, rfl, rfl⟩, rfl⟩

/-- When no header block is found, that is the result. -/
theorem load_error {o : LoadOpts} {s s1 : σ} {st : Option Line} {e : PyErr} (h : detectType o s st = (.error e, s1)) :
    parseRecordStream o s st = (.error e, s1) := by
  unfold parseRecordStream
  rw [h]

end load
end Loader
end Warcio
