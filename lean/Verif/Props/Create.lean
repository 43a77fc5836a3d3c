import Verif.Spec.Create
import Verif.Props.Builder
import Verif.Props.ReadBack

/-!
# Property C66: a record that is created from a payload stream is written with this payload

Specification: `Verif/Spec/Create.lean`.
-/

set_option linter.unusedSectionVars false

namespace Warcio.Props

open Warcio Writer Builder

section
variable [PyUni]

/-- The stream over a file with these contents, at this place. -/
def OverFile (content : Bytes) (seekable : Bool) (s : RecStream FileObj) (rem : Bytes) : Prop :=
  ∃ f : FileObj, (s = .own f ∨ s = .mem f) ∧ f.content = content ∧ f.seekable = seekable ∧ f.rest = rem ∧ f.pos ≤ content.length

theorem overFile_line (content : Bytes) (seekable : Bool) : LineRead (OverFile content seekable) where
  readline_none := by
    rintro s rem ⟨f, h1, h2, h3, h4, h5⟩
    have key : PyStream.readline f none = (.ok (takeLine rem), { f with pos := f.pos + (takeLine rem).length }) := by
      show FileObj.readline f none = _
      unfold FileObj.readline
      rw [h4]
      simp only [askLen, List.take_length]
    have hr : ({ f with pos := f.pos + (takeLine rem).length } : FileObj).rest = dropLine rem := by
      show f.content.drop (f.pos + (takeLine rem).length) = _
      rw [← List.drop_drop]
      have : f.content.drop f.pos = takeLine rem ++ dropLine rem := by
        rw [takeLine_append_dropLine]; exact h4
      rw [this, List.drop_left]
    have hp : f.pos + (takeLine rem).length ≤ content.length := by
      have e1 : rem.length = content.length - f.pos := by rw [← h4, ← h2]; exact List.length_drop
      have e2 := congrArg List.length (takeLine_append_dropLine rem)
      rw [List.length_append] at e2
      omega
    rcases h1 with rfl | rfl
    · refine ⟨.own { f with pos := f.pos + (takeLine rem).length }, ?_, _, .inl rfl, h2, h3, hr, hp⟩
      show (let (b, s) := PyStream.readline f none; (b, RecStream.own s)) = _
      rw [key]
    · refine ⟨.mem { f with pos := f.pos + (takeLine rem).length }, ?_, _, .inr rfl, h2, h3, hr, hp⟩
      show (let (b, s) := PyStream.readline f none; (b, RecStream.mem s)) = _
      rw [key]
  bound := by
    rintro s rem ⟨f, h1, h2, h3, h4, h5⟩
    rcases h1 with rfl | rfl <;> exact Nat.le_of_eq (congrArg List.length h4.symm)

theorem overFile_holds {content : Bytes} {seekable : Bool} {s : RecStream FileObj} {d : Bytes} (h : OverFile content seekable s d) : Holds s d := by
  obtain ⟨f, rfl | rfl, -, -, h, -⟩ := h <;> exact h

theorem overFile_of {s : RecStream FileObj} {d : Bytes} (h : Holds s d) (hd : d ≠ []) : ∃ content seekable, OverFile content seekable s d ∧
    (AtStart s → content = d ∧ seekable = true) := by
  have key : ∀ f : FileObj, f.rest = d → f.pos ≤ f.content.length := by
    intro f hf
    by_cases hc : f.pos ≤ f.content.length
    · exact hc
    · exact absurd (hf.symm.trans (List.drop_of_length_le (by omega))) hd
  cases s with
  | own f => exact ⟨f.content, f.seekable, ⟨f, .inl rfl, rfl, rfl, h, key f h⟩, fun ⟨a, b⟩ => ⟨by rw [← h]; simp [FileObj.rest, a], b⟩⟩
  | mem f => exact ⟨f.content, f.seekable, ⟨f, .inr rfl, rfl, rfl, h, key f h⟩, fun ⟨a, b⟩ => ⟨by rw [← h]; simp [FileObj.rest, a], b⟩⟩
  | closed => exact absurd h id

/-- A file whose rest is known is at the place that its length tells. -/
theorem overFile_tell {content : Bytes} {s : RecStream FileObj} {d : Bytes} (h : OverFile content true s d) :
    ∃ k : Nat, PyFile.tellE s = .ok (k : Int) ∧ (k : Int) + len d = len content := by
  obtain ⟨f, h1, h2, h3, h4, h5⟩ := h
  have key : PyFile.tellE f = .ok (f.pos : Int) := by
    show (if f.seekable then _ else _) = _
    rw [h3]; rfl
  have hl : d.length = content.length - f.pos := by rw [← h4, ← h2]; exact List.length_drop
  refine ⟨f.pos, ?_, by simp only [len]; omega⟩
  rcases h1 with rfl | rfl <;> exact key

end
section
variable [PyUni] [Hashlib] [Deflater] {IsMember : Bytes → Bytes → Prop}

/-- Writing, plain or compressed. -/
theorem write_stored (D : LawfulDeflater IsMember) {f : Bytes → Bytes} (H : Hashlib.hash (lit "sha1") = some f) {c : BuilderCfg} {r : OutRecord FileObj} {hb d : Bytes}
    (hw : Writable c.filter r hb d) {o : OutFile} (ho : o.AtEnd) :
    ∃ z r', write c r o = (.ok (), r', o.extended z) ∧
      Stored IsMember c.gzip z (recordBytes r.recHeaders.protocol r.recHeaders.statusline (writtenHeaders f r hb d) (blockOf r hb d)) := by
  cases hg : c.gzip with
  | false =>
    obtain ⟨r', h1, -, -⟩ := write_plain H hg hw ho
    exact ⟨_, r', h1, rfl⟩
  | true =>
    obtain ⟨z, r', h1, h2⟩ := write_gz D H hg hw ho
    exact ⟨z, r', h1, h2⟩

/-- Writing a pair, plain or compressed. -/
theorem pair_stored (D : LawfulDeflater IsMember) {f : Bytes → Bytes} (H : Hashlib.hash (lit "sha1") = some f) {c : BuilderCfg} {req resp R : OutRecord FileObj}
    {hb d hb' d' : Bytes} (hw : Writable c.filter resp hb d) (hw' : Writable c.filter R hb' d') (hl : linkRequest req resp = some R) {o : OutFile} (ho : o.AtEnd) :
    ∃ z z' req' resp', writePair c req resp o = (.ok (), req', resp', o.extended (z ++ z')) ∧
      Stored IsMember c.gzip z (recordBytes resp.recHeaders.protocol resp.recHeaders.statusline (writtenHeaders f resp hb d) (blockOf resp hb d)) ∧
      Stored IsMember c.gzip z' (recordBytes R.recHeaders.protocol R.recHeaders.statusline (writtenHeaders f R hb' d') (blockOf R hb' d')) := by
  obtain ⟨z, resp', k1, k2⟩ := write_stored D H hw ho
  obtain ⟨z', req', m1, m2⟩ := write_stored D H hw' (extended_atEnd o z)
  refine ⟨z, z', req', resp', ?_, k2, m2⟩
  unfold writePair
  rw [hl, k1]
  simp only
  rw [m1]
  simp [OutFile.extended]

/-- C46 for any writer, plain or compressed; with compression there is one member for each record. -/
theorem C46_stored_partial (D : LawfulDeflater IsMember) {f : Bytes → Bytes} (H : Hashlib.hash (lit "sha1") = some f) {c : BuilderCfg} {req resp : OutRecord FileObj}
    {hb d hb' d' : Bytes} (hw : Writable c.filter resp hb d) (hw' : Writable c.filter req hb' d') {u t : Str}
    (hu : firstValue (lit "WARC-Target-URI") resp.recHeaders.headers = some u) (ht : firstValue (lit "WARC-Date") resp.recHeaders.headers = some t)
    (h1 : AtMostOne (lit "WARC-Target-URI") req.recHeaders.headers) (h2 : AtMostOne (lit "WARC-Date") req.recHeaders.headers)
    {o : OutFile} (ho : o.AtEnd) :
    ∃ z z' hs hs' req' resp', writePair c req resp o = (.ok (), req', resp', o.extended (z ++ z')) ∧
      Stored IsMember c.gzip z (recordBytes resp.recHeaders.protocol resp.recHeaders.statusline hs (blockOf resp hb d)) ∧
      Stored IsMember c.gzip z' (recordBytes req.recHeaders.protocol req.recHeaders.statusline hs' (blockOf req hb' d')) ∧
      HeadersFor resp (blockOf resp hb d) hs ∧
      lastValue (lit "Content-Length") hs' = some (intToStr (len (blockOf req hb' d'))) ∧
      values (lit "WARC-Target-URI") hs' = [u] ∧ values (lit "WARC-Date") hs' = [t] ∧
      (∀ id, id ≠ [] → firstValue (lit "WARC-Record-ID") resp.recHeaders.headers = some id →
        named (lit "WARC-Concurrent-To") hs' = named (lit "WARC-Concurrent-To") req.recHeaders.headers ++ [(lit "WARC-Concurrent-To", id)]) ∧
      without (ownNames ++ [lit "WARC-Target-URI", lit "WARC-Date", lit "WARC-Concurrent-To"]) hs' =
        without (ownNames ++ [lit "WARC-Target-URI", lit "WARC-Date", lit "WARC-Concurrent-To"]) req.recHeaders.headers := by
  obtain ⟨R, l1, hw'', r2, r3, r4, -, e1, e2, e3, e4, -⟩ := linked_facts hw' hu ht h1 h2 f
  obtain ⟨z, z', req', resp', k1, k2, k3⟩ := pair_stored D H hw hw'' l1 ho
  have r5 : blockOf R hb' d' = blockOf req hb' d' := by unfold blockOf; rw [r4]
  rw [r2, r3, r5] at k3
  exact ⟨z, z', _, _, req', resp', k1, k2, k3, headersFor f resp hb d, r5 ▸ (headersFor f R hb' d').length, e1, e2, e3, e4⟩

omit [Hashlib] [Deflater] in
theorem message_ne {recType : Str} {h : StatusAndHeaders} {d b : Bytes} (m : Message recType h d b) : utf8Encode (headText h.protocol h.statusline h.headers) ≠ [] := by
  intro hc
  have := (httpHead_toBytes m.regular []).first
  rw [List.append_nil, toBytes_headText m.regular.protocol.1, hc] at this
  exact this rfl

omit [Hashlib] [Deflater] in
/-- Parsing the headers of a message. -/
theorem httpOf_message {uri recType : Str} (ht : HttpRecord (some recType) (some uri)) {h : StatusAndHeaders} {d b : Bytes} (m : Message recType h d b)
    {p : RecStream FileObj} (hp : Holds p b) {length : Option Int} (hl : length = none ∨ length = some (len b) ∧ AtStart p) :
    ∃ h' p', httpOf uri recType (some p) length none = .ok (some h', some p', length.map (fun _ => len d)) ∧ Holds p' d ∧
      h'.protocol = h.protocol ∧ h'.statusline = h.statusline ∧ h'.headers = h.headers := by
  have hb : b = h.toBytes ++ d := by rw [toBytes_headText m.regular.protocol.1]; exact m.bytes
  have hne : b ≠ [] := by
    rw [m.bytes]
    intro hc
    exact message_ne m (List.append_eq_nil_iff.1 hc).1
  obtain ⟨content, sk, v1, v2⟩ := overFile_of hp hne
  have hwf : ∀ ps : List Str, GoodList ps → h.protocol ∈ ps → WellFormed ⟨ps, true⟩ h := fun ps g k =>
    ⟨m.regular.status.1, m.regular.status.2, m.regular.headers, .inl ⟨rfl, g, k⟩⟩
  have hload : ∃ h' p', Loader.loadHttpHeaders true (some recType) (some uri) length p = (.ok (some h'), p') ∧ OverFile content sk p' d ∧
      h'.protocol = h.protocol ∧ h'.statusline = h.statusline ∧ h'.headers = h.headers := by
    obtain ⟨t1, u, hu, t2⟩ := ht
    cases hu
    unfold Loader.loadHttpHeaders
    have l0 : length ≠ some 0 := by
      rcases hl with hl | ⟨hl, -⟩
      · rw [hl]; simp
      · rw [hl]
        have := List.length_pos_iff.2 hne
        simp only [len, ne_eq, Option.some.injEq]; omega
    have hr : Loader.httpRecords.contains recType = true := by
      rcases t1 with h | h | h <;> (cases h; decide)
    have hs : (Loader.httpSchemes.any (fun p => startsWith p uri)) = true := by
      rcases t2 with h | h
      · exact List.any_eq_true.2 ⟨lit "http:", by decide, (List.isPrefixOf_iff_prefix.2 h)⟩
      · exact List.any_eq_true.2 ⟨lit "https:", by decide, (List.isPrefixOf_iff_prefix.2 h)⟩
    rw [if_neg l0]
    simp only [hr, hs, Bool.not_true, Bool.false_eq_true, if_false]
    have hk := m.known
    split
    · rename_i hq
      rw [if_pos hq] at hk
      obtain ⟨h', p', k1, k2, k3, k4, k5⟩ := C11_roundtrip (overFile_line content sk) (Loader.httpReqParser true) h (hwf _ goodList_verbs hk) d p (hb ▸ v1)
      rw [k1]
      exact ⟨h', p', rfl, k5, k2, k3, k4⟩
    · rename_i hq
      rw [if_neg hq] at hk
      obtain ⟨h', p', k1, k2, k3, k4, k5⟩ := C11_roundtrip (overFile_line content sk) (Loader.httpParser true) h (hwf _ goodList_http hk) d p (hb ▸ v1)
      rw [k1]
      exact ⟨h', p', rfl, k5, k2, k3, k4⟩
  obtain ⟨h', p', k1, k2, k3, k4, k5⟩ := hload
  refine ⟨h', p', ?_, overFile_holds k2, k3, k4, k5⟩
  unfold httpOf
  simp only [Loader.truthyHeaders, Bool.false_eq_true, if_false]
  rw [k1]
  rcases hl with rfl | ⟨rfl, hs⟩
  · rfl
  · obtain ⟨rfl, rfl⟩ := v2 hs
    obtain ⟨k, e1, e2⟩ := overFile_tell k2
    have htr : h'.truthy = true := by
      have := m.regular.truthy
      rw [← k4, ← k5] at this
      unfold StatusAndHeaders.truthy
      rcases this with h | h <;> simp [h]
    simp only [Loader.truthyHeaders, htr, if_true, e1]
    rw [show len content - (k : Int) = len d by omega]
    rfl

/-- What was created can be written. -/
structure CreatedReady (c : BuilderCfg) (f : Bytes → Bytes) (env : Env) (a : CreateArgs FileObj) (b d : Bytes) (r : OutRecord FileObj) : Prop where
  created : createRecord c env a = .ok r
  writable : ∃ hb, Writable c.filter r hb d ∧ b = hb ++ d
  recType : r.recType = some a.recType
  version : r.recHeaders.protocol = c.version ∧ r.recHeaders.statusline = []
  headers : r.recHeaders.headers = initList c.version env a.uri a.recType a.dict ++
    newDigests f (!(Loader.truthy (StatusAndHeaders.findHeader (lit "WARC-Payload-Digest") (initList c.version env a.uri a.recType a.dict)) || noPayloadDigest (some a.recType))) false [] d

omit [Deflater] in
theorem holds_back {s : RecStream FileObj} {d : Bytes} (h : holds s d) : Holds s d := by
  cases s <;> exact h

omit [Deflater] in
theorem created_message {f : Bytes → Bytes} (H : Hashlib.hash (lit "sha1") = some f) {c : BuilderCfg} (hf : c.filter = some) (hv : c.version ≠ []) {env : Env}
    {a : CreateArgs FileObj} (ha : a.headers = none ∧ a.http = none) {p : RecStream FileObj} (hp : a.payload = some p) {h : StatusAndHeaders} {d b : Bytes}
    (hb : Holds p b) (hl : a.length = none ∨ a.length = some (len b) ∧ AtStart p)
    (ht : HttpRecord (some a.recType) (some a.uri)) (m : Message a.recType h d b) :
    ∃ r, CreatedReady c f env a b d r ∧ Holds r.raw d ∧ r.httpHeaders.map (fun x => (x.protocol, x.statusline, x.headers)) = some (h.protocol, h.statusline, h.headers) := by
  obtain ⟨h', p', k1, k2, k3, k4, k5⟩ := httpOf_message ht m hb hl
  obtain ⟨r, q1, q2⟩ := createRecord_created (c := c) (env := env) (d := d) (a := a) H (by rw [hp, ha.2]; exact k1) (holds_of k2)
  have hgv : givenHeaders c env a = ⟨[], initList c.version env a.uri a.recType a.dict, c.version, 0, none⟩ := by
    unfold givenHeaders
    rw [ha.1]
    exact initHeaders_eq _ _ _ _ _
  have hh := q2.headers
  rw [hgv] at hh
  dsimp only at hh
  have hhead : headText h'.protocol h'.statusline h'.headers = headText h.protocol h.statusline h.headers := by rw [k3, k4, k5]
  have hpr : h'.protocol ≠ [] := by rw [k3]; exact m.regular.protocol.1
  have htb : h'.toBytes = utf8Encode (headText h.protocol h.statusline h.headers) := by rw [toBytes_headText hpr, hhead]
  have hasc : isAscii h'.toStr = true := by
    have e : headText h.protocol h.statusline h.headers = h'.toStr ++ lit "\r\n" := by
      have e : utf8Encode (headText h.protocol h.statusline h.headers) = utf8Encode (h'.toStr ++ lit "\r\n") := by
        rw [← htb, utf8Encode_append]
        rfl
      have e := congrArg utf8Decode e
      rw [utf8Decode_encode, utf8Decode_encode] at e
      exact Option.some.inj e
    have hasc := m.ascii
    rw [e] at hasc
    unfold isAscii at hasc ⊢
    rw [List.all_append, Bool.and_eq_true] at hasc
    exact hasc.1
  have hpart : HttpPart c.filter r (utf8Encode (headText h.protocol h.statusline h.headers)) := by
    refine .some h' _ q2.http (by rw [k4, k5]; exact m.regular.truthy) ?_
    rw [hf]
    show (h'.toAsciiBytes).1 = _
    rw [C15_ascii_unchanged h' hasc, htb]
  have hst := holds_back q2.stream
  have hlen : LengthsFit r (utf8Encode (headText h.protocol h.statusline h.headers)) d := by
    have hrl := q2.length
    simp only [Option.isSome_some, if_true] at hrl
    rcases hl with hl | ⟨hl, -⟩
    · rw [hl] at hrl
      exact .unknown hrl (fun h0 => absurd h0 (message_ne m))
    · refine .payload (len d) (message_ne m) ?_ (by simp only [len]; omega) (fun _ => rfl)
      rcases q2.payloadLength with e | e
      · rw [e, hl]; rfl
      · exact e
  exact ⟨r, ⟨q1, ⟨_, ⟨hst, hpart, hlen, by rw [hh]; exact hv⟩, m.bytes⟩, q2.recType, by rw [hh]; exact ⟨rfl, rfl⟩, by rw [hh]⟩, hst, by rw [q2.http]; simp [k3, k4, k5]⟩
omit [Deflater] in
/-- The payload is no HTTP message for the builder. -/
theorem httpOf_data {uri recType : Str} (ht : ¬ HttpRecord (some recType) (some uri)) (p : RecStream FileObj) (length : Option Int) :
    httpOf uri recType (some p) length none = .ok (none, some p, length) := by
  cases hr : Loader.httpRecords.contains recType with
  | false => exact httpOf_other uri hr p length
  | true =>
    have hs : (Loader.httpSchemes.any (fun p => startsWith p uri)) = false := by
      rw [Bool.eq_false_iff]
      intro hc
      refine ht ⟨?_, uri, rfl, (Loader.httpSchemes_iff uri).1 hc⟩
      have : recType ∈ Loader.httpRecords := by simpa using hr
      simp only [Loader.httpRecords, List.mem_cons, List.not_mem_nil, or_false] at this
      rcases this with h | h | h
      · exact .inl (by rw [h])
      · exact .inr (.inl (by rw [h]))
      · exact .inr (.inr (by rw [h]))
    have : Loader.loadHttpHeaders true (some recType) (some uri) length p = (.ok none, p) := by
      unfold Loader.loadHttpHeaders
      simp only [hr, hs, Bool.not_true, Bool.not_false, Bool.false_eq_true, if_true, if_false]
      split <;> rfl
    unfold httpOf
    simp only [this]
    cases length <;> rfl

omit [Deflater] in
theorem created_data {f : Bytes → Bytes} (H : Hashlib.hash (lit "sha1") = some f) {c : BuilderCfg} (hv : c.version ≠ []) {env : Env}
    {a : CreateArgs FileObj} (ha : a.headers = none ∧ a.http = none) {p : RecStream FileObj} (hp : a.payload = some p) {d : Bytes}
    (hb : Holds p d) (hl : a.length = none ∨ a.length = some (len d)) (hn : a.recType ≠ lit "revisit")
    (ht : ¬ HttpRecord (some a.recType) (some a.uri)) :
    ∃ r, CreatedReady c f env a d d r ∧ Holds r.raw d ∧ r.httpHeaders = none := by
  obtain ⟨r, q1, q2⟩ := createRecord_created (c := c) (env := env) (d := d) (a := a) H (by rw [hp, ha.2]; exact httpOf_data ht p a.length) (holds_of hb)
  have hgv : givenHeaders c env a = ⟨[], initList c.version env a.uri a.recType a.dict, c.version, 0, none⟩ := by
    unfold givenHeaders
    rw [ha.1]
    exact initHeaders_eq _ _ _ _ _
  have hh := q2.headers
  rw [hgv] at hh
  dsimp only at hh
  have hst := holds_back q2.stream
  have hty : r.recType ≠ some (lit "revisit") := by
    rw [q2.recType]
    intro h
    exact hn (Option.some.inj h)
  have hlen : LengthsFit r [] d := by
    have hrl := q2.length
    simp only [Option.isSome_some, if_true] at hrl
    rcases hl with hl | hl
    · rw [hl] at hrl
      exact .unknown hrl (fun _ h => absurd h hty)
    · refine .block (fun h => absurd rfl h) ?_
      rw [hrl, hl]
      simp [blockOf, hty]
  exact ⟨r, ⟨q1, ⟨[], ⟨hst, .none q2.http, hlen, by rw [hh]; exact hv⟩, rfl⟩, q2.recType, by rw [hh]; exact ⟨rfl, rfl⟩, by rw [hh]⟩, hst, q2.http⟩
omit [Hashlib] [Deflater] in
theorem initList_named {version : Str} {env : Env} {uri recType : Str} {dict : List Header} {n : Str}
    (a : PyUni.lower (lit "WARC-Type") ≠ PyUni.lower n ∧ PyUni.lower (lit "WARC-Record-ID") ≠ PyUni.lower n ∧ PyUni.lower (lit "WARC-Target-URI") ≠ PyUni.lower n ∧
      PyUni.lower (lit "WARC-Date") ≠ PyUni.lower n) : named n (initList version env uri recType dict) = named n dict := by
  obtain ⟨a1, a2, a3, a4⟩ := a
  unfold initList
  rw [ensured_other a4]
  split
  · rw [ensured_other a2, named_replace_other a1]
  · rw [named_replace_other a3, ensured_other a2, named_replace_other a1]

omit [Hashlib] [Deflater] in
theorem one_value {n v : Str} {hs : List Header} (h1 : lastValue n hs = some v) (h2 : AtMostOne n hs) : values n hs = [v] := by
  unfold lastValue at h1
  rw [Loader.firstValue_eq, findHeader_filter, List.filter_reverse] at h1
  have h2 : (hs.filter (StatusAndHeaders.nameEq n)).length ≤ 1 := h2
  unfold values
  rw [named_eq]
  generalize hs.filter (StatusAndHeaders.nameEq n) = l at h1 h2
  match l, h2 with
  | [], _ => cases h1
  | [x], _ =>
    cases h1
    rfl

omit [Hashlib] [Deflater] in
theorem own_differ {n : Str} (hn : n ∈ [lit "WARC-Type", lit "WARC-Target-URI", lit "WARC-Record-ID", lit "WARC-Date", lit "WARC-Concurrent-To"]) :
    ∀ m ∈ ownNames, PyUni.lower m ≠ PyUni.lower n := by
  intro m hm
  simp only [ownNames, List.mem_cons, List.not_mem_nil, or_false] at hm hn
  rcases hn with rfl | rfl | rfl | rfl | rfl <;> rcases hm with rfl | rfl | rfl | rfl <;> exact differ (by decide) (by decide) (by decide)

omit [Deflater] in
/-- The writer does not touch headers of other names. -/
theorem written_values (f : Bytes → Bytes) (r : OutRecord FileObj) (hb d : Bytes) {n : Str} (hm : ∀ m ∈ ownNames, PyUni.lower m ≠ PyUni.lower n) :
    values n (writtenHeaders f r hb d) = values n r.recHeaders.headers := by
  unfold values
  rw [named_eq, named_eq, written_passes f r hb d (passes_other (hm _ (by simp [ownNames]))) (passes_other (hm _ (by simp [ownNames]))) (passes_other (hm _ (by simp [ownNames])))
    (passes_other (hm _ (by simp [ownNames])))]

omit [Hashlib] [Deflater] in
/-- Headers that agree without some names agree without more. -/
theorem without_more {ns ms : List Str} (h : ∀ n ∈ ns, n ∈ ms) {a b : List Header} (e : without ns a = without ns b) : without ms a = without ms b := by
  have key : ∀ hs : List Header, without ms hs = without ms (without ns hs) := by
    intro hs
    unfold without
    rw [List.filter_filter]
    congr 1
    funext x
    rw [Bool.eq_iff_iff, Bool.and_eq_true]
    refine ⟨fun hx => ⟨hx, ?_⟩, fun hx => hx.1⟩
    rw [List.all_eq_true] at hx ⊢
    exact fun n hn => hx n (h n hn)
  rw [key a, key b, e]

/-- What the digests and the length of a created record are before it is written. -/
structure MadeDigests (f : Bytes → Bytes) (dict : List Header) (recType : Str) (d : Bytes) (hs : List Header) : Prop where
  length : named (lit "Content-Length") hs = named (lit "Content-Length") dict
  block : named (lit "WARC-Block-Digest") hs = named (lit "WARC-Block-Digest") dict
  payload : named (lit "WARC-Payload-Digest") dict = [] → named (lit "WARC-Payload-Digest") hs = if recType = lit "warcinfo" then [] else [(lit "WARC-Payload-Digest", sha1Text f d)]

omit [Deflater] in
theorem noDigest_eq {t : Str} (ht : t ≠ lit "revisit") : noPayloadDigest (some t) = decide (t = lit "warcinfo") := by
  unfold noPayloadDigest
  have : (some t == some (lit "revisit")) = false := by simpa using ht
  rw [this, Bool.or_false]
  rw [Bool.eq_iff_iff]; simp

omit [Deflater] in
theorem created_digests {f : Bytes → Bytes} {c : BuilderCfg} {env : Env} {a : CreateArgs FileObj} (ht : a.recType ≠ lit "revisit") {b d : Bytes} {r : OutRecord FileObj}
    (h : CreatedReady c f env a b d r) : MadeDigests f a.dict a.recType d r.recHeaders.headers := by
  have free : ∀ {n : Str}, n ∈ ownNames → PyUni.lower (lit "WARC-Type") ≠ PyUni.lower n ∧ PyUni.lower (lit "WARC-Record-ID") ≠ PyUni.lower n ∧
      PyUni.lower (lit "WARC-Target-URI") ≠ PyUni.lower n ∧ PyUni.lower (lit "WARC-Date") ≠ PyUni.lower n := by
    intro n hn
    exact ⟨(own_differ (by simp) n hn).symm, (own_differ (by simp) n hn).symm, (own_differ (by simp) n hn).symm, (own_differ (by simp) n hn).symm⟩
  obtain ⟨n1, n2, n3, n4, n5, n6⟩ := names_differ
  refine ⟨?_, ?_, ?_⟩
  · rw [h.headers, named_append, initList_named (free (by simp [ownNames]))]
    unfold newDigests
    split
    · simp only [Bool.false_eq_true, if_false, List.append_nil]
      rw [named_other n3.symm, List.append_nil]
    · simp [named]
  · rw [h.headers, named_append, initList_named (free (by simp [ownNames]))]
    unfold newDigests
    split
    · simp only [Bool.false_eq_true, if_false, List.append_nil]
      rw [named_other n6.symm, List.append_nil]
    · simp [named]
  · intro he
    have hi : named (lit "WARC-Payload-Digest") (initList c.version env a.uri a.recType a.dict) = [] := by
      rw [initList_named (free (by simp [ownNames])), he]
    rw [h.headers, named_append, hi, filter_nil_iff.1 hi, noDigest_eq ht]
    simp only [Loader.truthy, Bool.false_or, List.nil_append]
    unfold newDigests
    by_cases hw : a.recType = lit "warcinfo"
    · simp [hw, named]
    · simp only [hw, decide_false, Bool.not_false, if_true, Bool.false_eq_true, if_false, List.append_nil]
      exact named_self _ _

/-- The length and the digests in the file. -/
theorem written_made {f : Bytes → Bytes} {r : OutRecord FileObj} {hb d : Bytes} {dict : List Header} {recType : Str} (hr : r.recType = some recType) (ht : recType ≠ lit "revisit")
    (hm : MadeDigests f dict recType d r.recHeaders.headers) :
    (AtMostOne (lit "Content-Length") dict → values (lit "Content-Length") (writtenHeaders f r hb d) = [intToStr (len (hb ++ d))]) ∧
    (values (lit "WARC-Block-Digest") dict = [] → values (lit "WARC-Block-Digest") (writtenHeaders f r hb d) = [sha1Text f (hb ++ d)]) ∧
    (values (lit "WARC-Payload-Digest") dict = [] → values (lit "WARC-Payload-Digest") (writtenHeaders f r hb d) = if recType = lit "warcinfo" then [] else [sha1Text f d]) := by
  have hty : r.recType ≠ some (lit "revisit") := by
    rw [hr]
    exact fun e => ht (Option.some.inj e)
  have hbl : blockOf r hb d = hb ++ d := by
    unfold blockOf
    rw [if_neg hty]
  have hB := (written_digests f r hb d (.inl rfl)).trans (block_digests f r hb d)
  have hP := (written_digests f r hb d (.inr rfl)).trans (payload_digests f r hb d)
  obtain ⟨n1, n2, n3, n4, n5, n6⟩ := names_differ
  refine ⟨?_, ?_, ?_⟩
  · intro hx
    have hf := headersFor f r hb d
    rw [hbl] at hf
    refine one_value hf.length (hf.one ?_)
    show (named _ _).length ≤ 1
    rw [hm.length]
    exact hx
  · intro he
    have he : named (lit "WARC-Block-Digest") dict = [] := by simpa [values] using he
    have hbase : (baseHeaders r).filter (StatusAndHeaders.nameEq (lit "WARC-Block-Digest")) = [] := by
      unfold baseHeaders
      cases hl : r.length with
      | some n =>
        rw [← named_eq]
        exact hm.block.trans he
      | none =>
        simp only [hty, if_false]
        rw [filter_remove_passes (passes_other n4), filter_remove_passes (passes_other n6.symm)]
        apply filter_remove_self
        show (named _ _).length ≤ 1
        rw [hm.block, he]
        exact Nat.zero_le _
    rw [hbase, filter_nil_iff.1 hbase] at hB
    unfold values
    rw [named_eq, hB]
    rfl
  · intro he
    have he : named (lit "WARC-Payload-Digest") dict = [] := by simpa [values] using he
    have hq := hm.payload he
    unfold values
    rw [named_eq, hP, hr]
    cases hl : r.length with
    | some n =>
      have hbase : baseHeaders r = r.recHeaders.headers := base_known (by rw [hl]; simp)
      rw [hbase, findHeader_filter, ← named_eq, hq, noDigest_eq ht]
      by_cases hi : recType = lit "warcinfo"
      · simp [hi]
      · simp only [hi, decide_false, if_false, Bool.or_false]
        rw [if_pos]
        · rfl
        · rfl
    | none =>
      have hbase : (baseHeaders r).filter (StatusAndHeaders.nameEq (lit "WARC-Payload-Digest")) = [] := by
        unfold baseHeaders
        rw [hl]
        simp only [hty, if_false]
        rw [filter_remove_passes (passes_other n5)]
        apply filter_remove_self
        show (List.filter (StatusAndHeaders.nameEq (lit "WARC-Payload-Digest")) _).length ≤ 1
        rw [filter_remove_passes (passes_other n6), ← named_eq, hq]
        split <;> simp
      rw [hbase, filter_nil_iff.1 hbase, noDigest_eq ht]
      by_cases hi : recType = lit "warcinfo"
      · simp [hi]
      · simp only [hi, decide_false, Bool.false_eq_true, if_false, Bool.or_false, Loader.truthy]
        rfl

/-- The headers in the file of what was created. -/
theorem created_inFile {f : Bytes → Bytes} {c : BuilderCfg} {env : Env} (hd : IsDate env.now) (hn : env.now.aware = false) {a : CreateArgs FileObj} (ha : a.headers = none)
    (hx : DictFits a.uri a.dict) (ht : a.recType ≠ lit "revisit") {b d hb : Bytes} {r : OutRecord FileObj} (h : CreatedReady c f env a b d r) (hb' : b = hb ++ d) :
    NewInFile f c.version env a.uri a.recType a.dict b d (writtenHeaders f r hb d) := by
  obtain ⟨-, -, -, hnew⟩ := C48_headers_partial hd hn ha hx.type hx.uri hx.id hx.date h.created
  have pass := fun {n} (hm : ∀ m ∈ ownNames, PyUni.lower m ≠ PyUni.lower n) => written_values f r hb d hm
  obtain ⟨w1, w2, w3⟩ := written_made (hb := hb) h.recType ht (created_digests ht h)
  rw [← hb'] at w1 w2
  refine ⟨(pass (own_differ (by simp))).trans hnew.type, (pass (own_differ (by simp))).trans hnew.uri, (pass (own_differ (by simp))).trans hnew.id, ?_, w1 hx.length, w2, w3, ?_⟩
  · obtain ⟨t, d1, d2⟩ := hnew.date
    exact ⟨t, d1, (pass (own_differ (by simp))).trans d2⟩
  · have p : ∀ {n : Str}, n ∈ madeNames ++ ownNames → _ := fun h => passes_without h
    refine Eq.trans (written_passes f r hb d (p (by simp [ownNames])) (p (by simp [ownNames])) (p (by simp [ownNames])) (p (by simp [ownNames]))) ?_
    exact without_more (fun n hn => List.mem_append_left _ hn) hnew.others

/-! ## C66 -/

theorem created_stored (D : LawfulDeflater IsMember) {f : Bytes → Bytes} (H : Hashlib.hash (lit "sha1") = some f) {c : BuilderCfg} {env : Env}
    (hd : IsDate env.now) (hn : env.now.aware = false) {a : CreateArgs FileObj} (ha : a.headers = none) (hx : DictFits a.uri a.dict) (ht : a.recType ≠ lit "revisit")
    {b d : Bytes} {r : OutRecord FileObj} (h : CreatedReady c f env a b d r) {o : OutFile} (ho : o.AtEnd) :
    ∃ z hs r', write c r o = (.ok (), r', o.extended z) ∧ Stored IsMember c.gzip z (recordBytes c.version [] hs b) ∧
      NewInFile f c.version env a.uri a.recType a.dict b d hs := by
  obtain ⟨hb, hw, hb'⟩ := h.writable
  obtain ⟨z, r', k1, k2⟩ := write_stored D H hw ho
  have hbl : blockOf r hb d = b := by
    unfold blockOf
    rw [h.recType, if_neg (fun e => ht (Option.some.inj e)), hb']
  rw [hbl, h.version.1, h.version.2] at k2
  exact ⟨z, _, r', k1, k2, created_inFile hd hn ha hx ht h hb'⟩

/-- C66: a request or response that is created from a stream with an HTTP message is written, plain
or compressed, with this message as its block; its length and digests are those of the message and
of the body, and the record's stream holds the body.  The stream is any file with any short reads.
Partial: the headers of the message are well formed, ASCII and start with a known word (see
`C66_unknown_verb`), and if the length is given, it is true and the stream is at its start (see
`C66_position`). -/
theorem C66_message_partial (D : LawfulDeflater IsMember) {f : Bytes → Bytes} (H : Hashlib.hash (lit "sha1") = some f) {c : BuilderCfg} (hf : c.filter = some) (hv : c.version ≠ [])
    {env : Env} (hd : IsDate env.now) (hn : env.now.aware = false) {a : CreateArgs FileObj} (ha : a.headers = none ∧ a.http = none) (hx : DictFits a.uri a.dict)
    {p : RecStream FileObj} (hp : a.payload = some p) {h : StatusAndHeaders} {d b : Bytes} (hb : Holds p b) (hl : a.length = none ∨ a.length = some (len b) ∧ AtStart p)
    (ht : HttpRecord (some a.recType) (some a.uri)) (hr : a.recType ≠ lit "revisit") (m : Message a.recType h d b) {o : OutFile} (ho : o.AtEnd) :
    ∃ r z hs r', createRecord c env a = .ok r ∧ r.httpHeaders.map (fun x => (x.protocol, x.statusline, x.headers)) = some (h.protocol, h.statusline, h.headers) ∧ Holds r.raw d ∧
      write c r o = (.ok (), r', o.extended z) ∧ Stored IsMember c.gzip z (recordBytes c.version [] hs b) ∧
      NewInFile f c.version env a.uri a.recType a.dict b d hs := by
  obtain ⟨r, k1, k2, k3⟩ := created_message (env := env) H hf hv ha hp hb hl ht m
  obtain ⟨z, hs, r', q1, q2, q3⟩ := created_stored D H hd hn ha.1 hx hr k1 ho
  exact ⟨r, z, hs, r', k1.created, k3, k2, q1, q2, q3⟩

/-- C66 for everything that is no HTTP record: the block is what the stream holds, whatever it is. -/
theorem C66_data (D : LawfulDeflater IsMember) {f : Bytes → Bytes} (H : Hashlib.hash (lit "sha1") = some f) {c : BuilderCfg} (hv : c.version ≠ [])
    {env : Env} (hd : IsDate env.now) (hn : env.now.aware = false) {a : CreateArgs FileObj} (ha : a.headers = none ∧ a.http = none) (hx : DictFits a.uri a.dict)
    {p : RecStream FileObj} (hp : a.payload = some p) {d : Bytes} (hb : Holds p d) (hl : a.length = none ∨ a.length = some (len d))
    (ht : ¬ HttpRecord (some a.recType) (some a.uri)) (hr : a.recType ≠ lit "revisit") {o : OutFile} (ho : o.AtEnd) :
    ∃ r z hs r', createRecord c env a = .ok r ∧ r.httpHeaders = none ∧ Holds r.raw d ∧
      write c r o = (.ok (), r', o.extended z) ∧ Stored IsMember c.gzip z (recordBytes c.version [] hs d) ∧
      NewInFile f c.version env a.uri a.recType a.dict d d hs := by
  obtain ⟨r, k1, k2, k3⟩ := created_data (env := env) H hv ha hp hb hl hr ht
  obtain ⟨z, hs, r', q1, q2, q3⟩ := created_stored D H hd hn ha.1 hx hr k1 ho
  exact ⟨r, z, hs, r', k1.created, k3, k2, q1, q2, q3⟩

end

/-! ## Concrete cases -/

section
open Toy

/-- A message. -/
def mBytes : Bytes := utf8Encode (lit "HTTP/1.0 200 OK\r\nA: b\r\n\r\nabc")

/-- Arguments for a response with this stream. -/
def mArgs (f : FileObj) (length : Option Int) : CreateArgs FileObj :=
  { uri := lit "http://a/", recType := lit "response", payload := some (.own f), length := length }

theorem m_message : Message (lit "response") wHttp [97, 98, 99] mBytes where
  bytes := by decide +kernel
  regular := {
    protocol := ⟨by decide, by decide, by decide, by decide⟩
    status := ⟨by decide, by decide⟩
    headers := by
      intro x hx
      rw [show wHttp.headers = [(lit "A", lit "b")] from rfl, List.mem_singleton] at hx
      subst hx
      exact { name_lf := by decide, name_colon := by decide, name_end := by decide, value_lf := by decide, value_end := by decide, name_start := by decide, value_start := by decide }
    truthy := .inl (by decide) }
  ascii := by decide +kernel
  known := by decide

/-- The hypotheses of C66 hold for a response; for a file with short reads that cannot seek if the
length is not given. -/
example : ∃ a : CreateArgs FileObj, a.payload = some (.own { content := 120 :: mBytes, pos := 1, caps := [3, 1], seekable := false }) ∧ a.length = none ∧
    Holds (.own { content := 120 :: mBytes, pos := 1, caps := [3, 1], seekable := false }) mBytes ∧ a.headers = none ∧ a.http = none ∧ DictFits a.uri a.dict ∧
    HttpRecord (some a.recType) (some a.uri) ∧ a.recType ≠ lit "revisit" ∧ Message a.recType wHttp [97, 98, 99] mBytes ∧ LawfulDeflater IsMember :=
  ⟨mArgs _ none, rfl, rfl, rfl, rfl, rfl, ⟨by show _ ≤ 1; decide, fun _ => by show _ ≤ 1; decide, by decide, by decide, by show _ ≤ 1; decide⟩,
    ⟨.inl rfl, _, rfl, .inl ⟨_, rfl⟩⟩, by decide, m_message, lawfulDeflater⟩

/-- The hypotheses of `C46_stored_partial` hold (and see the example for C46 in `Props/Writer.lean`). -/
example : firstValue (lit "WARC-Target-URI") wResponse.recHeaders.headers = some (lit "http://a/") ∧ firstValue (lit "WARC-Date") wResponse.recHeaders.headers = some (lit "2020") ∧
    (writePair { gzip := true } { wResponse with recType := some (lit "request"), recHeaders := wHead (lit "request") } wResponse {}).1 = .ok () := by
  decide +kernel

/-- What C66 is about, computed. -/
example : wResult (createRecord {} wEnv (mArgs { content := mBytes } (some 28))) =
    (.ok (), some (mBytes ++ [13, 10, 13, 10]), some (lit "28")) ∧ mBytes.length = 28 := by decide +kernel

/-- C66 fails if the length is given and the stream is not at its start: the place in the file is
subtracted from the length instead of the size of the headers.  Here two bytes stand before the
message, and `Content-Length` is 26 for a block of 28 bytes. -/
theorem C66_position : Holds (.own { content := [120, 120] ++ mBytes, pos := 2 }) mBytes ∧ mBytes.length = 28 ∧
    wResult (createRecord {} wEnv (mArgs { content := [120, 120] ++ mBytes, pos := 2 } (some 28))) =
      (.ok (), some (mBytes ++ [13, 10, 13, 10]), some (lit "26")) := ⟨rfl, by decide +kernel⟩

/-- C66 fails if the verb of a request is not in the list of verbs: no record is created. -/
theorem C66_unknown_verb :
    wResult (createRecord {} wEnv { mArgs { content := utf8Encode (lit "PROPFIND / HTTP/1.1\r\nHost: a\r\n\r\n") } none with recType := lit "request" }) =
      (.error (.statusParser (lit "PROPFIND / HTTP/1.1\r\n")), none, none) := by decide +kernel

/-- C66 fails if the headers are not as the library writes them: here without a space behind the
colon, where the block becomes longer than the payload. -/
theorem C66_reformatted :
    wResult (createRecord {} wEnv (mArgs { content := utf8Encode (lit "HTTP/1.0 200 OK\r\nA:b\r\n\r\nabc") } (some 27))) =
      (.ok (), some (mBytes ++ [13, 10, 13, 10]), some (lit "28")) := by decide +kernel

end
end Warcio.Props
